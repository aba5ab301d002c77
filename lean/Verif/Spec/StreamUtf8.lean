import Verif.Spec.Utf8
import Verif.Spec.StreamTemplate
/-
All texts of a template, of the data and of the user functions belong to a given class of texts, when functions write and
render.
-/
namespace Aitch.Spec.Stream
open Aitch.Stream

section
variable (T : Bytes → Prop)

/-- The texts that a function writes, and those in the nodes that it renders, are in `T`, and its result satisfies `P`; it
keeps the texts in memory in `T`. -/
inductive BodyTexts {α : Type} (P : α → Prop) : FnProg α → Prop
  | ret {a} : P a → BodyTexts P (.ret a)
  | user {upd k} : KeepsTexts T upd → (∀ s : St, MemoryTexts T s.toCtx → BodyTexts P (k s)) → BodyTexts P (.user upd k)
  | write {d k} : T d → (∀ r (s : St), MemoryTexts T s.toCtx → BodyTexts P (k r s)) → BodyTexts P (.write d k)
  | render {n k} : NodeTexts T n → (∀ e (s : St), MemoryTexts T s.toCtx → BodyTexts P (k e s)) → BodyTexts P (.render n k)

/-- The same for a function of `IterateYield`, and the texts in what it yields. -/
inductive YieldBodyTexts : YieldBody → Prop
  | done : YieldBodyTexts .done
  | yield {it k} : AnyTexts T it → (∀ s : St, MemoryTexts T s.toCtx → YieldBodyTexts (k s)) → YieldBodyTexts (.yield it k)
  | user {upd k} : KeepsTexts T upd → (∀ s : St, MemoryTexts T s.toCtx → YieldBodyTexts (k s)) → YieldBodyTexts (.user upd k)
  | write {d k} : T d → (∀ r (s : St), MemoryTexts T s.toCtx → YieldBodyTexts (k r s)) → YieldBodyTexts (.write d k)
  | render {n k} : NodeTexts T n → (∀ e (s : St), MemoryTexts T s.toCtx → YieldBodyTexts (k e s)) →
      YieldBodyTexts (.render n k)

/-- The user functions, called with texts of `T` in memory, write, render and return texts of `T` and keep those in memory
in `T`. -/
structure BodiesTexts (env : Env) (B : Bodies) : Prop where
  dyn : ∀ f (s : St), MemoryTexts T s.toCtx → BodyTexts T T (B.dyn f s)
  cond : ∀ f (s : St), MemoryTexts T s.toCtx → BodyTexts T (fun _ => True) (B.cond f s)
  collect : ∀ f (s : St), MemoryTexts T s.toCtx → BodyTexts T (fun ns => ∀ n, some n ∈ ns → NodeTexts T n) (B.collect f s)
  items : ∀ f (s : St), MemoryTexts T s.toCtx → BodyTexts T (AnysTexts T) (B.items f s)
  yields : ∀ f (s : St), MemoryTexts T s.toCtx → YieldBodyTexts T (B.yields f s)
  imp : ∀ f (s : St), MemoryTexts T s.toCtx → ImpTexts T (env.imp f s)

/-- The texts of a template and of its nodes are in `T`. -/
def PartTexts : Part → Prop
  | .text x => T x
  | .call n _ => NodeTexts T n

end

end Aitch.Spec.Stream
