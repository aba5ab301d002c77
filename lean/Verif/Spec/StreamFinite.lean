import Verif.Spec.Stream
import Verif.Spec.Finite
/-
Which nodes come to be rendered in the course of the rendering of a node, when user functions render.
-/
namespace Aitch.Spec.Stream
open Aitch.Stream

/-- The body of a function can call `Render` of node `n`. -/
inductive MayRender {α : Type} : FnProg α → Node → Prop
  | now {n k} : MayRender (.render n k) n
  | user {upd k s n} : MayRender (k s) n → MayRender (.user upd k) n
  | write {d k r s n} : MayRender (k r s) n → MayRender (.write d k) n
  | rendered {m k e s n} : MayRender (k e s) n → MayRender (.render m k) n

/-- It can return `a`. -/
inductive MayReturn {α : Type} : FnProg α → α → Prop
  | now {a} : MayReturn (.ret a) a
  | user {upd k s a} : MayReturn (k s) a → MayReturn (.user upd k) a
  | write {d k r s a} : MayReturn (k r s) a → MayReturn (.write d k) a
  | rendered {m k e s a} : MayReturn (k e s) a → MayReturn (.render m k) a

/-- It can change memory in this way. -/
inductive MayChange {α : Type} : FnProg α → (St → St) → Prop
  | now {upd k} : MayChange (.user upd k) upd
  | user {upd k s u} : MayChange (k s) u → MayChange (.user upd k) u
  | write {d k r s u} : MayChange (k r s) u → MayChange (.write d k) u
  | rendered {m k e s u} : MayChange (k e s) u → MayChange (.render m k) u

/-- The function of `IterateYield` can call `Render` of node `n`. -/
inductive YieldMayRender : YieldBody → Node → Prop
  | now {n k} : YieldMayRender (.render n k) n
  | yield {it k s n} : YieldMayRender (k s) n → YieldMayRender (.yield it k) n
  | user {upd k s n} : YieldMayRender (k s) n → YieldMayRender (.user upd k) n
  | write {d k r s n} : YieldMayRender (k r s) n → YieldMayRender (.write d k) n
  | rendered {m k e s n} : YieldMayRender (k e s) n → YieldMayRender (.render m k) n

/-- It can change memory in this way. -/
inductive YieldMayChange : YieldBody → (St → St) → Prop
  | now {upd k} : YieldMayChange (.user upd k) upd
  | yield {it k s u} : YieldMayChange (k s) u → YieldMayChange (.yield it k) u
  | user {upd k s u} : YieldMayChange (k s) u → YieldMayChange (.user upd k) u
  | write {d k r s u} : YieldMayChange (k r s) u → YieldMayChange (.write d k) u
  | rendered {m k e s u} : YieldMayChange (k e s) u → YieldMayChange (.render m k) u

/-- The function of `Imperative` can pass node `n` to `WriteNodes` or `Start`, or call its `Render`. -/
inductive ImpMayRender : ImpProg → Node → Prop
  | nodes {ns k n} : some n ∈ ns → ImpMayRender (.call (.writeNodes ns) k) n
  | start {name v as k n} : some n ∈ as → ImpMayRender (.call (.start name v as) k) n
  | now {n k} : ImpMayRender (.render n k) n
  | call {op k s n} : ImpMayRender (k s) n → ImpMayRender (.call op k) n
  | user {upd k s n} : ImpMayRender (k s) n → ImpMayRender (.user upd k) n
  | write {d k r s n} : ImpMayRender (k r s) n → ImpMayRender (.write d k) n
  | rendered {m k e s n} : ImpMayRender (k e s) n → ImpMayRender (.render m k) n

/-- It can change memory in this way. -/
inductive ImpMayChange : ImpProg → (St → St) → Prop
  | now {upd k} : ImpMayChange (.user upd k) upd
  | call {op k s u} : ImpMayChange (k s) u → ImpMayChange (.call op k) u
  | user {upd k s u} : ImpMayChange (k s) u → ImpMayChange (.user upd k) u
  | write {d k r s u} : ImpMayChange (k r s) u → ImpMayChange (.write d k) u
  | rendered {m k e s u} : ImpMayChange (k e s) u → ImpMayChange (.render m k) u

mutual
/-- The functions in a value. -/
def valueFns : Value → List FnId
  | .mk _ (some (.user f)) _ => [f]
  | .mk _ (some _) _ => []
  | .mk _ none cs => valuesFns cs
/-- The functions in values. -/
def valuesFns : List Value → List FnId
  | [] => []
  | v :: vs => valueFns v ++ valuesFns vs
end

/-- Delimited attribute `r` holds no other functions than `D r`. -/
def HeapIn (D : Nat → FnId → Prop) (dl : Nat → List Value) : Prop := ∀ r, ∀ f ∈ valuesFns (dl r), D r f

/-- The functions that an attribute calls. -/
inductive AttrCalls (D : Nat → FnId → Prop) : Attr → Action → Prop
  | plain {n vs f} : f ∈ valuesFns vs → AttrCalls D (.plain n vs) (.dyn f)
  | delim {n d r f} : D r f → AttrCalls D (.delim n d r) (.dyn f)

/-- The functions that the attributes of an element and their conditions call. -/
inductive HeadCalls (D : Nat → FnId → Prop) (h : ElemHead) : Action → Prop
  | attr {a c} : a ∈ h.attributes → AttrCalls D a c → HeadCalls D h c
  | condAttr {ca c} : ca ∈ h.conditionals → AttrCalls D ca.att c → HeadCalls D h c
  | cond {ca f} : ca ∈ h.conditionals → .user f ∈ ca.conditions → HeadCalls D h (.cond f)

/-- The functions that a node calls, apart from those in its contents. -/
inductive Calls (D : Nat → FnId → Prop) : Node → Action → Prop
  | element {h cs c} : HeadCalls D h c → Calls D (.element h cs) c
  | voidElement {h c} : HeadCalls D h c → Calls D (.voidElement h) c
  | attr {a c} : AttrCalls D a c → Calls D (.attr a) c
  | text {vs f} : f ∈ valuesFns vs → Calls D (.text vs) (.dyn f)
  | comment {vs f} : f ∈ valuesFns vs → Calls D (.comment vs) (.dyn f)
  | fragment {vs f} : f ∈ valuesFns vs → Calls D (.fragment vs) (.dyn f)
  | pi {n vs f} : f ∈ valuesFns vs → Calls D (.pi n vs) (.dyn f)
  | conditional {ns as f} : Calls D (.conditional ns as (.user f)) (.cond f)
  | iterator {ns f} : Calls D (.iterator ns (.user f)) (.items f)
  | yieldIterator {ns f} : Calls D (.yieldIterator ns f) (.yields f)
  | collector {f} : Calls D (.collector f) (.collect f)
  | imperative {f} : Calls D (.imperative (some f)) (.imp f)

/-- The nodes in a node. -/
inductive Within : Node → Node → Prop
  | element {h cs n} : n ∈ cs → Within n (.element h cs)
  | collection {ns n} : n ∈ ns → Within n (.collection ns)
  | conditional {ns as k n} : n ∈ ns → Within n (.conditional ns as k)
  | iterator {ns src n} : n ∈ ns → Within n (.iterator ns src)
  | yieldIterator {ns f n} : n ∈ ns → Within n (.yieldIterator ns f)
  | preamble {n cs} : Within n (.document (some n) cs)
  | document {p cs n} : n ∈ cs → Within n (.document p cs)

/-- The nodes that a function can render, in whatever state it is called, and those that it can supply. -/
inductive Gives (env : Env) (B : Bodies) : Action → Node → Prop
  | dyn {f s n} : MayRender (B.dyn f s) n → Gives env B (.dyn f) n
  | cond {f s n} : MayRender (B.cond f s) n → Gives env B (.cond f) n
  | items {f s n} : MayRender (B.items f s) n → Gives env B (.items f) n
  | collect {f s n} : MayRender (B.collect f s) n → Gives env B (.collect f) n
  | collected {f s ns n} : MayReturn (B.collect f s) ns → some n ∈ ns → Gives env B (.collect f) n
  | yields {f s n} : YieldMayRender (B.yields f s) n → Gives env B (.yields f) n
  | imp {f s n} : ImpMayRender (env.imp f s) n → Gives env B (.imp f) n

/-- `m` is in `n`, or a function that `n` calls gives it. -/
inductive Below (env : Env) (B : Bodies) (D : Nat → FnId → Prop) (m n : Node) : Prop
  | within : Within m n → Below env B D m n
  | given {c} : Calls D n c → Gives env B c m → Below env B D m n

/-- Following the nodes in a node, and those that its functions render, always comes to an end. -/
def Founded (env : Env) (B : Bodies) (D : Nat → FnId → Prop) (n : Node) : Prop := Acc (Below env B D) n

/-- Functions do not put other functions into delimited attributes. -/
structure Steady (env : Env) (B : Bodies) (D : Nat → FnId → Prop) : Prop where
  dyn : ∀ f s u, MayChange (B.dyn f s) u → ∀ t, HeapIn D t.dl → HeapIn D (u t).dl
  cond : ∀ f s u, MayChange (B.cond f s) u → ∀ t, HeapIn D t.dl → HeapIn D (u t).dl
  items : ∀ f s u, MayChange (B.items f s) u → ∀ t, HeapIn D t.dl → HeapIn D (u t).dl
  collect : ∀ f s u, MayChange (B.collect f s) u → ∀ t, HeapIn D t.dl → HeapIn D (u t).dl
  yields : ∀ f s u, YieldMayChange (B.yields f s) u → ∀ t, HeapIn D t.dl → HeapIn D (u t).dl
  imp : ∀ f s u, ImpMayChange (env.imp f s) u → ∀ t, HeapIn D t.dl → HeapIn D (u t).dl

end Aitch.Spec.Stream
