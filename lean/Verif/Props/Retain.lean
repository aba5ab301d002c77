import Verif.Proofs.Retain
import Verif.Proofs.Unique
import Verif.Proofs.Quiet
import Verif.Spec.Sample
/-
C83: byte slices that are given to the library and written into afterwards.
-/
namespace Aitch
open Spec
namespace Props
open Retain (Kept Mem KImp)
open Spec.Retain

/-- C83 — A node shows what it was given: whatever a program does with its byte slices after it has given them to the
library, a node renders as if the library had copied them. -/
def C83_claim : Prop :=
  ∀ m p i env s e s', KeepsLengths m p → Rendered m p i env s e s' → RenderedCopied m p i env s e s'

/-- A buffer is given to `Text` and used again. -/
def reused : List Step := [.call (.text [.slice 0]), .set 0 b%"two"]

@[inherit_doc reused] def buffer : Mem := fun _ => b%"one"

theorem reused_now : ∃ s', Rendered buffer reused 0 Sample.env Sample.st none s' ∧ s'.out = b%"two" :=
  ⟨_, ⟨_, rfl, 2, rfl⟩, rfl⟩

theorem reused_copied : ∃ s', RenderedCopied buffer reused 0 Sample.env Sample.st none s' ∧ s'.out = b%"one" :=
  ⟨_, ⟨_, rfl, 2, rfl⟩, rfl⟩

theorem renderedCopied_unique {m : Mem} {p : List Step} {i : Nat} {env : Env} {s : St} {e₁ e₂ : Option Err} {s₁ s₂ : St}
    (h₁ : RenderedCopied m p i env s e₁ s₁) (h₂ : RenderedCopied m p i env s e₂ s₂) : e₁ = e₂ ∧ s₁ = s₂ := by
  obtain ⟨n₁, hn₁, h₁⟩ := h₁
  obtain ⟨n₂, hn₂, h₂⟩ := h₂
  rw [hn₁] at hn₂
  injection hn₂ with hn₂
  injection hn₂ with hn₂
  subst hn₂
  exact runs_unique h₁ h₂

/-- C83 — The code keeps the slices themselves: the node shows what is in the buffer when it is rendered. -/
theorem C83_false : ¬ C83_claim := by
  intro h
  obtain ⟨s', h1, ho⟩ := reused_now
  obtain ⟨t', h2, ht⟩ := reused_copied
  have h3 := h buffer reused 0 Sample.env Sample.st none s' ⟨rfl, trivial⟩ h1
  obtain ⟨-, rfl⟩ := renderedCopied_unique h2 h3
  rw [ho] at ht
  exact absurd ht (by decide)

theorem vars_now {m : Mem} {p : List Step} (hn : NamesLeft p) :
    copied (after m p) .empty (calls p) =
      ⟨(run m .empty p).vars.map (·.now (after m p)), (run m .empty p).heap.now (after m p)⟩ :=
  run_copied p hn m .empty fun _ ha => nomatch ha

/-- C83 — What is shown instead: what the slices hold when the node is rendered, as if all calls had been made then.  This
holds if names of attributes are left alone (element names, delimiters, values need not be). -/
theorem C83_exact_partial (m : Mem) (p : List Step) (i : Nat) (env : Env) (s : St) (e : Option Err) (s' : St)
    (hn : NamesLeft p) : Rendered m p i env s e s' ↔ RenderedCopied (after m p) (calls p) i env s e s' := by
  unfold Rendered RenderedCopied
  rw [vars_now hn]
  simp only [List.getElem?_map, Option.map_eq_some_iff]
  constructor
  · rintro ⟨n, hi, h⟩
    exact ⟨n.now (after m p), ⟨.node n, hi, rfl⟩, h⟩
  · rintro ⟨n, ⟨a, hi, ha⟩, h⟩
    cases a with
    | node k =>
      injection ha with ha
      subst ha
      exact ⟨k, hi, h⟩
    | fixed a ha' =>
      simp only [Retain.KAny.now] at ha
      subst ha
      exact ha'.elim
    | _ => cases ha

/-- C83 — So the claim holds for programs that leave the slices they have given to the library alone. -/
theorem C83_unchanged_partial (m : Mem) (p : List Step) (i : Nat) (env : Env) (s : St) (e : Option Err) (s' : St)
    (h : SlicesLeft p) : Rendered m p i env s e s' ↔ RenderedCopied m p i env s e s' := by
  rw [C83_exact_partial m p i env s e s' fun before c rest he r hr => h before c rest he r (names_slices c r hr)]
  unfold RenderedCopied
  rw [copied_calls p h m .empty]

/-- An attribute name that becomes that of another attribute of the element. -/
def renamed : List Step :=
  [.call (.attr (.slice 0) [.fixed (.str b%"x") trivial]), .call (.attr (.slice 1) [.fixed (.str b%"y") trivial]),
   .call (.element (.own b%"p") [.var 0, .var 1]), .set 1 b%"id"]

@[inherit_doc renamed] def names : Mem := fun r => if r = 0 then b%"id" else b%"no"

/-- C83 — Attribute names are looked at twice, when the element is built and when it is rendered: if one is changed in
between, the attributes of an element can have the same name (which is against C05). -/
theorem C83_names : ∃ s', Rendered names renamed 2 Sample.env Sample.st none s' ∧
    s'.out = b%"<p id=\"x\" id=\"y\"></p>" :=
  ⟨_, ⟨_, rfl, 3, rfl⟩, rfl⟩

/-- The same calls with the names as they are in the end. -/
theorem C83_names_copied : ∃ s', RenderedCopied (after names renamed) (calls renamed) 2 Sample.env Sample.st none s' ∧
    s'.out = b%"<p id=\"y\"></p>" :=
  ⟨_, ⟨_, rfl, 3, rfl⟩, rfl⟩

/-! ### The names given to Start -/

/-- C83 — A function given to `Imperative` writes what it would write if `Start` copied the name. -/
def C83_imperative_claim : Prop :=
  ∀ m p env s e s', ImpRuns m p env s e s' → ImpRunsCopied m p env s e s'

/-- `Start` and `End` with a buffer that changes in between. -/
def crossedTags : KImp := .start (.slice 0) false [] fun _ => .set 0 b%"pre" (.call .end fun _ => .ret none)

@[inherit_doc crossedTags] def divName : Mem := fun _ => b%"div"

theorem C83_imperative : ∃ s', ImpRuns divName crossedTags Sample.env Sample.st none s' ∧ s'.out = b%"<div></pre>" :=
  ⟨_, ⟨1, rfl⟩, rfl⟩

theorem C83_imperative_false : ¬ C83_imperative_claim := by
  intro h
  obtain ⟨s', h1, ho⟩ := C83_imperative
  obtain ⟨fuel, h2⟩ := h _ _ _ _ _ _ h1
  have h3 : ∃ t, exec Sample.env (runImp (renderProg fuel) (copyNames divName crossedTags) []) Sample.st =
      some (none, t) ∧ t.out = b%"<div></div>" := ⟨_, rfl, rfl⟩
  obtain ⟨t, h3, ht⟩ := h3
  rw [h2] at h3
  injection h3 with h3
  injection h3 with _ h3
  rw [← h3, ho] at ht
  exact absurd ht (by decide)

/-- C83 — It does if it writes into no slice that is the name of an element still open. -/
theorem C83_imperative_partial (m : Mem) (p : KImp) (env : Env) (s : St) (e : Option Err) (s' : St)
    (h : OpenNamesLeft p []) : ImpRuns m p env s e s' ↔ ImpRunsCopied m p env s e s' := by
  unfold ImpRuns ImpRunsCopied
  simp only [runImp_now _ p m [] h, List.map_nil]

/-! ### The hypotheses are met -/

/-- The buffer is given to `Text`, used again for the name of an element and once more for the name of a delimited
attribute. -/
def thrice : List Step :=
  [.call (.text [.slice 0]), .set 0 b%"div", .call (.element (.slice 0) [.var 0, .slice 1]), .set 0 b%"pre",
   .call (.delimAttr (.slice 0) (.own b%" ") [.slice 1]), .call (.element (.own b%"p") [.var 2, .var 1])]

theorem namesLeft_nil : NamesLeft [] := fun before _ _ he => by cases before <;> cases he

theorem namesLeft_set {r : Nat} {b : Bytes} {p : List Step} (h : NamesLeft p) : NamesLeft (.set r b :: p) := by
  intro before c rest he
  cases before with
  | nil => cases he
  | cons x before =>
    injection he with _ he
    exact h before c rest he

theorem namesLeft_call {c : Call} {p : List Step} (hc : ∀ r ∈ c.names, ∀ b, .set r b ∉ p) (h : NamesLeft p) :
    NamesLeft (.call c :: p) := by
  intro before c' rest he
  cases before with
  | nil =>
    injection he with h1 h2
    injection h1 with h1
    subst h1 h2
    exact hc
  | cons x before =>
    injection he with _ he
    exact h before c' rest he

theorem thrice_namesLeft : NamesLeft thrice := by
  refine namesLeft_call ?_ (namesLeft_set (namesLeft_call ?_ (namesLeft_set (namesLeft_call ?_ (namesLeft_call ?_
    namesLeft_nil))))) <;> simp [Call.names, keptSlices]

example : ∃ s', Rendered buffer thrice 3 Sample.env Sample.st none s' ∧
    s'.out = b%"<p pre=\"one\"><pre>preone</pre></p>" :=
  ⟨_, ⟨_, rfl, 4, rfl⟩, rfl⟩

example : ∃ s', RenderedCopied (after buffer thrice) (calls thrice) 3 Sample.env Sample.st none s' ∧
    s'.out = b%"<p pre=\"one\"><pre>preone</pre></p>" :=
  ⟨_, ⟨_, rfl, 4, rfl⟩, rfl⟩

/-- A buffer that is filled before each call and belongs to the library afterwards. -/
def filled : List Step :=
  [.set 0 b%"div", .call (.attr (.slice 1) [.thunk (.slice 2)]), .set 3 b%"new", .call (.element (.slice 0) [.var 0, .slice 3])]

example : SlicesLeft filled := by
  intro before c rest he
  rcases before with _ | ⟨_, _ | ⟨_, _ | ⟨_, _ | ⟨_, _ | ⟨_, before⟩⟩⟩⟩⟩ <;> simp only [filled, List.nil_append,
    List.cons_append, List.cons.injEq, reduceCtorEq, false_and, and_false, Step.call.injEq, List.nil_eq] at he
  · obtain ⟨-, rfl, rfl⟩ := he
    simp [Call.slices, Arg.slices, keptSlices]
  · obtain ⟨-, -, -, rfl, rfl⟩ := he
    simp

example : ∃ s', Rendered buffer filled 1 Sample.env Sample.st none s' ∧
    s'.out = b%"<div one=\"one\">new</div>" :=
  ⟨_, ⟨_, rfl, 4, rfl⟩, rfl⟩

/-- The buffer of the name is used again after `End`. -/
def ended : KImp := .start (.slice 0) false [] fun _ => .call .end fun _ => .set 0 b%"pre"
  (.start (.slice 0) false [] fun _ => .call .endAll fun _ => .ret none)

example : OpenNamesLeft ended [] := fun _ _ => ⟨by simp [opened], fun _ _ => trivial⟩

example : ∃ s', ImpRuns divName ended Sample.env Sample.st none s' ∧ s'.out = b%"<div></div><pre></pre>" :=
  ⟨_, ⟨1, rfl⟩, rfl⟩

end Props
end Aitch
