import Verif.Proofs.StreamDoes
import Verif.Props.StreamErrors
/-
What user functions are told and what becomes of their results, with any writer (C102).
-/
namespace Aitch.Props
open Spec Spec.Stream Aitch.Stream

variable {env : Env} {B : Bodies} {s s' : St} {e : Option Err}

/-- A dynamic value: the function runs, what it returns is written, and the error of that write is the error. -/
theorem C102_value {dl : Nat → List Value} {f : FnId} {named : Bool} :
    Ends env B (Text dl [.dynFunc named (some f)]) s e s' ↔
      ∃ w s₁, Does env B (B.dyn f s) s w s₁ ∧ e = (env.write s₁.log w).2 ∧ s' = (s₁.wrote w (env.write s₁.log w)).setErr e := by
  rw [ends_iff (Means.bind (means_dyn f) (K := fun w _ => valueWrite w >>= fun _ => retErr) fun w =>
    Means.bind (.valueWrite w) fun _ => .retErr)]
  constructor
  · rintro ⟨w, s₁, h, _, _, ⟨rfl, rfl⟩, rfl, rfl⟩
    exact ⟨w, s₁, h, rfl, rfl⟩
  · rintro ⟨w, s₁, h, rfl, rfl⟩
    exact ⟨w, s₁, h, _, _, ⟨rfl, rfl⟩, rfl, rfl⟩

/-- A condition: the nodes are rendered if and only if the function returns true, after it has returned. -/
theorem C102_condition {ns : List Node} {as : List Attr} {f : FnId} :
    Ends env B (.conditional ns as (.user f)) s e s' ↔
      ∃ b s₁, Does env B (B.cond f s) s b s₁ ∧ (if b then Noting env B ns s₁ s' else s' = s₁) ∧ e = s'.frame.err := by
  rw [ends_iff (Means.bind (means_cond f) (K := fun b g => Prog.when b (conditionalLoop (nested B g) ns) >>= fun _ => retErr)
    fun b => Means.bind (M := fun g => Prog.when b (conditionalLoop (nested B g) ns))
      (R := fun s _ s' => if b then Noting env B ns s s' else s' = s) (by
        cases b
        · exact (Means.pure ()).iff fun _ _ _ => by simp
        · exact (means_noting ns).iff fun _ _ _ => by simp) fun _ => .retErr)]
  constructor
  · rintro ⟨b, s₁, h, _, _, h1, rfl, rfl⟩
    exact ⟨b, s₁, h, h1, rfl⟩
  · rintro ⟨b, s₁, h, h1, rfl⟩
    exact ⟨b, s₁, h, (), _, h1, rfl, rfl⟩

/-- `ContentCollect`: all the nodes that the function returns are rendered, without nils and attributes. -/
theorem C102_collect {f : FnId} : Ends env B (.collector f) s e s' ↔
    ∃ ns s₁, Does env B (B.collect f s) s ns s₁ ∧ All env B ns s₁ s' ∧ e = s'.frame.err := by
  rw [ends_iff (Means.bind (means_collect f) (K := fun ns g => ignoreLoop (nested B g) ns >>= fun _ => retErr)
    fun ns => Means.bind (means_all ns) fun _ => .retErr)]
  constructor
  · rintro ⟨b, s₁, h, _, _, h1, rfl, rfl⟩
    exact ⟨b, s₁, h, h1, rfl⟩
  · rintro ⟨b, s₁, h, h1, rfl⟩
    exact ⟨b, s₁, h, (), _, h1, rfl, rfl⟩

/-- `Iterate` with an error in the context: nothing is called. -/
theorem C102_iterate_error {ns : List Node} {f : FnId} {x : Err} (hs : s.frame.err = some x) :
    Ends env B (.iterator ns (.user f)) s e s' ↔ e = some x ∧ s' = s := by
  rw [ends_iff (means_iterate ns f), hs]
  simp

/-- `Iterate`: the nodes are rendered for each item that the function returns, in one child context; the error of the first
node that fails is the error.  `Data` is that of the context, unless the item is a map. -/
theorem C102_iterate {ns : List Node} {f : FnId} (hs : s.frame.err = none) :
    Ends env B (.iterator ns (.user f)) s e s' ↔ ∃ its s₁, Does env B (B.items f s) s its s₁ ∧
      (its = [] ∧ e = none ∧ s' = s₁ ∨ its ≠ [] ∧ ∃ t, s' = back s₁ t e ∧
        Over env B ns s₁.frame.data its (within s₁ ⟨s₁.frame.err, none, .nil⟩) e t) := by
  rw [ends_iff (means_iterate ns f), hs]
  simp

/-- `IterateYield` with an error in the context: nothing is called. -/
theorem C102_yield_error {ns : List Node} {f : FnId} {x : Err} (hs : s.frame.err = some x) :
    Ends env B (.yieldIterator ns f) s e s' ↔ e = some x ∧ s' = s := by
  rw [ends_iff (means_yielding ns f), hs]
  simp

/-- `IterateYield`: what the function does is done, and what it yields is rendered where it yields it. -/
theorem C102_yield {ns : List Node} {f : FnId} (hs : s.frame.err = none) :
    Ends env B (.yieldIterator ns f) s e s' ↔
      Yields env B ns (B.yields f s) ⟨none, none, .nil⟩ s s' ∧ e = s'.frame.err := by
  rw [ends_iff (means_yielding ns f), hs]
  simp

/-- `Imperative`: the error that the function returns is the error. -/
theorem C102_imperative {f : FnId} {p : FnProg (Option Err)} (hp : env.imp f s = asImp p) :
    Ends env B (.imperative (some f)) s e s' ↔ Does env B p s e s' := by
  have h : ∀ g g', exec env (inlined B (renderWith B g) (step B (nested B g') (.imperative (some f)))) s =
      exec env (inlined B (renderWith B g) (runImp (nested B g') (asImp p) [])) s := by
    intro g g'
    rw [← hp]
    rfl
  constructor
  · rintro ⟨g, hx⟩
    cases g with
    | zero => cases hx
    | succ g => exact (means_imp p []).sound (g := g) (g' := g) ((h g g).symm.trans hx)
  · intro hx
    obtain ⟨g, hg⟩ := (means_imp p []).complete hx
    exact ⟨g + 1, (h g g).trans (hg g g (Nat.le_refl g) (Nat.le_refl g))⟩

/-! Functions that look at what they are told. -/

/-- Renders a text, writes, and decides on the errors and on the number of bytes accepted. -/
def asking {α : Type} (yes no : α) : FnProg α := .render (.text [.mk b%"t" none []]) fun e _ => .write b%":u" fun r _ =>
  .ret (if e = none ∧ r = (2, none) then yes else no)

/-- All functions ask. -/
def askingBodies : Bodies where
  dyn _ _ := asking b%"yes" b%"no"
  cond _ _ := asking true false
  collect _ _ := asking [some (told 0), none] []
  items _ _ := asking [.str b%"x", .str b%"y"] [.str b%"z"]
  yields _ _ := .render (told 0) fun e _ => .write b%";" fun r _ =>
    if e = none ∧ r = (1, none) then .yield (.str b%"x") fun s => if s.frame.err = none then .yield (.str b%"y") fun _ => .done
      else .done
    else .done

/-- ... also those of `Imperative`. -/
def askingEnv (write : List WEvent → Bytes → Nat × Option Err) : Env :=
  { Sample.env with write := write, imp := fun _ _ => asImp (asking none (some 5)) }

/-- A writer that accepts nothing at its `k`-th write, and recovers. -/
def hiccup (k : Nat) (log : List WEvent) (d : Bytes) : Nat × Option Err := if log.length = k then (0, some 7) else (d.length, none)

/-- What is returned, written and left in `ctx.Error`. -/
def asked (k : Nat) (n : Node) : Option (Option Err × Bytes × Option Err) :=
  (exec (askingEnv (hiccup k)) (renderWith askingBodies 4 n) Sample.st).map fun p => (p.1, p.2.out, p.2.frame.err)

/-- A dynamic value: no failure, a failure of the node it renders, of its write, of the writing of its result. -/
example : asked 19 (told 0) = some (none, b%"t:uyes", none) ∧ asked 0 (told 0) = some (none, b%":uno", none) ∧
    asked 1 (told 0) = some (none, b%"tno", none) ∧ asked 2 (told 0) = some (some 7, b%"t:u", some 7) := by decide +kernel

example : asked 19 (.conditional [told 0] [] (.user 0)) = some (none, b%"t:ut:uyes", none) ∧
    asked 0 (.conditional [told 0] [] (.user 0)) = some (some 7, b%":u", some 7) ∧
    asked 1 (.conditional [told 0] [] (.user 0)) = some (none, b%"t", none) := by
  decide +kernel

example : asked 19 (.collector 0) = some (none, b%"t:ut:uyes", none) ∧ asked 1 (.collector 0) = some (none, b%"t", none) := by
  decide +kernel

example : asked 19 (.iterator [told 0] (.user 0)) = some (none, b%"t:ut:uyest:uyes", none) ∧
    asked 1 (.iterator [told 0] (.user 0)) = some (none, b%"tt:uyes", none) ∧
    asked 4 (.iterator [told 0] (.user 0)) = some (some 7, b%"t:ut:u", some 7) := by decide +kernel

example : asked 19 (.yieldIterator [told 0] 0) = some (none, b%"t:uyes;t:uyest:uyes", none) ∧
    asked 2 (.yieldIterator [told 0] 0) = some (some 7, b%"t:u;", some 7) ∧
    asked 3 (.yieldIterator [told 0] 0) = some (none, b%"t:uyes", none) ∧
    asked 6 (.yieldIterator [told 0] 0) = some (some 7, b%"t:uyes;t:u", some 7) := by decide +kernel

example : asked 19 (.imperative (some 0)) = some (none, b%"t:u", none) ∧ asked 0 (.imperative (some 0)) = some (some 5, b%":u", some 7) ∧
    asked 1 (.imperative (some 0)) = some (some 5, b%"t", none) := by decide +kernel

/-- The theorems apply to these, in any state and with any writer. -/
example (write : List WEvent → Bytes → Nat × Option Err) (hr : Ends (askingEnv write) askingBodies (told 0) s e s') :
    ∃ w s₁, Does (askingEnv write) askingBodies (asking b%"yes" b%"no") s w s₁ ∧ e = (write s₁.log w).2 := by
  obtain ⟨w, s₁, h1, h2, -⟩ := C102_value.1 hr
  exact ⟨w, s₁, h1, h2⟩

example (write : List WEvent → Bytes → Nat × Option Err) (hr : Ends (askingEnv write) askingBodies (.imperative (some 0)) s e s') :
    e = none ∨ e = some 5 := by
  cases (C102_imperative (p := asking none (some 5)) rfl).1 hr with
  | render _ h =>
    cases h with
    | write hw h =>
      cases h
      split
      · exact .inl rfl
      · exact .inr rfl

end Aitch.Props
