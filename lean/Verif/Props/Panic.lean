import Verif.Proofs.Panic
import Verif.Proofs.Template
import Verif.Props.Memory
import Verif.Spec.Sample
/-
C80: user functions (or a writer) that panic.
-/
namespace Aitch.Props
open Spec

/-! ### C80 — a panic in a user function ends the rendering, and does no other harm -/

/-- A render that returns although functions may panic is one in which none did: it returned the same error in the same
state as always. -/
theorem C80_returns {env : Env} {p : Panics} {n : Node} {s s' : St} {e : Option Err}
    (h : RenderReturns env p n s e s') : Runs env n s e s' :=
  let ⟨fuel, h⟩ := h
  ⟨fuel, execPanics_returned h⟩

/-- A render that would end, if the functions that panic returned something (anything), ends: it returns as it would or
panics. -/
theorem C80_ends {env : Env} (p : Panics) {n : Node} {s s' : St} {e : Option Err} (h : Runs env n s e s') :
    RenderReturns env p n s e s' ∨ ∃ t, RenderPanics env p n s t := by
  obtain ⟨fuel, h⟩ := h
  have key : ∀ (m : Prog (Option Err)) (s : St), exec env m s = some (e, s') →
      execPanics env p m s = some (.returned e s') ∨ ∃ t, execPanics env p m s = some (.panicked t) := by
    intro m
    induction m with
    | pure a => intro s h; cases h; exact .inl rfl
    | stuck => intro s h; cases h
    | step a k ih =>
      intro s h
      simp only [execPanics]
      split
      · exact .inr ⟨_, rfl⟩
      · exact ih _ _ h
  rcases key _ s h with h | ⟨t, h⟩
  · exact .inl ⟨fuel, h⟩
  · exact .inr ⟨t, fuel, h⟩

/-- The calls of the writer before a panic are the first ones of those that the render would make if the function
returned, whatever it returned then (`env` says what); so the output is a prefix of that output. -/
theorem C80_prefix {env : Env} {p : Panics} {n : Node} {s s₁ s₂ : St} {e : Option Err}
    (h : RenderPanics env p n s s₁) (h₂ : Runs env n s e s₂) : s₁.log <+: s₂.log ∧ s₁.out <+: s₂.out := by
  obtain ⟨f, h⟩ := h
  obtain ⟨f', h₂⟩ := h₂
  have h3 := (panicked_log ((Le.renderProg (Nat.le_max_left f f') n).execPanics h)
    ((Le.renderProg (Nat.le_max_right f f') n).exec h₂)).2
  refine ⟨h3, ?_⟩
  obtain ⟨l, h4⟩ := h3
  exact ⟨accepted l, by simp [St.out, ← h4, accepted]⟩

/-- If the user functions leave the shared memory alone (also those that panic), then so did the render that panicked: no
element, attribute or map is half changed. -/
theorem C80_memory {R : Shared → Shared → Prop} (hR : Equivalence R) {ρ : Nat → Prop}
    (hmem : ∀ sh sh', R sh sh' → SameFor ρ sh sh') {env : Env} {p : Panics} {q : Action → Prop} (hq : QuietFns R env q ρ)
    (hp : PanicKeeps R p) {n : Node} (hn : NodeCalls q ρ n) {s s' : St} (hs : HeapUses q ρ s.dl)
    (h : RenderPanics env p n s s') : R s.shared s'.shared := by
  obtain ⟨fuel, h⟩ := h
  refine panicked_shared hR (I := fun c => HeapUses q ρ c.dl) (N := NodeCalls q ρ) (fun s s' hs h r hr => ?_) hp
    (.renderProg (uniTree hR hmem hq) (fun f h => respects_fn hR (hq _ h)) (fun _ => Iff.rfl) _ _ hn) hs h
  have : s.dl r = s'.dl r := (hmem _ _ hs).2 r hr
  rw [← this]; exact h r hr

/-- So the same node, or any other, can be rendered afterwards (with another context and writer) as if nothing had
happened. -/
theorem C80_again {env : Env} {p : Panics} {q : Action → Prop} {ρ : Nat → Prop} (hq : QuietFns Eq env q ρ)
    (hp : PanicKeeps Eq p) {n : Node} (hn : NodeCalls q ρ n) {s s' : St} (hs : HeapUses q ρ s.dl)
    (h : RenderPanics env p n s s') (own : Local) (env' : Env) (m : Node) (e : Option Err) (t : St) :
    Runs env' m (joinSt own s'.shared) e t ↔ Runs env' m (joinSt own s.shared) e t := by
  have h1 : s.shared = s'.shared :=
    C80_memory ⟨fun _ => rfl, Eq.symm, Eq.trans⟩ (fun sh sh' h => by subst h; exact ⟨rfl, fun _ _ => rfl⟩) hq hp hn hs h
  rw [h1]

/-- The context given to `Render` is, after the panic, still the context it was: the panic may have happened in a child
context (of an iteration) inside it, but its own Data, Cargo and parents are as they were, if no function changes those
of the context it is given. -/
theorem C80_context {env : Env} (U : KeepsItemFns env) {p : Panics} (hp : PanicKeepsItem p) {n : Node} {s s' : St}
    (h : RenderPanics env p n s s') :
    ∃ c : Frame, HasContext s' c s.parents ∧ c.data = s.frame.data ∧ c.cargo = s.frame.cargo := by
  have : ItemFns env := ⟨U⟩
  have : ItemPanics p := ⟨hp⟩
  obtain ⟨fuel, h⟩ := h
  exact (KeepsContext.renderProg fuel n).safe s s' h

/-- In a template, a panic while a node is rendered does not reach the caller of `Execute`: it returns an error, and the
parts after that node are not executed. -/
theorem C80_execute_error {env : Env} {p : Panics} {pe : Err} {before after : List Part} {n : Node} {data : Option MapId}
    {cargo : Any} {s s₁ s₂ : St} (place : Place)
    (h : ExecuteEnds env p pe before data cargo s (.returned none s₁)) (hn : RenderPanics env p n s₁ s₂) :
    ExecuteEnds env p pe (before ++ .call n place :: after) data cargo s (.returned (some pe) s₂) := by
  obtain ⟨f, h⟩ := h
  obtain ⟨f', hn⟩ := hn
  refine ⟨max f f', ?_⟩
  unfold ExecutePanics at h ⊢
  rw [partsPanics_append _ _ (partsPanics_fuel (Nat.le_max_left f f') _ h)]
  simp only [partsPanics, (Le.renderProg (Nat.le_max_right f f') n).execPanics hn]

/-- `Execute` panics only if the writer does. -/
theorem C80_execute_returns {env : Env} {p : Panics} {pe : Err} {t : List Part} {data : Option MapId} {cargo : Any}
    {s s' : St} (hp : ∀ d s, p (.write d) s = none) : ¬ ExecuteEnds env p pe t data cargo s (.panicked s') := by
  rintro ⟨f, h⟩
  exact partsPanics_panicked hp _ h

/-- `Execute` ends as it would without panics, or with the error that text/template makes of a panic (or, if the writer
panics, with a panic); in the latter cases the output is a prefix of what it would have been. -/
theorem C80_execute_prefix {env : Env} {p : Panics} {pe : Err} {t : List Part} {data : Option MapId} {cargo : Any}
    {s s₂ : St} {e₂ : Option Err} {o : Outcome (Option Err)} (h : ExecuteEnds env p pe t data cargo s o)
    (h₂ : Executes env t data cargo s e₂ s₂) :
    o = .returned e₂ s₂ ∨ ∃ s', (o = .returned (some pe) s' ∨ o = .panicked s') ∧ s'.log <+: s₂.log := by
  obtain ⟨f, h⟩ := h
  obtain ⟨f', h₂⟩ := h₂
  have h1 := partsPanics_fuel (Nat.le_max_left f f') _ h
  have h3 : exec env (execParts (renderProg (max f f')) t) (templateStart s data cargo) = some (e₂, s₂) :=
    (Le.execParts (fun n => Le.renderProg (Nat.le_max_right f f') n) t).exec h₂
  have h4 := partsPanics_log t h1 h3
  cases o with
  | returned e s' =>
    rcases h4 with ⟨rfl, rfl⟩ | ⟨rfl, h4⟩
    · exact .inl rfl
    · exact .inr ⟨s', .inl rfl, h4⟩
  | panicked s' => exact .inr ⟨s', .inr rfl, h4⟩

/-! A list with an item for each of "x", a map and 7; the function of the items' text panics at the map, after changing
the memory of the program (`world`). -/

section
open Sample

private def item : Node := (NewElement b%"li" [.dynFunc true (some 0)] ⟨fun _ => [], 0⟩).1
private def list : Node := (NewElement b%"ul" [.node (.iterator [item] (.user 0))] ⟨fun _ => [], 0⟩).1

private def atMap : Panics := fun a s =>
  match a, s.frame.cargo with
  | .dyn 0, .map _ => some { s with world := s.world + 1 }
  | _, _ => none

example : ∃ s', RenderPanics env atMap list st s' ∧ s'.out = b%"<ul><li>dyn</li><li>" ∧
    s'.frame.cargo = .map 1 ∧ HasContext s' st.frame [] := ⟨_, ⟨9, rfl⟩, rfl, rfl, [_], rfl⟩

example : ∃ s', Runs env list st none s' ∧ s'.out = b%"<ul><li>dyn</li><li>dyn</li><li>dyn</li></ul>" :=
  ⟨_, ⟨9, rfl⟩, rfl⟩

private theorem atMap_keeps : KeepsItemFns env ∧ PanicKeepsItem atMap := by
  refine ⟨keepsItemFns_withFns env fns, fun a s s' h => ?_⟩
  unfold atMap at h
  split at h
  · cases h; exact ⟨rfl, rfl⟩
  · cases h

example {s' : St} (h : RenderPanics env atMap list st s') := C80_context atMap_keeps.1 atMap_keeps.2 h

example {s' : St} (h : RenderPanics env atMap list st s') := C80_prefix h ⟨9, rfl⟩

/-- For C80_memory and C80_again: only dynamic values and items are functions here. -/
private def calls (a : Action) : Prop := a = .dyn 0 ∨ a = .items 0

/-- The same panic without the change of the memory. -/
private def atMapQuiet : Panics := fun a s =>
  match a, s.frame.cargo with
  | .dyn 0, .map _ => some s
  | _, _ => none

private theorem atMapQuiet_quiet : QuietFns Eq env calls (fun _ => False) ∧ PanicKeeps Eq atMapQuiet ∧ NodeCalls calls (fun _ => False) list ∧
    HeapUses calls (fun _ => False) st.dl ∧ ∃ s', RenderPanics env atMapQuiet list st s' := by
  refine ⟨?_, fun a s s' h => ?_, ?_, fun r hr => hr.elim, _, 9, rfl⟩
  · rintro a (rfl | rfl)
    · exact ⟨fun s => rfl, fun s s' h => ⟨rfl, congrArg Local.frame h.1⟩⟩
    · exact ⟨fun s => rfl, fun s s' h => ⟨rfl, congrArg Local.frame h.1⟩⟩
  · unfold atMapQuiet at h
    split at h
    · cases h; rfl
    · cases h
  · refine ⟨⟨(by intro a ha; cases ha), (by intro ca h; cases h)⟩, ⟨Or.inr rfl, ⟨⟨(by intro a ha; cases ha), (by intro ca h; cases h)⟩,
      ⟨Or.inl rfl, trivial⟩, trivial⟩, trivial⟩, trivial⟩

example {s' : St} (h : RenderPanics env atMapQuiet list st s') (l : Local) (m : Node) (e : Option Err) (t : St) :=
  have ⟨h1, h2, h3, h4, _⟩ := atMapQuiet_quiet
  C80_again h1 h2 h3 h4 h l env m e t

/-- In a template: what comes after the node is not written. -/
example : ∃ s', ExecuteEnds env atMap 99 [.text b%"<p>", .call list .text, .text b%"</p>"] (some 0) .nil st
    (.returned (some 99) s') ∧ s'.out = b%"<p><ul><li>dyn</li><li>" := ⟨_, ⟨9, rfl⟩, rfl⟩

example : ∃ s₁ s₂, ExecuteEnds env atMap 99 [.text b%"<p>"] (some 0) .nil st (.returned none s₁) ∧
    RenderPanics env atMap list s₁ s₂ := ⟨_, _, ⟨9, rfl⟩, ⟨9, rfl⟩⟩

example : ∀ d s, atMap (.write d) s = none := fun _ _ => rfl

end

end Aitch.Props
