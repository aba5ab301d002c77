import Verif.Spec.StreamPanic
import Verif.Props.Panic
import Verif.Props.StreamConcurrent
import Verif.Proofs.StreamErrors
/-
C105: panics in user functions that write and render.
-/
namespace Aitch.Props
open Spec Spec.Stream Aitch.Stream

/-! For the proofs. -/

/-- Where a balanced program panics, the parents are those it was started with, and perhaps contexts inside. -/
theorem balanced_panics {env : Env} {p : Panics} {α : Type} {m : Prog α} {d : Nat} (hm : Balanced m d) {s s' : St}
    (h : execPanics env p m s = some (.panicked s')) {ps qs : List Frame} (hp : s.parents = ps ++ qs) (hd : ps.length = d) :
    ∃ inner, s'.parents = inner ++ qs := by
  induction m generalizing d s ps with
  | pure a => cases h
  | stuck => cases h
  | step a k ih =>
    simp only [execPanics] at h
    split at h
    · rename_i t ht
      cases h
      refine ⟨ps, ?_⟩
      unfold Panics.at at ht
      split at ht
      · obtain ⟨t, -, rfl⟩ := Option.map_eq_some_iff.1 ht
        cases a <;> exact hp
      · cases ht
    · by_cases hfl : Flat a
      · rw [balanced_flat hfl] at hm
        exact ih _ (hm _) h (by rw [hfl.parents]; exact hp) hd
      · cases a with
        | enter c => exact ih () (d := d + 1) hm h (ps := s.frame :: ps) (by simp [Action.run, hp]) (by simp [hd])
        | leave =>
          cases d with
          | zero => exact hm.elim
          | succ d =>
            cases ps with
            | nil => cases hd
            | cons f ps => exact ih _ (hm _) h (ps := ps) (by simp [Action.run, hp]) (by simpa using hd)
        | _ => exact (hfl ⟨nofun, nofun⟩).elim

/-! ### C105 — panics in user functions that write and render -/

/-- A render that returns although functions may panic is one in which none did: it returned the same error in the same
state as always. -/
theorem C105_returns {env : Env} {p : Panics} {B : Bodies} {n : Node} {s s' : St} {e : Option Err}
    (h : Returning env p B n s e s') : Spec.Stream.Ends env B n s e s' :=
  let ⟨fuel, h⟩ := h
  ⟨fuel, execPanics_returned h⟩

/-- A render that would end, if the functions that panic went on in any way, ends: it returns as it would or panics. -/
theorem C105_ends {env : Env} (p : Panics) {B : Bodies} {n : Node} {s s' : St} {e : Option Err}
    (h : Spec.Stream.Ends env B n s e s') : Returning env p B n s e s' ∨ ∃ t, Panicking env p B n s t := by
  obtain ⟨fuel, h⟩ := h
  have key : ∀ (m : Prog (Option Err)) (s : St), exec env m s = some (e, s') →
      execPanics env p m s = some (.returned e s') ∨ ∃ t, execPanics env p m s = some (.panicked t) := by
    intro m
    induction m with
    | pure a => intro s h; cases h; exact .inl rfl
    | stuck => intro s h; cases h
    | step a k ih =>
      intro s h
      simp only [execPanics]
      split
      · exact .inr ⟨_, rfl⟩
      · exact ih _ _ h
  rcases key _ s h with h | ⟨t, h⟩
  · exact .inl ⟨fuel, h⟩
  · exact .inr ⟨t, fuel, h⟩

/-- It does one of the two only, and in one way. -/
theorem C105_once {env : Env} {p : Panics} {B : Bodies} {n : Node} {s s' : St} (h : Panicking env p B n s s') :
    (∀ e t, ¬ Returning env p B n s e t) ∧ ∀ t, Panicking env p B n s t → t = s' := by
  obtain ⟨f, h⟩ := h
  constructor
  · rintro e t ⟨f', h'⟩
    have h := (le_renderWith B (Nat.le_max_left f f') n).execPanics h
    rw [(le_renderWith B (Nat.le_max_right f f') n).execPanics h'] at h
    cases h
  · rintro t ⟨f', h'⟩
    have h := (le_renderWith B (Nat.le_max_left f f') n).execPanics h
    rw [(le_renderWith B (Nat.le_max_right f f') n).execPanics h'] at h
    cases h
    rfl

/-- The calls of the writer before a panic, those by the functions included, are the first ones of those that the render
would make if the function went on, in whatever way; so the output is a prefix of that output. -/
theorem C105_prefix {env : Env} {p : Panics} {B : Bodies} {n : Node} {s s₁ s₂ : St} {e : Option Err}
    (h : Panicking env p B n s s₁) (h₂ : Spec.Stream.Ends env B n s e s₂) : s₁.log <+: s₂.log ∧ s₁.out <+: s₂.out := by
  obtain ⟨f, h⟩ := h
  obtain ⟨f', h₂⟩ := h₂
  have h3 := (panicked_log ((le_renderWith B (Nat.le_max_left f f') n).execPanics h)
    ((le_renderWith B (Nat.le_max_right f f') n).exec h₂)).2
  refine ⟨h3, ?_⟩
  obtain ⟨l, h4⟩ := h3
  exact ⟨accepted l, by simp [St.out, ← h4, accepted]⟩

/-- If the user functions leave the shared memory alone (also those that panic), then so did the render that panicked: no
element, attribute or map is half changed. -/
theorem C105_memory {R : Shared → Shared → Prop} (hR : Equivalence R) {ρ : Nat → Prop}
    (hmem : ∀ sh sh', R sh sh' → SameFor ρ sh sh') {env : Env} {p : Panics} {B : Bodies} {q : Action → Prop}
    (hq : QuietBodies R env B q ρ) (hp : PanicKeeps R p) {n : Node} (hn : NodeCalls q ρ n) {s s' : St}
    (hs : HeapUses q ρ s.dl) (h : Panicking env p B n s s') : R s.shared s'.shared := by
  obtain ⟨fuel, h⟩ := h
  refine panicked_shared hR (I := fun c => HeapUses q ρ c.dl) (N := NodeCalls q ρ) (fun _ s' hs h r hr => ?_) hp
    (uni_renderWith hR hmem hq fuel n hn) hs h
  have h2 := (hmem _ _ hs).2 r hr
  change _ = s'.dl r at h2
  rw [← h2]; exact h r hr

/-- So the same node, or any other, can be rendered afterwards (with another context and writer) as if nothing had
happened. -/
theorem C105_again {env : Env} {p : Panics} {B : Bodies} {q : Action → Prop} {ρ : Nat → Prop}
    (hq : QuietBodies Eq env B q ρ) (hp : PanicKeeps Eq p) {n : Node} (hn : NodeCalls q ρ n) {s s' : St}
    (hs : HeapUses q ρ s.dl) (h : Panicking env p B n s s') (own : Local) (env' : Env) (B' : Bodies) (m : Node)
    (e : Option Err) (t : St) :
    Spec.Stream.Ends env' B' m (joinSt own s'.shared) e t ↔ Spec.Stream.Ends env' B' m (joinSt own s.shared) e t := by
  have h1 : s.shared = s'.shared :=
    C105_memory ⟨fun _ => rfl, Eq.symm, Eq.trans⟩ (fun sh sh' h => by subst h; exact ⟨rfl, fun _ _ => rfl⟩) hq hp hn hs h
  rw [h1]

/-- The panic may have happened in a child context (of an iteration), inside nodes rendered by functions inside nodes: the
context given to `Render` is then one of its parents, and the parents of that are as they were. -/
theorem C105_context {env : Env} {p : Panics} {B : Bodies} {n : Node} {s s' : St} (h : Panicking env p B n s s') :
    ∃ c : Frame, HasContext s' c s.parents := by
  obtain ⟨fuel, h⟩ := h
  obtain ⟨inner, hi⟩ := balanced_panics (balanced_renderWith fuel n) h (ps := []) (qs := s.parents) rfl rfl
  rcases List.eq_nil_or_concat inner with rfl | ⟨l, c, rfl⟩
  · exact ⟨s'.frame, [], by simp [hi]⟩
  · exact ⟨c, s'.frame :: l, by simp [hi]⟩

/-! A list whose items are rendered by a function: it writes, renders the item's element, whose value panics at the second
item. -/

/-- The items: two texts. -/
def boomBodies : Bodies where
  dyn := fun f _ => if f = 0 then .write b%"-" fun _ _ => .render (.text [.mk [] (some (.user 1)) []]) fun _ _ => .ret b%"!"
    else .user id fun t => .ret (match t.frame.cargo with | .str x => x | _ => [])
  cond := fun _ _ => .ret true
  collect := fun _ _ => .ret []
  items := fun _ _ => .ret [.str b%"a", .str b%"b"]
  yields := fun _ _ => .done

/-- The list. -/
def boomNode : Node := .element ⟨b%"ul", [], [], []⟩ [.iterator [.element ⟨b%"li", [], [], []⟩ [.text [.mk [] (some (.user 0)) []]]] (.user 0)]

/-- User code panics when the item is `b`. -/
def boom : Panics := fun a s =>
  match a, s.frame.cargo with
  | .user _, .str [0x62] => some s
  | _, _ => none

/-- Its functions. -/
def boomFns (a : Action) : Prop := a = .dyn 0 ∨ a = .dyn 1 ∨ a = .items 0

theorem boom_panics : ∃ s', Panicking Sample.env boom boomBodies boomNode Sample.st s' ∧
    s'.out = Sample.st.out ++ b%"<ul><li>-a!</li><li>-" ∧ s'.frame.cargo = .str b%"b" ∧ HasContext s' Sample.st.frame [] :=
  ⟨_, ⟨4, rfl⟩, rfl, rfl, [_], rfl⟩

theorem boom_met : QuietBodies Eq Sample.env boomBodies boomFns (fun _ => False) ∧ PanicKeeps Eq boom ∧
    NodeCalls boomFns (fun _ => False) boomNode ∧ HeapUses boomFns (fun _ => False) Sample.st.dl := by
  refine ⟨⟨?_, ?_, ?_, ?_, ?_, ?_, ?_⟩, fun a s s' h => ?_, ?_, fun r hr => hr.elim⟩
  · intro f _
    refine ⟨fun s s' _ => rfl, fun s => ?_⟩
    change QuietBody _ _ _ (if f = 0 then _ else _)
    split
    · exact .write (fun _ _ _ _ => rfl) fun _ _ => .render ⟨Or.inr (.inl rfl), trivial⟩ (fun _ _ _ _ => rfl) fun _ _ => .ret trivial
    · refine .user ⟨fun _ => rfl, fun s s' h => ⟨rfl, congrArg Local.frame h.1⟩⟩ (fun s s' h => ?_) fun _ => .ret trivial
      have : s.frame = s'.frame := congrArg Local.frame h.1
      simp only [this]
  · exact fun f _ => ⟨fun _ _ _ => rfl, fun _ => .ret trivial⟩
  · exact fun f _ => ⟨fun _ _ _ => rfl, fun _ => .ret trivial⟩
  · exact fun f _ => ⟨fun _ _ _ => rfl, fun _ => .ret fun n hn => by cases hn⟩
  · exact fun f _ => ⟨fun _ _ _ => rfl, fun _ => .done⟩
  · exact fun f h => by simp [boomFns] at h
  · rintro a (rfl | rfl | rfl) <;> trivial
  · unfold boom at h
    split at h
    · cases h; rfl
    · cases h
  · exact ⟨⟨(by intro a ha; cases ha), by intro ca h; cases h⟩, ⟨Or.inr (.inr rfl),
      ⟨⟨(by intro a ha; cases ha), by intro ca h; cases h⟩, ⟨Or.inl rfl, trivial⟩, trivial⟩, trivial⟩, trivial⟩

example {s' : St} (h : Panicking Sample.env boom boomBodies boomNode Sample.st s') (l : Local) (m : Node) (e : Option Err) (t : St) :=
  have ⟨h1, h2, h3, h4⟩ := boom_met
  C105_again h1 h2 h3 h4 h l Sample.env boomBodies m e t

example : ∃ s', Returning Sample.env (fun _ _ => none) boomBodies boomNode Sample.st none s' ∧
    s'.out = Sample.st.out ++ b%"<ul><li>-a!</li><li>-b!</li></ul>" := ⟨_, ⟨4, rfl⟩, rfl⟩

end Aitch.Props
