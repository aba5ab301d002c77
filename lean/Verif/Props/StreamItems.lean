import Verif.Proofs.StreamItems
import Verif.Props.Iteration
import Verif.Props.Memory
import Verif.Props.StreamPanic
/-
C106: Data and Cargo of the context when user functions write and render.
-/
namespace Aitch.Props
open Spec Spec.Stream Aitch.Stream

/-! ### C106 — rendering leaves Data and Cargo of the context alone, also when user functions write and render -/

/-- If no user function itself changes Data or Cargo of the context it is given, then no `Render` does, of any node,
iterations and nodes rendered by functions included. -/
theorem C106_keeps {env : Env} {B : Bodies} (U : KeepsItemBodies env B) {n : Node} {s s' : St} {e : Option Err}
    (h : Spec.Stream.Ends env B n s e s') :
    s'.frame.data = s.frame.data ∧ s'.frame.cargo = s.frame.cargo ∧ s'.parents = s.parents := by
  obtain ⟨fuel, h⟩ := h
  have h1 := (held_renderWith U fuel n).ends h (Above.zero.2 ⟨rfl, rfl, rfl⟩)
  rw [Above.zero] at h1
  exact ⟨h1.2.1, h1.2.2, h1.1⟩

/-- Nor does one that panics: the context given to `Render`, with its Data, Cargo and parents, is then the current context
or one of its parents. -/
theorem C106_panics {env : Env} {B : Bodies} (U : KeepsItemBodies env B) {p : Panics} (hp : PanicKeepsItem p) {n : Node}
    {s s' : St} (h : Panicking env p B n s s') :
    ∃ c : Frame, HasContext s' c s.parents ∧ c.data = s.frame.data ∧ c.cargo = s.frame.cargo := by
  obtain ⟨fuel, h⟩ := h
  obtain ⟨d, ps, fr, h1, -, h2⟩ := (held_renderWith U fuel n).panics hp h (Above.zero.2 ⟨rfl, rfl, rfl⟩)
  exact ⟨fr, ⟨ps, h1⟩, h2⟩

/-- An `Iterate` node leaves them alone if only its own function does, and the nodes rendered by that; functions called
inside the iteration may change Data and Cargo of their contexts at will. -/
theorem C106_iterate {env : Env} {B : Bodies} {f : FnId} (hf : ∀ s, LeavesFn env B (B.items f s))
    {nodes : List (Option Node)} {n : Node} (hn : Iterate (some f) nodes = .val n) {s s' : St} {e : Option Err}
    (h : Spec.Stream.Ends env B n s e s') :
    s'.frame.data = s.frame.data ∧ s'.frame.cargo = s.frame.cargo ∧ s'.parents = s.parents := by
  simp only [Iterate] at hn
  split at hn
  · cases hn
  · cases hn
    obtain ⟨fuel, h⟩ := h
    have hp := (balanced_renderWith fuel _).keeps h
    cases fuel with
    | zero => cases h
    | succ fuel =>
      have := same_iterator (balanced_renderWith fuel) (balanced_nested fuel) (fun n s e s' h => ⟨fuel, h⟩) _
        (fun g hg => by cases hg; exact hf) s e s' ⟨rfl, rfl⟩ h
      exact ⟨this.1, this.2, hp⟩

/-- An `IterateKey` node always does. -/
theorem C106_iterateKey {env : Env} {B : Bodies} {k : Bytes} {nodes : List (Option Node)} {n : Node}
    (hn : IterateKey k nodes = .val n) {s s' : St} {e : Option Err} (h : Spec.Stream.Ends env B n s e s') :
    s'.frame.data = s.frame.data ∧ s'.frame.cargo = s.frame.cargo ∧ s'.parents = s.parents := by
  simp only [IterateKey] at hn
  split at hn
  · cases hn
  · cases hn
    obtain ⟨fuel, h⟩ := h
    have hp := (balanced_renderWith fuel _).keeps h
    cases fuel with
    | zero => cases h
    | succ fuel =>
      have := same_iterator (balanced_renderWith fuel) (balanced_nested fuel) (fun n s e s' h => ⟨fuel, h⟩) _
        (fun g hg => by cases hg) s e s' ⟨rfl, rfl⟩ h
      exact ⟨this.1, this.2, hp⟩

/-- An `IterateYield` node leaves them alone if its own function does, and the nodes that it renders (not those that are
rendered for the items it yields). -/
theorem C106_iterateYield {env : Env} {B : Bodies} {f : FnId} (hf : ∀ s, LeavesBody env B (B.yields f s))
    {nodes : List (Option Node)} {n : Node} (hn : IterateYield (some f) nodes = .val n) {s s' : St} {e : Option Err}
    (h : Spec.Stream.Ends env B n s e s') :
    s'.frame.data = s.frame.data ∧ s'.frame.cargo = s.frame.cargo ∧ s'.parents = s.parents := by
  simp only [IterateYield] at hn
  split at hn
  · cases hn
  · cases hn
    obtain ⟨fuel, h⟩ := h
    have hp := (balanced_renderWith fuel _).keeps h
    cases fuel with
    | zero => cases h
    | succ fuel =>
      have := same_yield (balanced_renderWith fuel) (balanced_nested fuel) (fun n s e s' h => ⟨fuel + 1,
        (le_inlined (fun _ => .refl _) (le_nested B (Nat.le_succ fuel) n)).exec h⟩) _ hf s e s' ⟨rfl, rfl⟩ h
      exact ⟨this.1, this.2, hp⟩

/-! A list whose items are rendered by a function (see `boomBodies`), and which panics inside. -/

theorem boom_items : KeepsItemBodies Sample.env boomBodies ∧ PanicKeepsItem boom := by
  refine ⟨⟨fun f s => ?_, fun _ _ => .ret, fun _ _ => .ret, fun _ _ => .ret, fun _ _ => .done, fun _ _ => ?_⟩, fun a s s' h => ?_⟩
  · change KeepsItemFn (if f = 0 then _ else _)
    split
    · exact .write fun _ _ => .render fun _ _ => .ret
    · exact .user (fun _ => ⟨rfl, rfl⟩) fun _ => .ret
  · exact keepsItem_impOf _
  · unfold boom at h
    split at h
    · cases h; exact ⟨rfl, rfl⟩
    · cases h

example {s' : St} (h : Panicking Sample.env boom boomBodies boomNode Sample.st s') := C106_panics boom_items.1 boom_items.2 h

example {e : Option Err} {s' : St} (h : Spec.Stream.Ends Sample.env boomBodies boomNode Sample.st e s') := C106_keeps boom_items.1 h

/-! Iterations whose own functions write and render, and inside which a function changes Data and Cargo of its context. -/

/-- The function of a dynamic value, which changes Data and Cargo. -/
def wildText : Node := .text [.mk [] (some (.user 0)) []]

/-- The functions of the iterations render this. -/
def wildKey : Node := .iterator [wildText] (.key b%"list")

/-- The functions. -/
def wildBodies : Bodies where
  dyn := fun _ _ => .user (fun s => { s with frame := { s.frame with data := some 7, cargo := .str b%"?" } }) fun _ => .ret b%"w"
  cond := fun _ _ => .ret true
  collect := fun _ _ => .ret []
  items := fun _ _ => .write b%"(" fun _ _ => .render wildKey fun _ _ => .ret [.map 0, .str b%"a"]
  yields := fun _ _ => .write b%"[" fun _ _ => .yield (.map 0) fun _ => .render wildKey fun _ _ => .yield (.str b%"a") fun _ => .done

theorem wildKey_leaves : Leaves Sample.env wildBodies wildKey := fun _ _ _ h =>
  let h1 := C106_iterateKey (nodes := [some wildText]) rfl h
  ⟨h1.1, h1.2.1⟩

theorem wild_iterate (s : St) : LeavesFn Sample.env wildBodies (wildBodies.items 0 s) :=
  .write fun _ _ => .render wildKey_leaves fun _ _ => .ret

theorem wild_yields (s : St) : LeavesBody Sample.env wildBodies (wildBodies.yields 0 s) :=
  .write fun _ _ => .yield fun _ => .render wildKey_leaves fun _ _ => .yield fun _ => .done

example {e : Option Err} {s' : St} (h : Spec.Stream.Ends Sample.env wildBodies (.iterator [wildText] (.user 0)) Sample.st e s') :=
  C106_iterate (nodes := [some wildText]) wild_iterate rfl h

example {e : Option Err} {s' : St} (h : Spec.Stream.Ends Sample.env wildBodies (.yieldIterator [wildText] 0) Sample.st e s') :=
  C106_iterateYield (nodes := [some wildText]) wild_yields rfl h

example : ∃ s', Spec.Stream.Ends Sample.env wildBodies (.yieldIterator [wildText] 0) Sample.st none s' ∧
    b%"[w" <+: s'.out.drop Sample.st.out.length := ⟨_, ⟨5, rfl⟩, ⟨_, rfl⟩⟩

/-- Rendered outside of an iteration, the function does change the context. -/
theorem C106_needed : ∃ s', Spec.Stream.Ends Sample.env wildBodies wildText Sample.st none s' ∧
    s'.frame.cargo ≠ Sample.st.frame.cargo ∧ s'.frame.data ≠ Sample.st.frame.data :=
  ⟨_, ⟨5, rfl⟩, (fun h => by cases h), fun h => by cases h⟩

end Aitch.Props
