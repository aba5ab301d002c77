import Verif.Proofs.Frame
import Verif.Proofs.Element
import Verif.Spec.Iter
/-
Iteration nodes: items in order, and the outer context afterwards.
-/
namespace Aitch
open Spec

/-- The outer context's Data and Cargo are the given ones. -/
def SameItem (d : Option MapId) (c : Any) (s : St) : Prop := s.frame.data = d ∧ s.frame.cargo = c

theorem Trip.scope {env : Env} {α γ : Type} {d : Option MapId} {c : Any} {child : Frame} {m : Prog α}
    {k : α → Frame → Prog γ} (hm : KeepsParents m)
    (hk : ∀ a f, Trip env (SameItem d c) (k a f) fun _ => SameItem d c) :
    Trip env (SameItem d c) (do Do.enter child; let e ← m; let fr ← Do.leave; k e fr) fun _ => SameItem d c := by
  intro s r s' hs h
  obtain ⟨e, t, -, h2⟩ := exec_scope hm h
  exact hk e t.frame (s.left t) r s' hs h2

section
variable {env : Env} {d : Option MapId} {c : Any}

theorem sameItem_setErr (e : Option Err) : Trip env (SameItem d c) (Do.setErr e) fun _ => SameItem d c :=
  .act fun _ h => h

theorem sameItem_retErr : Trip env (SameItem d c) retErr fun _ => SameItem d c :=
  .bind (Q := fun _ => SameItem d c) (.act fun _ h => h) fun _ => .pure fun _ h => h

theorem sameItem_user {upd : St → St} (hu : KeepsItem upd) :
    Trip env (SameItem d c) (Do.user upd) fun _ => SameItem d c :=
  .act fun s h => ⟨(hu s).1.trans h.1, (hu s).2.trans h.2⟩

variable {rec : Render} (R : ∀ n, KeepsParents (rec n))
include R

theorem sameItem_iterator {src : ItemSrc} (ns : List Node)
    (hs : ∀ f, src = .user f → KeepsItem fun s => (env.items f s).2) :
    Trip env (SameItem d c) (renderIterator rec ns src) fun _ => SameItem d c := by
  unfold renderIterator
  refine .bind (Q := fun _ => SameItem d c) (.act fun _ h => h) fun x => ?_
  split
  · exact .pure fun _ h => h
  · refine .bind (Q := fun _ => SameItem d c) ?_ fun items => ?_
    · cases src with
      | user f => exact .act fun s h => ⟨(hs f rfl s).1.trans h.1, (hs f rfl s).2.trans h.2⟩
      | key k => exact .bind (Q := fun _ => SameItem d c) (.act fun _ h => h) fun _ => .pure fun _ h => h
    · split
      · exact .pure fun _ h => h
      · refine .bind (Q := fun _ => SameItem d c) (.act fun _ h => h) fun x => .scope (.iterItems R _ _ _) fun e _ => ?_
        split
        · exact .bind (sameItem_setErr _) fun _ => .pure fun _ h => h
        · exact .pure fun _ h => h

theorem sameItem_runYield (ns : List Node) {p : YieldProg} (hp : KeepsItemYield p) (child : Frame) :
    Trip env (SameItem d c) (runYield rec ns p child) fun _ => SameItem d c := by
  induction hp generalizing child with
  | done => exact .pure fun _ h => h
  | user hu hk ih => exact .bind (sameItem_user hu) fun s => ih s _
  | write hk ih =>
    exact .bind (Q := fun _ => SameItem d c) (.act fun _ h => h) fun r =>
      .bind (Q := fun _ => SameItem d c) (.act fun _ h => h) fun s => ih r s _
  | yield hk ih =>
    rw [runYield_yield]
    refine .scope (.bind (.setItem _ _) fun _ => .iterNodes R ns) fun e fr => ?_
    refine .bind (Q := fun _ => SameItem d c) ?_ fun _ => .bind (Q := fun _ => SameItem d c) (.act fun _ h => h) fun s => ih s _
    cases e
    · exact .pure fun _ h => h
    · exact sameItem_setErr _

theorem sameItem_yield {f : FnId} (ns : List Node) (hs : ∀ s, KeepsItemYield (env.yields f s)) :
    Trip env (SameItem d c) (renderYield rec ns f) fun _ => SameItem d c := by
  unfold renderYield
  refine .bind (Q := fun _ => SameItem d c) (.act fun _ h => h) fun x => ?_
  split
  · exact .pure fun _ h => h
  · refine .bind (Q := fun p s => SameItem d c s ∧ KeepsItemYield p) (.act fun s h => ⟨h, hs s⟩) fun p => ?_
    refine .bind (Q := fun _ => SameItem d c) ?_ fun _ => sameItem_retErr
    intro s r s' h he
    exact sameItem_runYield R ns h.2 _ s r s' h.1 he

end

/-- After an iteration, the outer context has its Data and Cargo. -/
theorem runs_iterator {env : Env} {ns : List Node} {src : ItemSrc}
    (hs : ∀ f, src = .user f → KeepsItem fun s => (env.items f s).2) {s s' : St} {e : Option Err}
    (h : Runs env (.iterator ns src) s e s') :
    s'.frame.data = s.frame.data ∧ s'.frame.cargo = s.frame.cargo ∧ s'.parents = s.parents := by
  obtain ⟨fuel, h⟩ := h
  have hp := (KeepsParents.renderProg fuel _).keeps h
  cases fuel with
  | zero => cases h
  | succ fuel =>
    have := sameItem_iterator (KeepsParents.renderProg fuel) ns hs s e s' ⟨rfl, rfl⟩ h
    exact ⟨this.1, this.2, hp⟩

theorem runs_yieldIterator {env : Env} {ns : List Node} {f : FnId} (hs : ∀ s, KeepsItemYield (env.yields f s))
    {s s' : St} {e : Option Err} (h : Runs env (.yieldIterator ns f) s e s') :
    s'.frame.data = s.frame.data ∧ s'.frame.cargo = s.frame.cargo ∧ s'.parents = s.parents := by
  obtain ⟨fuel, h⟩ := h
  have hp := (KeepsParents.renderProg fuel _).keeps h
  cases fuel with
  | zero => cases h
  | succ fuel =>
    have := sameItem_yield (KeepsParents.renderProg fuel) ns hs s e s' ⟨rfl, rfl⟩ h
    exact ⟨this.1, this.2, hp⟩

/-! ### Items in order -/

theorem outItems_each {P : Fns} {c : Ctx} {ns : List Node} {its : List Any} {w : Bytes} :
    OutItems P c ns its w ↔ ∃ ws, Each (fun it w => OutAll P (childCtx c it (itemData c.frame.data it)) ns w) its ws ∧
      w = ws.flatten := by
  induction its generalizing w with
  | nil =>
    constructor
    · intro h; cases h; exact ⟨[], .nil, rfl⟩
    · rintro ⟨ws, h, rfl⟩; cases h; exact .nil
  | cons it its ih =>
    constructor
    · intro h
      cases h with
      | cons h1 h2 =>
        obtain ⟨ws, h3, rfl⟩ := ih.1 h2
        exact ⟨_ :: ws, .cons h1 h3, rfl⟩
    · rintro ⟨ws, h, rfl⟩
      cases h with
      | cons h1 h2 => exact .cons h1 (ih.2 ⟨_, h2, rfl⟩)

theorem lastMap_snoc (l : List Any) (it : Any) : lastMap (l ++ [it]) = itemData (lastMap l) it := by
  unfold lastMap
  rw [List.filterMap_append]
  cases it <;> simp [itemData]

theorem outYields_each {P : Fns} {c : Ctx} {ns : List Node} {its before : List Any} {w : Bytes} :
    OutYields P c ns (lastMap before) its w ↔
      ∃ ws, Each (fun p w => OutAll P (childCtx c p.2 (lastMap (p.1 ++ [p.2]))) ns w) (withBefore before its) ws ∧
        w = ws.flatten := by
  induction its generalizing w before with
  | nil =>
    constructor
    · intro h; cases h; exact ⟨[], .nil, rfl⟩
    · rintro ⟨ws, h, rfl⟩; cases h; exact .nil
  | cons it its ih =>
    constructor
    · intro h
      cases h with
      | cons h1 h2 =>
        rw [← lastMap_snoc] at h1 h2
        obtain ⟨ws, h3, rfl⟩ := ih.1 h2
        exact ⟨_ :: ws, .cons h1 h3, rfl⟩
    · rintro ⟨ws, h, rfl⟩
      cases h with
      | cons h1 h2 =>
        have := ih.2 ⟨_, h2, rfl⟩
        rw [lastMap_snoc] at this
        simp only [lastMap_snoc] at h1
        exact .cons h1 this

end Aitch
