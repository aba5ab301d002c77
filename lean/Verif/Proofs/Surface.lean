import Verif.Proofs.Errors
/-
Errors of Imperative functions that reach the outside.
-/
namespace Aitch
open Spec

/-- `ctx.Error` is set. -/
def IsErr (s : St) : Prop := s.frame.err ≠ none

section
variable {env : Env}

theorem Trip.any {α} (m : Prog α) : Trip env (fun _ => True) m (fun _ _ => True) := fun _ _ _ _ _ => trivial

theorem Trip.weak {α} {I : St → Prop} (m : Prog α) : Trip env I m (fun _ _ => True) := fun _ _ _ _ _ => trivial

theorem IsErr.ctxWrite (d : Bytes) : Trip env IsErr (ctxWrite d) (fun _ => IsErr) := by
  intro s r s' hs he
  rw [exec_ctxWrite] at he
  cases h : s.frame.err with
  | none => exact (hs h).elim
  | some e => rw [h] at he; cases he; exact hs

theorem IsErr.renderEndTag (n : Bytes) : Trip env IsErr (renderEndTag n) (fun _ => IsErr) :=
  Trip.bind (IsErr.ctxWrite _) fun _ => Trip.bind (IsErr.ctxWrite _) fun _ => IsErr.ctxWrite _

theorem IsErr.retErr : Trip env IsErr retErr (fun e s => e ≠ none ∧ IsErr s) := by
  intro s r s' hs he
  rw [exec_retErr] at he
  cases he
  exact ⟨hs, hs⟩

/-- Always returns an error. -/
abbrev TE (env : Env) (m : Prog (Option Err)) : Prop := Trip env (fun _ => True) m (fun e _ => e ≠ none)

theorem setErr_isErr {I : St → Prop} {e : Option Err} (h : e ≠ none) : Trip env I (Do.setErr e) (fun _ => IsErr) :=
  Trip.act fun _ _ => h

theorem bind_pure_pre {α β} {I : St → Prop} {m : Prog α} {f : α → Prog β} {q : α → Prop} {R : β → St → Prop}
    (hm : Trip env I m (fun a _ => q a)) (hf : ∀ a, q a → Trip env (fun _ => True) (f a) R) :
    Trip env I (m >>= f) R := by
  refine Trip.bind hm fun a => ?_
  intro s r s' hs he
  exact hf a hs s r s' trivial he

variable {rec : Render}

theorem contentLoop_post {post : List Node}
    (hp : ∀ p ∈ post, Trip env IsErr (rec p) (fun e s => e ≠ none ∧ IsErr s)) :
    Trip env IsErr (contentLoop rec post) (fun _ => IsErr) := by
  induction post with
  | nil => exact Trip.pure fun _ h => h
  | cons p post ih =>
    refine Trip.bind (hp p (by simp)) fun e => Trip.bind (Q := fun _ => IsErr) ?_ fun _ =>
      ih fun p h => hp p (by simp [h])
    exact Trip.act fun s h => h.1

theorem contentLoop_surface {pre : List Node} {m : Node} {post : List Node} (hm : TE env (rec m))
    (hp : ∀ p ∈ post, Trip env IsErr (rec p) (fun e s => e ≠ none ∧ IsErr s)) :
    Trip env (fun _ => True) (contentLoop rec (pre ++ m :: post)) (fun _ => IsErr) := by
  induction pre with
  | nil => exact bind_pure_pre hm fun e he => Trip.bind (setErr_isErr he) fun _ => contentLoop_post hp
  | cons x pre ih => exact Trip.bind (Trip.weak _) fun _ => Trip.bind (Trip.weak _) fun _ => ih

theorem collectionLoop_surface {ns : List Node} {m : Node} (hmem : m ∈ ns) (ha : m.isAttr = false)
    (hm : TE env (rec m)) : Trip env (fun _ => True) (collectionLoop rec ns) (fun _ => IsErr) := by
  induction ns with
  | nil => cases hmem
  | cons n ns ih =>
    unfold collectionLoop
    by_cases hnm : n = m
    · subst hnm
      rw [ha, if_neg (by simp)]
      refine bind_pure_pre hm fun e he => Trip.bind (setErr_isErr he) fun _ => ?_
      cases e with
      | none => exact (he rfl).elim
      | some e => exact Trip.pure fun _ h => h
    · have hmem : m ∈ ns := by
        rcases List.mem_cons.1 hmem with h | h
        · exact (hnm h.symm).elim
        · exact h
      split
      · exact ih hmem
      · refine Trip.bind (Trip.weak _) fun e => ?_
        cases e with
        | none => exact Trip.bind (Trip.weak _) fun _ => ih hmem
        | some e => exact Trip.bind (setErr_isErr (by simp)) fun _ => Trip.pure fun _ h => h

theorem conditionalLoop_surface {ns : List Node} {m : Node} (hmem : m ∈ ns)
    (hm : TE env (rec m)) : Trip env (fun _ => True) (conditionalLoop rec ns) (fun _ => IsErr) := by
  induction ns with
  | nil => cases hmem
  | cons n ns ih =>
    unfold conditionalLoop
    by_cases hnm : n = m
    · subst hnm
      refine bind_pure_pre hm fun e he => Trip.bind (setErr_isErr he) fun _ => ?_
      cases e with
      | none => exact (he rfl).elim
      | some e => exact Trip.pure fun _ h => h
    · have hmem : m ∈ ns := by
        rcases List.mem_cons.1 hmem with h | h
        · exact (hnm h.symm).elim
        · exact h
      refine Trip.bind (Trip.weak _) fun e => ?_
      cases e with
      | none => exact Trip.bind (Trip.weak _) fun _ => ih hmem
      | some e => exact Trip.bind (setErr_isErr (by simp)) fun _ => Trip.pure fun _ h => h

theorem iterNodes_surface {ns : List Node} {m : Node} (hmem : m ∈ ns) (hm : TE env (rec m)) :
    TE env (iterNodes rec ns) := by
  induction ns with
  | nil => cases hmem
  | cons n ns ih =>
    unfold iterNodes
    by_cases hnm : n = m
    · subst hnm
      refine bind_pure_pre hm fun e he => ?_
      cases e with
      | none => exact (he rfl).elim
      | some e => exact Trip.pure fun _ _ => by simp
    · have hmem : m ∈ ns := by
        rcases List.mem_cons.1 hmem with h | h
        · exact (hnm h.symm).elim
        · exact h
      refine Trip.bind (Trip.weak _) fun e => ?_
      cases e with
      | none => exact ih hmem
      | some e => exact Trip.pure fun _ _ => by simp

theorem iterItems_surface {ns : List Node} {m : Node} (hmem : m ∈ ns) (hm : TE env (rec m)) (d : Option MapId)
    {items : List Any} (hi : items ≠ []) : TE env (iterItems rec ns d items) := by
  cases items with
  | nil => exact (hi rfl).elim
  | cons it its =>
    refine Trip.bind (Trip.weak _) fun _ => bind_pure_pre (iterNodes_surface hmem hm) fun e he => ?_
    cases e with
    | none => exact (he rfl).elim
    | some e => exact Trip.pure fun _ _ => by simp

theorem renderIterator_surface {ns : List Node} {m : Node} (hmem : m ∈ ns) (hm : TE env (rec m)) {g : FnId}
    (hg : ∀ s, (env.items g s).1 ≠ []) :
    Trip env (fun _ => True) (renderIterator rec ns (.user g)) (fun e s => e ≠ none ∧ IsErr s) := by
  unfold renderIterator
  refine Trip.bind (Q := fun c s => s.toCtx = c) (Trip.act fun _ _ => rfl) fun c => ?_
  cases herr : c.frame.err with
  | some e => exact Trip.pure fun s hs => ⟨by simp, by unfold IsErr; rw [hs, herr]; simp⟩
  | none =>
    refine (bind_pure_pre (q := fun items => items ≠ []) (Trip.act fun s _ => hg s) fun items hi => ?_)
    cases items with
    | nil => exact (hi rfl).elim
    | cons it its =>
      refine Trip.bind (Trip.weak _) fun c => Trip.bind (Trip.weak _) fun _ =>
        bind_pure_pre (iterItems_surface hmem hm _ hi) fun e he => Trip.bind (Trip.weak _) fun _ => ?_
      cases e with
      | none => exact (he rfl).elim
      | some e => exact Trip.bind (setErr_isErr (by simp)) fun _ => Trip.pure fun _ h => ⟨by simp, h⟩

variable (PR : ∀ n, KeepsParents (rec n))
include PR

theorem runYield_keeps (ns : List Node) : (p : YieldProg) → CarefulYield p → (child : Frame) →
    Trip env IsErr (runYield rec ns p child) (fun _ => IsErr)
  | .done, _, _ => Trip.pure fun _ h => h
  | .user upd k, hp, child => by
    cases hp with
    | user h1 h2 =>
      exact Trip.bind (Q := fun _ => IsErr) (Trip.act fun s hs => h1 s hs) fun s => runYield_keeps ns (k s) (h2 s) child
  | .write d k, hp, child => by
    cases hp with
    | write h1 h2 =>
      refine Trip.bind (Q := fun _ => IsErr) (Trip.act fun s hs => hs) fun r =>
        Trip.bind (m := Do.look) (Q := fun _ => IsErr) (Trip.act fun s hs => hs) fun s => ?_
      obtain ⟨n, e⟩ := r
      cases e with
      | none => exact runYield_keeps ns (k (n, none) s) (h1 n s) child
      | some e => exact runYield_keeps ns _ (h2 n e s).careful child
  | .yield it k, hp, child => by
    cases hp with
    | yield hk =>
      rw [runYield_yield]
      intro s r s' hs he
      obtain ⟨e, t, h1, h2⟩ := exec_scope (.bind (.setItem _ _) fun _ => .iterNodes PR ns) he
      refine Trip.bind (I := IsErr) (Q := fun _ => IsErr) ?_
        (fun _ => Trip.bind (m := Do.look) (Q := fun _ => IsErr) (Trip.act fun _ h => h)
          fun s => runYield_keeps ns (k s) (hk s) t.frame) (s.left t) _ _ hs h2
      cases e with
      | none => exact Trip.pure fun _ h => h
      | some e => exact Trip.act fun _ _ => by simp [Action.run, IsErr, St.setErr]

theorem runYield_surface {ns : List Node} {m : Node} (hmem : m ∈ ns) (hm : TE env (rec m)) : (p : YieldProg) →
    YieldsSome p → (child : Frame) → Trip env (fun _ => True) (runYield rec ns p child) (fun _ => IsErr)
  | .done, hp, _ => by cases hp
  | .user upd k, hp, child => by
    cases hp with
    | user h => exact Trip.bind (Trip.weak _) fun s => runYield_surface hmem hm (k s) (h s) child
  | .write d k, hp, child => by
    cases hp with
    | write h =>
      exact Trip.bind (Trip.weak _) fun r => Trip.bind (Trip.weak _) fun s => runYield_surface hmem hm (k r s) (h r s) child
  | .yield it k, hp, child => by
    cases hp with
    | yield hk =>
      rw [runYield_yield]
      intro s r s' _ he
      obtain ⟨e, t, h1, h2⟩ := exec_scope (.bind (.setItem _ _) fun _ => .iterNodes PR ns) he
      have h3 : e ≠ none :=
        Trip.bind (I := fun _ => True) (Trip.weak _) (fun _ => iterNodes_surface hmem hm) _ _ _ trivial h1
      refine Trip.bind (I := fun _ => True) (Q := fun _ => IsErr) ?_
        (fun _ => Trip.bind (m := Do.look) (Q := fun _ => IsErr) (Trip.act fun _ h => h)
          fun s => runYield_keeps PR ns (k s) (hk s) t.frame) _ _ _ trivial h2
      cases e with
      | none => exact (h3 rfl).elim
      | some e => exact Trip.act fun _ _ => by simp [Action.run, IsErr, St.setErr]

theorem renderYield_surface {ns : List Node} {m : Node} (hmem : m ∈ ns) (hm : TE env (rec m)) {g : FnId}
    (hg : ∀ s, YieldsSome (env.yields g s)) :
    Trip env (fun _ => True) (renderYield rec ns g) (fun e s => e ≠ none ∧ IsErr s) := by
  unfold renderYield
  refine Trip.bind (Q := fun c s => s.toCtx = c) (Trip.act fun _ _ => rfl) fun c => ?_
  cases herr : c.frame.err with
  | some e => exact Trip.pure fun s hs => ⟨by simp, by unfold IsErr; rw [hs, herr]; simp⟩
  | none =>
    exact bind_pure_pre (q := YieldsSome) (Trip.act fun s _ => hg s) fun p hp =>
      Trip.bind (runYield_surface PR hmem hm p hp _) fun _ => IsErr.retErr

omit PR

theorem runImp_surface : (p : ImpProg) → AlwaysErr p → (st : List Bytes) → TE env (runImp rec p st)
  | .ret e, hp, _ => by cases hp; exact Trip.pure fun _ _ => by simp
  | .user upd k, hp, st => by
    cases hp with
    | user h => exact Trip.bind (Trip.weak _) fun s => runImp_surface (k s) (h s) st
  | .call op k, hp, st => by
    cases hp with
    | call h => exact Trip.bind (Trip.weak _) fun st => Trip.bind (Trip.weak _) fun s => runImp_surface (k s) (h s) st
  | .render n k, hp, st => by
    cases hp with
    | render h => exact Trip.bind (Trip.weak _) fun e => Trip.bind (Trip.weak _) fun s => runImp_surface (k e s) (h e s) st
  | .write d k, hp, st => by
    cases hp with
    | write h => exact Trip.bind (Trip.weak _) fun r => Trip.bind (Trip.weak _) fun s => runImp_surface (k r s) (h r s) st

theorem documentLoop_surface {pre : List Node} {m : Node}
    (hm : Trip env (fun _ => True) (rec m) (fun _ => IsErr)) :
    Trip env (fun _ => True) (documentLoop rec (pre ++ [m])) (fun _ => IsErr) := by
  induction pre with
  | nil => exact Trip.bind hm fun _ => Trip.pure fun _ h => h
  | cons x pre ih => exact Trip.bind (Trip.weak _) fun _ => ih

end

theorem surfaces_not_attr {env : Env} {f : FnId} {n : Node} (h : Surfaces env f n) : n.isAttr = false := by
  cases h <;> rfl

theorem both {env : Env} {m : Prog (Option Err)} {q : Prop}
    (h : Trip env (fun _ => True) m (fun e s => e ≠ none ∧ IsErr s)) :
    TE env m ∧ (q → Trip env (fun _ => True) m (fun _ => IsErr)) :=
  ⟨h.conseq fun _ _ h => h.1, fun _ => h.conseq fun _ _ h => h.2⟩

theorem surfaces {env : Env} {f : FnId} (hf : ∀ s, AlwaysErr (env.imp f s)) {n : Node} (h : Surfaces env f n) :
    ∀ fuel, TE env (renderProg fuel n) ∧ ((∀ g, n ≠ .imperative g) →
      Trip env (fun _ => True) (renderProg fuel n) (fun _ => IsErr)) := by
  induction h with
  | imperative =>
    intro fuel
    refine ⟨?_, fun h => (h _ rfl).elim⟩
    cases fuel with
    | zero => exact Trip.stuck
    | succ fuel =>
      exact bind_pure_pre (q := AlwaysErr) (Trip.act fun s _ => hf s) fun p hp => runImp_surface p hp []
  | element hm hp ih =>
    intro fuel
    refine both ?_
    · cases fuel with
      | zero => exact Trip.stuck
      | succ fuel =>
        exact Trip.bind (Trip.weak _) fun _ => Trip.bind
          (contentLoop_surface (ih fuel).1 fun p hmem s e s' hs he => hp p hmem s e s' hs ⟨fuel, he⟩)
          fun _ => Trip.bind (IsErr.renderEndTag _) fun _ => IsErr.retErr
  | collection hmem hm ih =>
    intro fuel
    refine both ?_
    · cases fuel with
      | zero => exact Trip.stuck
      | succ fuel =>
        exact Trip.bind (collectionLoop_surface hmem (surfaces_not_attr hm) (ih fuel).1) fun _ => IsErr.retErr
  | conditional hmem hm hc ih =>
    intro fuel
    refine both ?_
    · cases fuel with
      | zero => exact Trip.stuck
      | succ fuel =>
        refine bind_pure_pre (q := fun b => b = true) (Trip.act fun s _ => hc s) fun b hb => ?_
        subst hb
        exact Trip.bind (conditionalLoop_surface hmem (ih fuel).1) fun _ => IsErr.retErr
  | iterate hmem hm hi ih =>
    intro fuel
    refine both ?_
    · cases fuel with
      | zero => exact Trip.stuck
      | succ fuel => exact renderIterator_surface hmem (ih fuel).1 hi
  | iterateYield hmem hm hi ih =>
    intro fuel
    refine both ?_
    · cases fuel with
      | zero => exact Trip.stuck
      | succ fuel => exact renderYield_surface (KeepsParents.renderProg fuel) hmem (ih fuel).1 hi
  | document hm ih =>
    intro fuel
    refine both ?_
    · cases fuel with
      | zero => exact Trip.stuck
      | succ fuel =>
        refine Trip.bind ?_ fun _ => IsErr.retErr
        rw [← List.append_assoc]
        exact documentLoop_surface ((ih fuel).2 (by simp))

/-! ### Nodes that preserve errors -/

theorem preserves_iterator (env : Env) (ns : List Node) (fn : ItemSrc) : Preserves env (.iterator ns fn) := by
  rintro s e s' hs ⟨fuel, h⟩
  cases fuel with
  | zero => cases h
  | succ fuel =>
    refine (?_ : Trip env IsErr (renderIterator (renderProg fuel) ns fn) (fun e s => e ≠ none ∧ IsErr s)) s e s' hs h
    refine Trip.bind (Q := fun c s => s.toCtx = c ∧ IsErr s) (Trip.act fun _ h => ⟨rfl, h⟩) fun c => ?_
    cases herr : c.frame.err with
    | some e => exact Trip.pure fun s hs => ⟨by simp, hs.2⟩
    | none => intro s r s' hs _; exact (hs.2 (by rw [hs.1, herr])).elim

theorem IsErr.renderBools : (as : List Bytes) → {env : Env} →
    Trip env IsErr (renderAttrs (as.map Attr.bool)) (fun _ => IsErr)
  | [], _ => Trip.pure fun _ h => h
  | _ :: as, _ => Trip.bind (Trip.bind (IsErr.ctxWrite _) fun _ => IsErr.ctxWrite _) fun _ => IsErr.renderBools as

theorem preserves_element {env : Env} {name : Bytes} {as : List Bytes} {idx : List (Bytes × Nat)} {cs : List Node}
    (hc : ∀ p ∈ cs, Preserves env p) : Preserves env (.element ⟨name, as.map .bool, idx, []⟩ cs) := by
  rintro s e s' hs ⟨fuel, h⟩
  cases fuel with
  | zero => cases h
  | succ fuel =>
    refine (?_ : Trip env IsErr (renderProg (fuel + 1) _) (fun e s => e ≠ none ∧ IsErr s)) s e s' hs h
    exact Trip.bind (Trip.bind (IsErr.ctxWrite _) fun _ => Trip.bind (IsErr.ctxWrite _) fun _ =>
      Trip.bind (IsErr.renderBools as) fun _ => IsErr.ctxWrite _) fun _ =>
      Trip.bind (contentLoop_post fun p hmem s e s' hs he => hc p hmem s e s' hs ⟨fuel, he⟩) fun _ =>
      Trip.bind (IsErr.renderEndTag _) fun _ => IsErr.retErr

end Aitch
