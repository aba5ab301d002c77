import Verif.Spec.OwnElement
import Verif.Proofs.Own
import Verif.Proofs.Fuel
import Verif.Proofs.Hoare
/-
Elements with contents whose attributes have any `Render` methods.
-/
namespace Aitch.Own

open Aitch.Spec Aitch.Spec.Own

/-! ### Fuel -/

section
variable {rec rec' : ONode → Prog (Option Err)} (R : ∀ n, Le (rec n) (rec' n))
include R

theorem le_contentLoop : (ns : List ONode) → Le (contentLoop rec ns) (contentLoop rec' ns)
  | [] => .refl _
  | n :: ns => .bind (R n) fun _ => .bindR fun _ => le_contentLoop ns

theorem le_conditionalLoop : (ns : List ONode) → Le (conditionalLoop rec ns) (conditionalLoop rec' ns)
  | [] => .refl _
  | n :: ns => by
    refine .bind (R n) fun e => .bindR fun _ => ?_
    cases e
    · exact le_conditionalLoop ns
    · exact .refl _

theorem le_collectionLoop : (ns : List ONode) → Le (collectionLoop rec ns) (collectionLoop rec' ns)
  | [] => .refl _
  | n :: ns => by
    unfold collectionLoop
    split
    · exact le_collectionLoop ns
    · refine .bind (R n) fun e => .bindR fun _ => ?_
      cases e
      · exact le_collectionLoop ns
      · exact .refl _

theorem le_documentLoop : (ns : List ONode) → Le (documentLoop rec ns) (documentLoop rec' ns)
  | [] => .refl _
  | n :: ns => .bind (R n) fun _ => le_documentLoop ns

theorem le_iterNodes : (ns : List ONode) → Le (iterNodes rec ns) (iterNodes rec' ns)
  | [] => .refl _
  | n :: ns => by
    refine .bind (R n) fun e => ?_
    cases e
    · exact le_iterNodes ns
    · exact .refl _

theorem le_iterItems (ns : List ONode) (d : Option MapId) :
    (its : List Any) → Le (iterItems rec ns d its) (iterItems rec' ns d its)
  | [] => .refl _
  | it :: its => by
    refine .bindR fun _ => .bind (le_iterNodes R ns) fun e => ?_
    cases e
    · exact le_iterItems ns d its
    · exact .refl _

theorem le_renderIterator (ns : List ONode) (fn : ItemSrc) :
    Le (renderIterator rec ns fn) (renderIterator rec' ns fn) := by
  unfold Aitch.renderIterator
  refine .bindR fun c => ?_
  split
  · exact .refl _
  · refine .bindR fun its => ?_
    split
    · exact .refl _
    · exact .bindR fun c => .bindR fun _ => .bind (le_iterItems R ns _ _) fun e => .refl _

theorem le_runYield (ns : List ONode) (p : YieldProg) (child : Frame) :
    Le (runYield rec ns p child) (runYield rec' ns p child) := by
  induction p generalizing child with
  | done => exact .refl _
  | user upd k ih => exact .bindR fun s => ih s child
  | write d k ih => exact .bindR fun r => .bindR fun s => ih r s child
  | yield it k ih =>
    exact .bindR fun _ => .bindR fun _ => .bind (le_iterNodes R ns) fun e => .bindR fun child =>
      .bindR fun _ => .bindR fun s => ih s child

theorem le_renderYield (ns : List ONode) (f : FnId) : Le (renderYield rec ns f) (renderYield rec' ns f) := by
  unfold Aitch.renderYield
  refine .bindR fun c => ?_
  split
  · exact .refl _
  · exact .bindR fun p => .bind (le_runYield R ns p _) fun _ => .refl _

end

theorem le_renderProg {f f' : Nat} (h : f ≤ f') (n : ONode) : Le (renderProg f n) (renderProg f' n) := by
  induction f generalizing f' n with
  | zero => simp only [renderProg]; exact .stuck _
  | succ f ih =>
    obtain ⟨f', rfl⟩ : ∃ g, f' = g + 1 := ⟨f' - 1, by omega⟩
    have R : ∀ n, Le (renderProg f n) (renderProg f' n) := fun n => ih (by omega) n
    cases n with
    | element h cs => exact .bindR fun _ => .bind (le_contentLoop R cs) fun _ => .refl _
    | voidElement h => exact .refl _
    | attr a => exact .refl _
    | collection ns => exact .bind (le_collectionLoop R ns) fun _ => .refl _
    | conditional ns as fn =>
      refine .bindR fun b => .bind ?_ fun _ => .refl _
      cases b
      · exact .refl _
      · exact le_conditionalLoop R ns
    | iterator ns fn => exact le_renderIterator R ns fn
    | yieldIterator ns f => exact le_renderYield R ns f
    | document cs => exact .bind (le_documentLoop R _) fun _ => .refl _
    | other n => exact Le.renderProg (by omega) n

/-! ### Construction -/

mutual
theorem split_unconditional (n : ONode) (hn : Unconditional n) (hp : CondHeap) :
    splitItem ⟨0, 0, 0⟩ n hp = (⟨brought n, [], within [n]⟩, hp) := by
  cases n with
  | attr a => simp [splitItem, brought, within]
  | collection ns =>
    simp only [Unconditional] at hn
    simp [splitItem, split_allUnconditional ns hn hp, brought, within]
  | conditional ns as fn => exact absurd hn (by simp [Unconditional])
  | _ => simp [splitItem, brought, within]
theorem split_allUnconditional (ns : List ONode) (hn : AllUnconditional ns) (hp : CondHeap) :
    splitItems ⟨0, 0, 0⟩ ns hp = (⟨allBrought ns, [], within ns⟩, hp) := by
  cases ns with
  | nil => simp [splitItems, allBrought, within]
  | cons n ns =>
    simp only [AllUnconditional] at hn
    simp only [splitItems, split_unconditional n hn.1 hp, split_allUnconditional ns hn.2 hp, OSplit.append, allBrought]
    cases n <;> simp [within]
end

theorem element_any (name : Bytes) (cs : List ONode) (hc : AllUnconditional cs)
    (hd : ∀ n d r, OAttr.std (.delim n d r) ∉ allBrought cs) (h : Heap) (fuel : Nat) :
    renderProg (fuel + 1) (NewElement name cs h).1 = (do
      tagOf name (lastDeclared (allBrought cs))
      contentLoop (renderProg fuel) (within cs)
      endTag name) ∧
    renderProg (fuel + 1) (NewVoidElement name cs h).1 = tag name (lastDeclared (allBrought cs)) := by
  obtain ⟨K, k2, k3, k4⟩ := kept_add (allBrought cs) hd [] ⟨name, [], [], []⟩ h.dl
    ⟨rfl, by simp, by simp, by simp⟩
  simp only [NewElement, NewVoidElement, attributesAndContents, split_allUnconditional cs hc, List.map_nil]
  simp only [renderProg, renderStartTag, renderAttributes, k3, k4, List.length_nil, gt_iff_lt, Nat.lt_irrefl, if_false]
  rw [lastDeclared_of_kept K, renderAttrs_each]
  exact ⟨rfl, rfl⟩

/-! ### Rendering -/

theorem runsEach_of_loop {env : Env} {fuel : Nat} (ns : List ONode) : ∀ {s s' : St},
    exec env (contentLoop (renderProg fuel) ns) s = some ((), s') → RunsEach env ns s s' := by
  induction ns with
  | nil => intro s s' h; cases h; exact .nil _
  | cons n ns ih =>
    intro s s' h
    simp only [contentLoop] at h
    rw [exec_bind] at h
    obtain ⟨⟨e, s₁⟩, h₁, h₂⟩ := Option.bind_eq_some_iff.mp h
    exact .cons ⟨fuel, h₁⟩ (ih h₂)

theorem loop_of_runsEach {env : Env} {ns : List ONode} {s s' : St} (h : RunsEach env ns s s') :
    ∃ fuel, exec env (contentLoop (renderProg fuel) ns) s = some ((), s') := by
  induction h with
  | nil s => exact ⟨0, rfl⟩
  | @cons n ns s s₁ s' e h₁ _ ih =>
    obtain ⟨f, hf⟩ := h₁
    obtain ⟨g, hg⟩ := ih
    refine ⟨max f g, ?_⟩
    simp only [contentLoop]
    rw [exec_bind, (le_renderProg (Nat.le_max_left f g) n).exec hf]
    exact (le_contentLoop (le_renderProg (Nat.le_max_right f g)) ns).exec hg

end Aitch.Own
