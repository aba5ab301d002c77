import Verif.Spec.Component
import Verif.Proofs.Swap
import Verif.Proofs.Fuel
/-
Exchanging parts that run in the same way.
-/
namespace Aitch
open Spec

/-- Whatever `F` does with enough fuel, `G` does with enough fuel. -/
structure Covers (env : Env) {α : Type} (F G : Nat → Prog α) : Prop where
  mono : ∀ f f', f ≤ f' → Le (G f) (G f')
  run : ∀ f s r, exec env (F f) s = some r → ∃ g, exec env (G g) s = some r

section
variable {env : Env}

theorem Covers.same {α : Type} (m : Prog α) : Covers env (fun _ => m) fun _ => m :=
  ⟨fun _ _ _ => .refl m, fun f _ _ h => ⟨f, h⟩⟩

theorem Covers.bind {α β : Type} {F G : Nat → Prog α} {K K' : α → Nat → Prog β} (h : Covers env F G)
    (hk : ∀ a, Covers env (K a) (K' a)) : Covers env (fun f => F f >>= fun a => K a f) fun f => G f >>= fun a => K' a f := by
  refine ⟨fun f f' hf => .bind (h.mono f f' hf) fun a => (hk a).mono f f' hf, fun f s r he => ?_⟩
  rw [exec_bind] at he
  cases h1 : exec env (F f) s with
  | none => rw [h1] at he; cases he
  | some x =>
    obtain ⟨a, s1⟩ := x
    rw [h1] at he
    obtain ⟨g1, e1⟩ := h.run f s _ h1
    obtain ⟨g2, e2⟩ := (hk a).run f s1 _ he
    refine ⟨max g1 g2, ?_⟩
    rw [exec_bind, (h.mono g1 _ (Nat.le_max_left ..)).exec e1]
    exact ((hk a).mono g2 _ (Nat.le_max_right ..)).exec e2

theorem Covers.bindR {α β : Type} {m : Prog α} {K K' : α → Nat → Prog β}
    (hk : ∀ a, Covers env (K a) (K' a)) : Covers env (fun f => m >>= fun a => K a f) fun f => m >>= fun a => K' a f :=
  (Covers.same m).bind hk

/-- Covering renders of single nodes. -/
def CoversNode (env : Env) (n m : Node) : Prop :=
  n.isAttr = m.isAttr ∧ Covers env (fun f => renderProg f n) fun f => renderProg f m

theorem CoversNode.step {n m : Node} (ha : n.isAttr = m.isAttr)
    (h : Covers env (fun f => renderStep (renderProg f) n) fun f => renderStep (renderProg f) m) : CoversNode env n m := by
  refine ⟨ha, fun f f' hf => .renderProg hf m, fun f s r he => ?_⟩
  cases f with
  | zero => simp [renderProg, exec] at he
  | succ f =>
    obtain ⟨g, hg⟩ := h.run f s r he
    exact ⟨g + 1, hg⟩

theorem CoversNode.refl (n : Node) : CoversNode env n n :=
  ⟨rfl, fun _ _ hf => .renderProg hf n, fun f _ _ h => ⟨f, h⟩⟩

/-- Covering renders of lists of nodes. -/
inductive CoversAll (env : Env) : List Node → List Node → Prop
  | nil : CoversAll env [] []
  | cons {n m ns ms} : CoversNode env n m → CoversAll env ns ms → CoversAll env (n :: ns) (m :: ms)

theorem CoversAll.contentLoop {ns ms : List Node} (h : CoversAll env ns ms) :
    Covers env (fun f => contentLoop (renderProg f) ns) fun f => contentLoop (renderProg f) ms := by
  induction h with
  | nil => exact .same _
  | cons h _ ih => exact h.2.bind fun _ => .bindR fun _ => ih

theorem CoversAll.conditionalLoop {ns ms : List Node} (h : CoversAll env ns ms) :
    Covers env (fun f => conditionalLoop (renderProg f) ns) fun f => conditionalLoop (renderProg f) ms := by
  induction h with
  | nil => exact .same _
  | cons h _ ih =>
    refine h.2.bind fun e => .bindR fun _ => ?_
    cases e
    · exact ih
    · exact .same _

theorem CoversAll.collectionLoop {ns ms : List Node} (h : CoversAll env ns ms) :
    Covers env (fun f => collectionLoop (renderProg f) ns) fun f => collectionLoop (renderProg f) ms := by
  induction h with
  | nil => exact .same _
  | @cons n m ns ms h _ ih =>
    unfold Aitch.collectionLoop
    rw [← h.1]
    cases n.isAttr
    · refine h.2.bind fun e => .bindR fun _ => ?_
      cases e
      · exact ih
      · exact .same _
    · exact ih

theorem CoversAll.documentLoop {ns ms : List Node} (h : CoversAll env ns ms) :
    Covers env (fun f => documentLoop (renderProg f) ns) fun f => documentLoop (renderProg f) ms := by
  induction h with
  | nil => exact .same _
  | cons h _ ih => exact h.2.bind fun _ => ih

theorem CoversAll.iterNodes {ns ms : List Node} (h : CoversAll env ns ms) :
    Covers env (fun f => iterNodes (renderProg f) ns) fun f => iterNodes (renderProg f) ms := by
  induction h with
  | nil => exact .same _
  | cons h _ ih =>
    refine h.2.bind fun e => ?_
    cases e
    · exact ih
    · exact .same _

theorem CoversAll.iterItems {ns ms : List Node} (h : CoversAll env ns ms) (d : Option MapId) (its : List Any) :
    Covers env (fun f => iterItems (renderProg f) ns d its) fun f => iterItems (renderProg f) ms d its := by
  induction its with
  | nil => exact .same _
  | cons it its ih =>
    refine .bindR fun _ => h.iterNodes.bind fun e => ?_
    cases e
    · exact ih
    · exact .same _

theorem CoversAll.renderIterator {ns ms : List Node} (h : CoversAll env ns ms) (fn : ItemSrc) :
    Covers env (fun f => renderIterator (renderProg f) ns fn) fun f => renderIterator (renderProg f) ms fn := by
  unfold Aitch.renderIterator
  refine .bindR fun c => ?_
  cases c.frame.err
  · refine .bindR fun its => ?_
    cases its
    · exact .same _
    · exact .bindR fun c => .bindR fun _ => (h.iterItems _ _).bind fun e => .same _
  · exact .same _

theorem CoversAll.runYield {ns ms : List Node} (h : CoversAll env ns ms) (p : YieldProg) (child : Frame) :
    Covers env (fun f => runYield (renderProg f) ns p child) fun f => runYield (renderProg f) ms p child := by
  induction p generalizing child with
  | done => exact .same _
  | user upd k ih => exact .bindR fun s => ih s child
  | write d k ih => exact .bindR fun r => .bindR fun s => ih r s child
  | yield it k ih =>
    exact .bindR fun _ => .bindR fun _ => h.iterNodes.bind fun e => .bindR fun child =>
      .bindR fun _ => .bindR fun s => ih s child

theorem CoversAll.renderYield {ns ms : List Node} (h : CoversAll env ns ms) (g : FnId) :
    Covers env (fun f => renderYield (renderProg f) ns g) fun f => renderYield (renderProg f) ms g := by
  unfold Aitch.renderYield
  refine .bindR fun c => ?_
  cases c.frame.err
  · exact .bindR fun p => (h.runYield p _).bind fun _ => .same _
  · exact .same _

section
variable {n₁ n₂ : Node} (h : CoversNode env n₁ n₂)
include h

set_option linter.unusedSectionVars false in
mutual
theorem covers_like : {a b : Node} → Like n₁ n₂ a b → CoversNode env a b
  | _, _, .here => h
  | _, _, .refl n => .refl n
  | _, _, .element hd hs => .step rfl (.bindR fun _ => (coversAll_like hs).contentLoop.bind fun _ => .same _)
  | _, _, .collection hs => .step rfl ((coversAll_like hs).collectionLoop.bind fun _ => .same _)
  | _, _, .conditional xs fn hs => .step rfl (.bindR fun b => by
      refine Covers.bind ?_ fun _ => .same _
      cases b
      · exact .same _
      · exact (coversAll_like hs).conditionalLoop)
  | _, _, .iterator fn hs => .step rfl ((coversAll_like hs).renderIterator fn)
  | _, _, .yieldIterator g hs => .step rfl ((coversAll_like hs).renderYield g)
  | _, _, .document none hs => .step rfl ((coversAll_like hs).documentLoop.bind fun _ => .same _)
  | _, _, .document (some p) hs =>
    .step rfl ((CoversAll.cons (.refl p) (coversAll_like hs)).documentLoop.bind fun _ => .same _)
theorem coversAll_like : {as bs : List Node} → LikeAll n₁ n₂ as bs → CoversAll env as bs
  | _, _, .nil => .nil
  | _, _, .cons h hs => .cons (covers_like h) (coversAll_like hs)
end

end

/-- Two nodes that run in the same way cover each other. -/
theorem coversNode_of_sameRuns {n m : Node} (ha : n.isAttr = m.isAttr) (h : SameRuns env n m) : CoversNode env n m :=
  ⟨ha, fun _ _ hf => .renderProg hf m, fun f s r he => (h s r.1 r.2).1 ⟨f, he⟩⟩

theorem CoversNode.runs {n m : Node} (h : CoversNode env n m) {s s' : St} {e : Option Err} (hr : Runs env n s e s') :
    Runs env m s e s' := by
  obtain ⟨f, hf⟩ := hr
  exact h.2.run f s _ hf

theorem sameRuns_like {n₁ n₂ a b : Node} (ha : n₁.isAttr = n₂.isAttr) (h : SameRuns env n₁ n₂) (hl : Like n₁ n₂ a b) :
    SameRuns env a b := fun _ _ _ =>
  ⟨(covers_like (coversNode_of_sameRuns ha h) hl).runs,
    (covers_like (coversNode_of_sameRuns ha.symm fun s e s' => (h s e s').symm) hl.symm).runs⟩

end

end Aitch
