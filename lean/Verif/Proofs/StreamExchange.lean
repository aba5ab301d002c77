import Verif.Spec.StreamExchange
import Verif.Proofs.StreamFinite
import Verif.Proofs.Component
/-
Exchanging parts that run in the same way, when functions write and render.
-/
namespace Aitch.Stream
open Spec Spec.Stream

/-- No functions that supply nodes. -/
def Plain : Action → Prop
  | .collect _ => False
  | .yields _ => False
  | .imp _ => False
  | _ => True

theorem allows_plain : Allows (fun _ => True) Plain Plain (fun _ => True) where
  ctx := trivial
  write _ := trivial
  setErr _ := trivial
  heap _ _ _ _ := valuesUse_fns _ fun _ _ => trivial
  fns _ h _ := h
  yields _ h := h
  order _ := trivial
  enter _ := trivial
  setItem _ _ := trivial
  leave := trivial
  look _ _ := trivial
  user _ _ _ := trivial

theorem attrUses_plain (a : Attr) : AttrUses Plain (fun _ => True) a := by
  cases a with
  | plain n vs => exact valuesUse_fns _ fun _ _ => trivial
  | bool n => trivial
  | delim n d r => trivial

theorem condUses_plain (k : Cond) : CondUses Plain k := by cases k <;> trivial

theorem headUses_plain (h : ElemHead) : HeadUses Plain (fun _ => True) h :=
  ⟨fun a _ => attrUses_plain a, fun _ _ => ⟨attrUses_plain _, fun k _ => condUses_plain k⟩⟩

theorem uniLeaf_plain : UniLeaf Eq (fun _ => True) Plain Plain (fun _ => True) :=
  { allows_plain.toAllowsLeaf with
    maps := fun _ _ h => by rw [h]
    dl := fun _ _ h _ _ => by rw [h] }

abbrev OnlyPlain {α : Type} (m : Prog α) : Prop := Only (fun _ => True) Plain m

theorem plain_startWrite : (es : List (Bytes × Option (List Value))) → OnlyPlain (startWrite es)
  | [] => .ret _
  | (n, vs) :: es => by
    have A := allows_plain.toAllowsLeaf
    refine .bind (.ctxWrite A _) fun _ => .bind (.ctxWrite A _) fun _ => .bind ?_ fun _ => plain_startWrite es
    cases vs with
    | none => exact .ret _
    | some vs => exact .bind (.ctxWrite A _) fun _ => .bind (.renderValues A vs (valuesUse_fns _ fun _ _ => trivial)) fun _ => .ctxWrite A _

theorem plain_startTag (n : Bytes) (attrs : List (Option Node)) : OnlyPlain (startTag n attrs) := by
  have A := allows_plain.toAllowsLeaf
  exact .bind (.ctxWrite A _) fun _ => .bind (.ctxWrite A _) fun _ => .bindCtx A.ctx fun c hc =>
    .bind (plain_startWrite _) fun _ => .ctxWrite A _

theorem plain_endAll (l : List Bytes) : OnlyPlain (endAll l) := by
  induction l with
  | nil => exact .ret _
  | cons n l ih => exact .bind (.renderEndTag allows_plain.toAllowsLeaf n) fun _ => ih

/-- Whatever `P` does in the first program, `Q` does in the second with enough fuel. -/
structure Cov (env₁ : Env) (B₁ : Bodies) (env₂ : Env) (B₂ : Bodies) (rr : Render) {α : Type} (P : Prog α)
    (Q : Nat → Prog α) : Prop where
  mono : ∀ g g', g ≤ g' → Le (Q g) (Q g')
  run : ∀ s r, exec env₁ (inlined B₁ rr P) s = some r → ∃ g, exec env₂ (inlined B₂ (renderWith B₂ g) (Q g)) s = some r

section
variable {env₁ env₂ : Env} {B₁ B₂ : Bodies} {rr : Render} {X : Node → Node → Prop}

theorem Cov.le {α : Type} {P : Prog α} {Q : Nat → Prog α} (h : Cov env₁ B₁ env₂ B₂ rr P Q) {g g' : Nat} (hg : g ≤ g') :
    Le (inlined B₂ (renderWith B₂ g) (Q g)) (inlined B₂ (renderWith B₂ g') (Q g')) :=
  le_inlined (fun n => le_renderWith B₂ hg n) (h.mono g g' hg)

theorem Cov.bind {α β : Type} {P : Prog α} {Q : Nat → Prog α} {K : α → Prog β} {K' : α → Nat → Prog β}
    (h : Cov env₁ B₁ env₂ B₂ rr P Q) (hk : ∀ a, Cov env₁ B₁ env₂ B₂ rr (K a) (K' a)) :
    Cov env₁ B₁ env₂ B₂ rr (P >>= K) fun g => Q g >>= fun a => K' a g := by
  refine ⟨fun g g' hg => .bind (h.mono g g' hg) fun a => (hk a).mono g g' hg, fun s r he => ?_⟩
  rw [inlined_bind, exec_bind] at he
  cases h1 : exec env₁ (inlined B₁ rr P) s with
  | none => rw [h1] at he; cases he
  | some x =>
    obtain ⟨a, s1⟩ := x
    rw [h1] at he
    obtain ⟨g1, e1⟩ := h.run s _ h1
    obtain ⟨g2, e2⟩ := (hk a).run s1 _ he
    refine ⟨max g1 g2, ?_⟩
    rw [inlined_bind, exec_bind, (h.le (Nat.le_max_left g1 g2)).exec e1]
    exact ((hk a).le (Nat.le_max_right g1 g2)).exec e2

theorem Cov.ret {α : Type} (a : α) : Cov env₁ B₁ env₂ B₂ rr (Pure.pure a) fun _ => Pure.pure a :=
  ⟨fun _ _ _ => .refl _, fun _ _ h => ⟨0, h⟩⟩

/-- Renders by functions. -/
def Backed (env₁ env₂ : Env) (B₂ : Bodies) (rr : Render) (X : Node → Node → Prop) : Prop :=
  ∀ n m, X n m → ∀ s r, exec env₁ (rr n) s = some r → ∃ g, exec env₂ (renderWith B₂ g m) s = some r

theorem run_alike (W : AlikeFns X env₁ B₁ env₂ B₂) (R : Backed env₁ env₂ B₂ rr X) {α : Type} {A : α → α → Prop}
    {b b' : FnProg α} (h : AlikeFn X A b b') {s s' : St} {a : α} (he : exec env₁ (b.run rr) s = some (a, s')) :
    ∃ a' g, A a a' ∧ exec env₂ (b'.run (renderWith B₂ g)) s = some (a', s') := by
  induction h generalizing s with
  | @ret a b h => cases he; exact ⟨b, 0, h, rfl⟩
  | @user upd k k' _ ih => exact ih _ he
  | @write d k k' _ ih =>
    have e : (Action.write d).run env₁ s = (Action.write d).run env₂ s := by simp [Action.run, W.write]
    simp only [FnProg.run, Do.write, exec_bind, exec, Option.bind_some, e] at he
    obtain ⟨a', g, ha, h⟩ := ih _ _ he
    refine ⟨a', g, ha, ?_⟩
    simp only [FnProg.run, Do.write, exec_bind, exec, Option.bind_some]
    exact h
  | @render n m k k' hx _ ih =>
    simp only [FnProg.run, exec_bind] at he
    cases h1 : exec env₁ (rr n) s with
    | none => rw [h1] at he; cases he
    | some x =>
      obtain ⟨e, s1⟩ := x
      rw [h1] at he
      obtain ⟨g1, e1⟩ := R n m hx s _ h1
      obtain ⟨a', g2, ha, e2⟩ := ih e s1 he
      refine ⟨a', max g1 g2, ha, ?_⟩
      simp only [FnProg.run, exec_bind]
      rw [(le_renderWith B₂ (Nat.le_max_left g1 g2) m).exec e1]
      exact (le_run (fun n => le_renderWith B₂ (Nat.le_max_right g1 g2) n) _).exec e2

theorem fn_alike (W : AlikeFns X env₁ B₁ env₂ B₂) (R : Backed env₁ env₂ B₂ rr X) {α β : Type} {A : α → α → Prop}
    {body body' : St → FnProg α} (hb : ∀ s, AlikeFn X A (body s) (body' s)) {K : α → Prog β} {K' : α → Nat → Prog β}
    (hm : ∀ a g g', g ≤ g' → Le (K' a g) (K' a g'))
    (hk : ∀ a a', A a a' → ∀ s r, exec env₁ (inlined B₁ rr (K a)) s = some r →
      ∃ g, exec env₂ (inlined B₂ (renderWith B₂ g) (K' a' g)) s = some r) (s : St) (r : β × St)
    (he : exec env₁ (do let s ← Do.look; let r ← (body s).run rr; inlined B₁ rr (K r)) s = some r) :
    ∃ g, exec env₂ (do let s ← Do.look; let r ← (body' s).run (renderWith B₂ g); inlined B₂ (renderWith B₂ g) (K' r g)) s
      = some r := by
  change exec env₁ ((body s).run rr >>= fun r => inlined B₁ rr (K r)) s = _ at he
  rw [exec_bind] at he
  cases h1 : exec env₁ ((body s).run rr) s with
  | none => rw [h1] at he; cases he
  | some x =>
    obtain ⟨a, s1⟩ := x
    rw [h1] at he
    obtain ⟨a', g1, ha, e1⟩ := run_alike W R (hb s) h1
    obtain ⟨g2, e2⟩ := hk a a' ha s1 r he
    refine ⟨max g1 g2, ?_⟩
    change exec env₂ ((body' s).run (renderWith B₂ _) >>= fun r => inlined B₂ (renderWith B₂ _) (K' r _)) s = _
    rw [exec_bind, (le_run (fun n => le_renderWith B₂ (Nat.le_max_left g1 g2) n) _).exec e1]
    exact (le_inlined (fun n => le_renderWith B₂ (Nat.le_max_right g1 g2) n) (hm a' _ _ (Nat.le_max_right g1 g2))).exec e2

theorem only_alike (W : AlikeFns X env₁ B₁ env₂ B₂) (R : Backed env₁ env₂ B₂ rr X) {α : Type} {m : Prog α} (h : OnlyPlain m)
    (s : St) (r : α × St) (he : exec env₁ (inlined B₁ rr m) s = some r) :
    ∃ g, exec env₂ (inlined B₂ (renderWith B₂ g) m) s = some r := by
  induction h generalizing s r with
  | pure a => exact ⟨0, he⟩
  | step a k ha _ ih =>
    have ok : ∀ r, RespOK (fun _ => True) a r := fun r => by cases a <;> trivial
    cases a with
    | dyn f =>
      exact fn_alike W R (W.dyn f) (K := k) (K' := fun r _ => k r) (fun _ _ _ _ => .refl _)
        (fun r r' hr s x hx => by subst hr; exact ih r (ok r) s x hx) s r he
    | cond f =>
      exact fn_alike W R (W.cond f) (K := k) (K' := fun r _ => k r) (fun _ _ _ _ => .refl _)
        (fun r r' hr s x hx => by subst hr; exact ih r (ok r) s x hx) s r he
    | items f =>
      exact fn_alike W R (W.items f) (K := k) (K' := fun r _ => k r) (fun _ _ _ _ => .refl _)
        (fun r r' hr s x hx => by subst hr; exact ih r (ok r) s x hx) s r he
    | collect f => exact ha.elim
    | yields f => exact ha.elim
    | imp f => exact ha.elim
    | write d =>
      have e : (Action.write d).run env₁ s = (Action.write d).run env₂ s := by simp [Action.run, W.write]
      simp only [inlined, exec, e] at he
      exact ih _ (ok _) _ _ he
    | order ks =>
      have e : (Action.order ks).run env₁ s = (Action.order ks).run env₂ s := by simp [Action.run, W.order]
      simp only [inlined, exec, e] at he
      exact ih _ (ok _) _ _ he
    | _ => exact ih _ (ok _) _ _ he

theorem Cov.const (W : AlikeFns X env₁ B₁ env₂ B₂) (R : Backed env₁ env₂ B₂ rr X) {α : Type} {m : Prog α} (h : OnlyPlain m) :
    Cov env₁ B₁ env₂ B₂ rr m fun _ => m :=
  ⟨fun _ _ _ => .refl _, only_alike W R h⟩

/-- Renders of two nodes. -/
def NodeCov (env₁ : Env) (B₁ : Bodies) (env₂ : Env) (B₂ : Bodies) (rr : Render) (k : Nat) (n m : Node) : Prop :=
  n.isAttr = m.isAttr ∧ Cov env₁ B₁ env₂ B₂ rr (nested B₁ k n) fun g => nested B₂ g m

section
variable {n₁ n₂ : Node} (W : AlikeFns X env₁ B₁ env₂ B₂) (R : Backed env₁ env₂ B₂ rr X)
  (hX : ∀ a b, X a b → Like n₁ n₂ a b) {k : Nat} (H : ∀ a b, Like n₁ n₂ a b → NodeCov env₁ B₁ env₂ B₂ rr k a b)
include W R H
set_option linter.unusedSectionVars false

theorem cov_contentLoop : {as bs : List Node} → LikeAll n₁ n₂ as bs →
    Cov env₁ B₁ env₂ B₂ rr (contentLoop (nested B₁ k) as) fun g => contentLoop (nested B₂ g) bs
  | _, _, .nil => .ret _
  | _, _, .cons h hs => (H _ _ h).2.bind fun _ => (Cov.const W R (.act (by trivial))).bind fun _ => cov_contentLoop hs

theorem cov_conditionalLoop : {as bs : List Node} → LikeAll n₁ n₂ as bs →
    Cov env₁ B₁ env₂ B₂ rr (conditionalLoop (nested B₁ k) as) fun g => conditionalLoop (nested B₂ g) bs
  | _, _, .nil => .ret _
  | _, _, .cons h hs => (H _ _ h).2.bind fun e => (Cov.const W R (.act (by trivial))).bind fun _ => by
      cases e with
      | some e => exact .ret _
      | none => exact cov_conditionalLoop hs

theorem cov_collectionLoop : {as bs : List Node} → LikeAll n₁ n₂ as bs →
    Cov env₁ B₁ env₂ B₂ rr (collectionLoop (nested B₁ k) as) fun g => collectionLoop (nested B₂ g) bs
  | _, _, .nil => .ret _
  | _, _, .cons (a := a) h hs => by
    unfold Aitch.collectionLoop
    rw [← (H _ _ h).1]
    cases a.isAttr
    · exact (H _ _ h).2.bind fun e => (Cov.const W R (.act (by trivial))).bind fun _ => by
        cases e with
        | some e => exact .ret _
        | none => exact cov_collectionLoop hs
    · exact cov_collectionLoop hs

theorem cov_documentLoop : {as bs : List Node} → LikeAll n₁ n₂ as bs →
    Cov env₁ B₁ env₂ B₂ rr (documentLoop (nested B₁ k) as) fun g => documentLoop (nested B₂ g) bs
  | _, _, .nil => .ret _
  | _, _, .cons h hs => (H _ _ h).2.bind fun _ => cov_documentLoop hs

theorem cov_iterNodes : {as bs : List Node} → LikeAll n₁ n₂ as bs →
    Cov env₁ B₁ env₂ B₂ rr (iterNodes (nested B₁ k) as) fun g => iterNodes (nested B₂ g) bs
  | _, _, .nil => .ret _
  | _, _, .cons h hs => (H _ _ h).2.bind fun e => by
      cases e with
      | some e => exact .ret _
      | none => exact cov_iterNodes hs

theorem cov_iterItems {as bs : List Node} (h : LikeAll n₁ n₂ as bs) (d : Option MapId) : (its : List Any) →
    Cov env₁ B₁ env₂ B₂ rr (iterItems (nested B₁ k) as d its) fun g => iterItems (nested B₂ g) bs d its
  | [] => .ret _
  | it :: its => (Cov.const W R (.act (by trivial))).bind fun _ => (cov_iterNodes W R H h).bind fun e => by
      cases e with
      | some e => exact .ret _
      | none => exact cov_iterItems h d its

theorem cov_renderIterator {as bs : List Node} (h : LikeAll n₁ n₂ as bs) (fn : ItemSrc) :
    Cov env₁ B₁ env₂ B₂ rr (renderIterator (nested B₁ k) as fn) fun g => renderIterator (nested B₂ g) bs fn := by
  unfold Aitch.renderIterator
  refine (Cov.const W R (.act (by trivial))).bind fun c => ?_
  cases c.frame.err with
  | some e => exact .ret _
  | none =>
    refine (Cov.const W R (.runItems allows_plain fn (by cases fn <;> trivial))).bind fun its => ?_
    cases its with
    | nil => exact .ret _
    | cons it its =>
      refine (Cov.const W R (.act (by trivial))).bind fun c => (Cov.const W R (.act (by trivial))).bind fun _ =>
        (cov_iterItems W R H h _ _).bind fun e => (Cov.const W R (.act (by trivial))).bind fun _ => ?_
      cases e with
      | some e => exact .const W R (.bind (.act (by trivial)) fun _ => .ret _)
      | none => exact .ret _

include hX

theorem cov_ignoreLoop : {as bs : List (Option Node)} → AlikeNodes X as bs →
    Cov env₁ B₁ env₂ B₂ rr (ignoreLoop (nested B₁ k) as) fun g => ignoreLoop (nested B₂ g) bs
  | _, _, .nil => .ret _
  | _, _, .none (as := as) (bs := bs) hs => show Cov env₁ B₁ env₂ B₂ rr (ignoreLoop (nested B₁ k) as) fun g =>
      ignoreLoop (nested B₂ g) bs from cov_ignoreLoop hs
  | _, _, .some (a := a) h hs => by
    have H' := H _ _ (hX _ _ h)
    unfold Aitch.ignoreLoop
    rw [← H'.1]
    cases a.isAttr
    · exact H'.2.bind fun _ => cov_ignoreLoop hs
    · exact cov_ignoreLoop hs

omit hX in
theorem cov_ignoreLoop_same : (as : List (Option Node)) →
    Cov env₁ B₁ env₂ B₂ rr (ignoreLoop (nested B₁ k) as) fun g => ignoreLoop (nested B₂ g) as
  | [] => .ret _
  | none :: as => cov_ignoreLoop_same as
  | some a :: as => by
    unfold Aitch.ignoreLoop
    cases a.isAttr
    · exact (H _ _ (.refl a)).2.bind fun _ => cov_ignoreLoop_same as
    · exact cov_ignoreLoop_same as

theorem cov_runYield {as bs : List Node} (hs : LikeAll n₁ n₂ as bs) {b b' : YieldBody} (h : AlikeYield X b b') (child : Frame) :
    Cov env₁ B₁ env₂ B₂ rr (runYield (nested B₁ k) as b child) fun g => runYield (nested B₂ g) bs b' child := by
  induction h generalizing child with
  | done => exact .ret _
  | user _ ih => exact (Cov.const W R (.act (by trivial))).bind fun s => ih s child
  | write _ ih => exact (Cov.const W R (.act (by trivial))).bind fun r => (Cov.const W R (.act (by trivial))).bind fun s => ih r s child
  | render h _ ih =>
    exact (H _ _ (hX _ _ h)).2.bind fun e => (Cov.const W R (.act (by trivial))).bind fun s => ih e s child
  | yield _ ih =>
    exact (Cov.const W R (.act (by trivial))).bind fun _ => (Cov.const W R (.act (by trivial))).bind fun _ =>
      (cov_iterNodes W R H hs).bind fun e => (Cov.const W R (.act (by trivial))).bind fun child =>
      (Cov.const W R (.setErrIf allows_plain e)).bind fun _ => (Cov.const W R (.act (by trivial))).bind fun s => ih s child

omit hX in
theorem cov_runOp (op : ImpOp) (stack : List Bytes) :
    Cov env₁ B₁ env₂ B₂ rr (runOp (nested B₁ k) op stack) fun g => runOp (nested B₂ g) op stack := by
  have A := allows_plain.toAllowsLeaf
  cases op with
  | writeString d => exact .const W R (.bind (.ctxWrite A _) fun _ => .ret _)
  | writeRaw d => exact .const W R (.bind (.ctxWrite A _) fun _ => .ret _)
  | writeNodes ns => exact (cov_ignoreLoop_same W R H ns).bind fun _ => .ret _
  | start n v as => exact .const W R (.bind (plain_startTag n as) fun _ => .ret _)
  | «end» =>
    cases stack with
    | nil => exact .ret _
    | cons n stack => exact .const W R (.bind (.renderEndTag A n) fun _ => .ret _)
  | endAll => exact .const W R (.bind (plain_endAll stack) fun _ => .ret _)

theorem cov_runImp {b b' : ImpProg} (h : AlikeImp X b b') (stack : List Bytes) :
    Cov env₁ B₁ env₂ B₂ rr (runImp (nested B₁ k) b stack) fun g => runImp (nested B₂ g) b' stack := by
  induction h generalizing stack with
  | ret => exact .ret _
  | call _ ih => exact (cov_runOp W R H _ stack).bind fun stack => (Cov.const W R (.act (by trivial))).bind fun s => ih s stack
  | nodes hs _ ih =>
    exact ((cov_ignoreLoop W R hX H hs).bind fun _ => .ret stack).bind fun stack =>
      (Cov.const W R (.act (by trivial))).bind fun s => ih s stack
  | user _ ih => exact (Cov.const W R (.act (by trivial))).bind fun s => ih s stack
  | write _ ih => exact (Cov.const W R (.act (by trivial))).bind fun r => (Cov.const W R (.act (by trivial))).bind fun s => ih r s stack
  | render h _ ih =>
    exact (H _ _ (hX _ _ h)).2.bind fun e => (Cov.const W R (.act (by trivial))).bind fun s => ih e s stack

omit W R hX H in
theorem NodeCov.step {n m : Node} (ha : n.isAttr = m.isAttr)
    (h : Cov env₁ B₁ env₂ B₂ rr (step B₁ (nested B₁ k) n) fun g => step B₂ (nested B₂ g) m) :
    NodeCov env₁ B₁ env₂ B₂ rr (k + 1) n m := by
  refine ⟨ha, fun g g' hg => le_nested B₂ hg m, fun s r he => ?_⟩
  obtain ⟨g, hg⟩ := h.run s r he
  exact ⟨g + 1, (le_inlined (fun n => le_renderWith B₂ (Nat.le_succ g) n) (.refl _)).exec hg⟩

theorem cov_yieldIterator {as bs : List Node} (hs : LikeAll n₁ n₂ as bs) (f : FnId) :
    NodeCov env₁ B₁ env₂ B₂ rr (k + 1) (.yieldIterator as f) (.yieldIterator bs f) := by
  refine .step rfl ((Cov.const W R (.act (by trivial))).bind fun c => ?_)
  cases c.frame.err with
  | some e => exact .ret _
  | none =>
    refine ⟨fun g g' hg => .bind (.refl _) fun s => ?_, fun s r he => ?_⟩
    · exact ((cov_runYield W R hX H hs (W.yields f s) _).bind fun _ => .const W R (.retErr allows_plain.toAllowsLeaf)).mono g g' hg
    · exact ((cov_runYield W R hX H hs (W.yields f s) _).bind fun _ => .const W R (.retErr allows_plain.toAllowsLeaf)).run s r he

theorem nodeCov_refl (n : Node) : NodeCov env₁ B₁ env₂ B₂ rr (k + 1) n n := by
  have A := allows_plain
  have L := A.toAllowsLeaf
  have hv : ∀ vs, ValuesUse Plain vs := fun vs => valuesUse_fns vs fun _ _ => trivial
  have hret : Cov env₁ B₁ env₂ B₂ rr retErr fun _ => retErr := .const W R (.retErr L)
  cases n with
  | element h cs =>
    exact .step rfl ((Cov.const W R (.renderStartTag A h (headUses_plain h))).bind fun _ =>
      (cov_contentLoop W R H (likeAll_refl cs)).bind fun _ => (Cov.const W R (.renderEndTag L _)).bind fun _ => hret)
  | voidElement h => exact .step rfl ((Cov.const W R (.renderStartTag A h (headUses_plain h))).bind fun _ => hret)
  | attr a => exact .step rfl ((Cov.const W R (.renderAttr L a (attrUses_plain a))).bind fun _ => hret)
  | text vs => exact .step rfl ((Cov.const W R (.renderValues L vs (hv vs))).bind fun _ => hret)
  | comment vs =>
    exact .step rfl ((Cov.const W R (.ctxWrite L _)).bind fun _ => (Cov.const W R (.renderValues L vs (hv vs))).bind fun _ =>
      (Cov.const W R (.ctxWrite L _)).bind fun _ => hret)
  | fragment vs => exact .step rfl ((Cov.const W R (.renderValues L vs (hv vs))).bind fun _ => hret)
  | pi name vs =>
    exact .step rfl ((Cov.const W R (.ctxWrite L _)).bind fun _ => (Cov.const W R (.ctxWrite L _)).bind fun _ =>
      (Cov.const W R (.ctxWrite L _)).bind fun _ => (Cov.const W R (.renderValues L vs (hv vs))).bind fun _ =>
      (Cov.const W R (.ctxWrite L _)).bind fun _ => hret)
  | collection ns => exact .step rfl ((cov_collectionLoop W R H (likeAll_refl ns)).bind fun _ => hret)
  | conditional ns as c =>
    refine .step rfl ((Cov.const W R (.runCond L c (condUses_plain c))).bind fun b => Cov.bind ?_ fun _ => hret)
    cases b with
    | true => exact cov_conditionalLoop W R H (likeAll_refl ns)
    | false => exact .ret _
  | collector f =>
    refine .step rfl ⟨fun g g' hg => .bind (.refl _) fun ns => ?_, fun s r he => ?_⟩
    · exact ((cov_ignoreLoop_same W R H ns).bind fun _ => hret).mono g g' hg
    · exact fn_alike W R (W.collect f) (K := fun ns => do ignoreLoop (nested B₁ k) ns; retErr)
        (K' := fun ns g => do ignoreLoop (nested B₂ g) ns; retErr)
        (fun ns g g' hg => ((cov_ignoreLoop_same W R H ns).bind fun _ => hret).mono g g' hg)
        (fun ns ms hn => ((cov_ignoreLoop W R hX H hn).bind fun _ => hret).run) s r he
  | imperative f =>
    cases f with
    | none => exact .step rfl (.ret _)
    | some f =>
      refine ⟨rfl, fun g g' hg => le_nested B₂ hg _, fun s r he => ?_⟩
      obtain ⟨g, hg⟩ := (cov_runImp W R hX H (W.imp f s) []).run s r he
      exact ⟨g + 1, (le_inlined (fun n => le_renderWith B₂ (Nat.le_succ g) n) (.refl _)).exec hg⟩
  | iterator ns src => exact .step rfl (cov_renderIterator W R H (likeAll_refl ns) src)
  | yieldIterator ns f => exact cov_yieldIterator W R hX H (likeAll_refl ns) f
  | document p cs => exact .step rfl ((cov_documentLoop W R H (likeAll_refl _)).bind fun _ => hret)

theorem nodeCov_like (hn : NodeCov env₁ B₁ env₂ B₂ rr (k + 1) n₁ n₂) {a b : Node} (h : Like n₁ n₂ a b) :
    NodeCov env₁ B₁ env₂ B₂ rr (k + 1) a b := by
  have A := allows_plain
  have L := A.toAllowsLeaf
  have hret : Cov env₁ B₁ env₂ B₂ rr retErr fun _ => retErr := .const W R (.retErr L)
  cases h with
  | here => exact hn
  | refl => exact nodeCov_refl W R hX H _
  | element h hs =>
    exact .step rfl ((Cov.const W R (.renderStartTag A h (headUses_plain h))).bind fun _ =>
      (cov_contentLoop W R H hs).bind fun _ => (Cov.const W R (.renderEndTag L _)).bind fun _ => hret)
  | collection hs => exact .step rfl ((cov_collectionLoop W R H hs).bind fun _ => hret)
  | conditional xs c hs =>
    refine .step rfl ((Cov.const W R (.runCond L c (condUses_plain c))).bind fun b => Cov.bind ?_ fun _ => hret)
    cases b with
    | true => exact cov_conditionalLoop W R H hs
    | false => exact .ret _
  | iterator fn hs => exact .step rfl (cov_renderIterator W R H hs fn)
  | yieldIterator f hs => exact cov_yieldIterator W R hX H hs f
  | document p hs =>
    refine .step rfl (Cov.bind (cov_documentLoop W R H ?_) fun _ => hret)
    cases p with
    | none => exact hs
    | some p => exact .cons (.refl p) hs

end

theorem ends_of_inlined {env : Env} {B : Bodies} {n : Node} {s : St} {r : Option Err × St} {g : Nat}
    (h : exec env (inlined B (renderWith B g) (nested B g n)) s = some r) : Ends env B n s r.1 r.2 :=
  ⟨g + 1, (le_inlined (fun _ => .refl _) (le_nested B (Nat.le_succ g) n)).exec h⟩

theorem inlined_of_ends {env : Env} {B : Bodies} {n : Node} {s s' : St} {e : Option Err} (h : Ends env B n s e s') :
    ∃ g, exec env (inlined B (renderWith B g) (nested B g n)) s = some (e, s') := by
  obtain ⟨g, h⟩ := h
  cases g with
  | zero => simp [renderWith, exec] at h
  | succ g => exact ⟨g + 1, (le_inlined (fun n => le_renderWith B (Nat.le_succ g) n) (.refl _)).exec h⟩

theorem nodeCov_all {n₁ n₂ : Node} (W : AlikeFns X env₁ B₁ env₂ B₂) (R : Backed env₁ env₂ B₂ rr X)
    (hX : ∀ a b, X a b → Like n₁ n₂ a b) (ha : n₁.isAttr = n₂.isAttr)
    (hs : ∀ s e s', Ends env₂ B₂ n₁ s e s' → Ends env₂ B₂ n₂ s e s') (k : Nat) :
    ∀ a b, Like n₁ n₂ a b → NodeCov env₁ B₁ env₂ B₂ rr k a b := by
  have attr : ∀ a b, Like n₁ n₂ a b → a.isAttr = b.isAttr := by
    intro a b h
    cases h with
    | here => exact ha
    | _ => rfl
  induction k with
  | zero =>
    intro a b h
    exact ⟨attr a b h, fun g g' hg => le_nested B₂ hg b, fun s r he => by simp [nested, inlined, exec] at he⟩
  | succ k ih =>
    intro a b h
    refine nodeCov_like W R hX ih ⟨ha, fun g g' hg => le_nested B₂ hg n₂, fun s r he => ?_⟩ h
    obtain ⟨g, hg⟩ := (nodeCov_refl W R hX ih n₁).2.run s r he
    exact inlined_of_ends (hs s r.1 r.2 (ends_of_inlined hg))

theorem backed_all {n₁ n₂ : Node} (W : AlikeFns X env₁ B₁ env₂ B₂)
    (hX : ∀ a b, X a b → Like n₁ n₂ a b) (ha : n₁.isAttr = n₂.isAttr)
    (hs : ∀ s e s', Ends env₂ B₂ n₁ s e s' → Ends env₂ B₂ n₂ s e s') (f : Nat) :
    Backed env₁ env₂ B₂ (renderWith B₁ f) (Like n₁ n₂) := by
  induction f with
  | zero => intro n m _ s r he; simp [renderWith, exec] at he
  | succ f ih =>
    intro n m h s r he
    obtain ⟨g, hg⟩ := (nodeCov_all W (fun a b h => ih a b (hX a b h)) hX ha hs (f + 1) n m h).2.run s r he
    exact ends_of_inlined hg

theorem ends_like {n₁ n₂ : Node} (W : AlikeFns X env₁ B₁ env₂ B₂)
    (hX : ∀ a b, X a b → Like n₁ n₂ a b) (ha : n₁.isAttr = n₂.isAttr)
    (hs : ∀ s e s', Ends env₂ B₂ n₁ s e s' → Ends env₂ B₂ n₂ s e s') {a b : Node} (h : Like n₁ n₂ a b) {s s' : St}
    {e : Option Err} (he : Ends env₁ B₁ a s e s') : Ends env₂ B₂ b s e s' := by
  obtain ⟨f, he⟩ := he
  exact backed_all W hX ha hs f a b h s _ he

theorem parts_like {n₁ n₂ : Node} (W : AlikeFns X env₁ B₁ env₂ B₂)
    (hX : ∀ a b, X a b → Like n₁ n₂ a b) (ha : n₁.isAttr = n₂.isAttr) (hi : n₁.isAttr = false)
    (hs : ∀ s e s', Ends env₂ B₂ n₁ s e s' → Ends env₂ B₂ n₂ s e s') {ps qs : List Part} (h : AlikeParts X ps qs) {s s' : St}
    {e : Option Err} (he : PartsRun env₁ B₁ ps s e s') : PartsRun env₂ B₂ qs s e s' := by
  have wrote : ∀ {x : Bytes} {s s' : St} {e : Option Err}, Wrote env₁ x s e s' → Wrote env₂ x s e s' := by
    intro x s s' e h
    rw [Wrote, ← W.write]
    exact h
  have leaves : ∀ {a b : Node} {p : Place} {w : Bytes}, X a b → Spec.Leaves a p w → Spec.Leaves b p w := by
    intro a b p w h hw
    have e : a.isAttr = b.isAttr ∧ (a = b ∨ a.isAttr = false) := by
      cases hX a b h with
      | here => exact ⟨ha, .inr hi⟩
      | refl => exact ⟨rfl, .inl rfl⟩
      | _ => exact ⟨rfl, .inr rfl⟩
    rcases e with ⟨e, rfl | e'⟩
    · exact hw
    · unfold Spec.Leaves at hw ⊢
      subst hw
      cases p <;> try rfl
      cases a <;> cases b <;> first | rfl | cases e
  induction h generalizing s with
  | nil => cases he; exact .done
  | text _ ih =>
    cases he with
    | text h h' => exact .text (wrote h) (ih h')
    | textFails h => exact .textFails (wrote h)
  | call hx _ ih =>
    have l := hX _ _ hx
    cases he with
    | node h hl hw h' => exact .node (ends_like W hX ha hs l h) (leaves hx hl) (wrote hw) (ih h')
    | nodeFails h => exact .nodeFails (ends_like W hX ha hs l h)
    | restFails h hl hw => exact .restFails (ends_like W hX ha hs l h) (leaves hx hl) (wrote hw)

end

/-! Alike programs, the other way round, and the same program. -/

section
variable {X : Node → Node → Prop}

theorem alikeNodes_symm {as bs : List (Option Node)} (h : AlikeNodes X as bs) : AlikeNodes (fun a b => X b a) bs as := by
  induction h with
  | nil => exact .nil
  | none _ ih => exact .none ih
  | some h _ ih => exact .some h ih

theorem alikeFn_symm {α : Type} {A A' : α → α → Prop} (hA : ∀ a b, A a b → A' b a) {b b' : FnProg α} (h : AlikeFn X A b b') :
    AlikeFn (fun a b => X b a) A' b' b := by
  induction h with
  | ret h => exact .ret (hA _ _ h)
  | user _ ih => exact .user ih
  | write _ ih => exact .write ih
  | render h _ ih => exact .render h ih

theorem alikeYield_symm {b b' : YieldBody} (h : AlikeYield X b b') : AlikeYield (fun a b => X b a) b' b := by
  induction h with
  | done => exact .done
  | yield _ ih => exact .yield ih
  | user _ ih => exact .user ih
  | write _ ih => exact .write ih
  | render h _ ih => exact .render h ih

theorem alikeImp_symm {b b' : ImpProg} (h : AlikeImp X b b') : AlikeImp (fun a b => X b a) b' b := by
  induction h with
  | ret => exact .ret
  | call _ ih => exact .call ih
  | nodes hs _ ih => exact .nodes (alikeNodes_symm hs) ih
  | user _ ih => exact .user ih
  | write _ ih => exact .write ih
  | render h _ ih => exact .render h ih

theorem alikeFns_symm {env₁ env₂ : Env} {B₁ B₂ : Bodies} (W : AlikeFns X env₁ B₁ env₂ B₂) :
    AlikeFns (fun a b => X b a) env₂ B₂ env₁ B₁ where
  write := W.write.symm
  order := W.order.symm
  dyn f s := alikeFn_symm (fun _ _ => .symm) (W.dyn f s)
  cond f s := alikeFn_symm (fun _ _ => .symm) (W.cond f s)
  items f s := alikeFn_symm (fun _ _ => .symm) (W.items f s)
  collect f s := alikeFn_symm (fun _ _ => alikeNodes_symm) (W.collect f s)
  yields f s := alikeYield_symm (W.yields f s)
  imp f s := alikeImp_symm (W.imp f s)

variable (hX : ∀ n, X n n)
include hX

theorem alikeNodes_refl : (as : List (Option Node)) → AlikeNodes X as as
  | [] => .nil
  | none :: as => .none (alikeNodes_refl as)
  | some n :: as => .some (hX n) (alikeNodes_refl as)

theorem alikeFn_refl {α : Type} {A : α → α → Prop} (hA : ∀ a, A a a) : (b : FnProg α) → AlikeFn X A b b
  | .ret a => .ret (hA a)
  | .user _ k => .user fun s => alikeFn_refl hA (k s)
  | .write _ k => .write fun r s => alikeFn_refl hA (k r s)
  | .render n k => .render (hX n) fun e s => alikeFn_refl hA (k e s)

theorem alikeYield_refl : (b : YieldBody) → AlikeYield X b b
  | .done => .done
  | .yield _ k => .yield fun s => alikeYield_refl (k s)
  | .user _ k => .user fun s => alikeYield_refl (k s)
  | .write _ k => .write fun r s => alikeYield_refl (k r s)
  | .render n k => .render (hX n) fun e s => alikeYield_refl (k e s)

theorem alikeImp_refl : (b : ImpProg) → AlikeImp X b b
  | .ret _ => .ret
  | .call _ k => .call fun s => alikeImp_refl (k s)
  | .user _ k => .user fun s => alikeImp_refl (k s)
  | .write _ k => .write fun r s => alikeImp_refl (k r s)
  | .render n k => .render (hX n) fun e s => alikeImp_refl (k e s)

theorem alikeFns_refl (env : Env) (B : Bodies) : AlikeFns X env B env B where
  write := rfl
  order := rfl
  dyn _ _ := alikeFn_refl hX (fun _ => rfl) _
  cond _ _ := alikeFn_refl hX (fun _ => rfl) _
  items _ _ := alikeFn_refl hX (fun _ => rfl) _
  collect _ _ := alikeFn_refl hX (alikeNodes_refl hX) _
  yields _ _ := alikeYield_refl hX _
  imp _ _ := alikeImp_refl hX _

end

end Aitch.Stream
