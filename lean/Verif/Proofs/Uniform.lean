import Verif.Proofs.Only
import Verif.Spec.Concurrent
/-
Programs that do not notice changes of the shared memory within `R`: `Uni R I N p m` says that `m` performs only
effects satisfying `p`, and continues in the same way whichever of two related responses it gets, provided the memory
it reads satisfies `I`.  (The lemmas go along those of Proofs/Only.lean.)
-/
set_option linter.unusedSectionVars false

namespace Aitch
open Spec

/-- Two contexts that differ in the shared memory only, and there only within `R`. -/
def CtxSim (R : Shared → Shared → Prop) (c c' : Ctx) : Prop :=
  c.frame = c'.frame ∧ c.parents = c'.parents ∧
    R ⟨c.maps, c.dl, c.dlNext, c.world⟩ ⟨c'.maps, c'.dl, c'.dlNext, c'.world⟩

/-- Related responses. -/
def RespRel (R : Shared → Shared → Prop) : (a : Action) → a.Resp → a.Resp → Prop
  | .ctx, c, c' => CtxSim R c c'
  | .look, s, s' => Sim R s s'
  | .user _, s, s' => Sim R s s'
  | .write _, r, r' => r = r'
  | .setErr _, r, r' => r = r'
  | .dyn _, r, r' => r = r'
  | .cond _, r, r' => r = r'
  | .collect _, r, r' => r = r'
  | .items _, r, r' => r = r'
  | .yields _, r, r' => r = r'
  | .imp _, r, r' => r = r'
  | .order _, r, r' => r = r'
  | .enter _, r, r' => r = r'
  | .setItem _ _, r, r' => r = r'
  | .leave, r, r' => r = r'

/-- What may be assumed of a response: memory that is read satisfies `I`, functions of `IterateYield` and
`Imperative` are quiet, supplied nodes are in `N`. -/
def RespUni (R : Shared → Shared → Prop) (I : Ctx → Prop) (N : Node → Prop) : (a : Action) → a.Resp → Prop
  | .ctx, c => I c
  | .yields _, pr => QuietYield R pr
  | .collect _, (ns : List (Option Node)) => ∀ n, some n ∈ ns → N n
  | .imp _, pr => QuietImp R N pr
  | _, _ => True

/-- `m` performs only effects in `p` and goes on in the same way after related responses. -/
inductive Uni (R : Shared → Shared → Prop) (I : Ctx → Prop) (N : Node → Prop) (p : Action → Prop) {α : Type} : Prog α → Prop
  | pure (a : α) : Uni R I N p (.pure a)
  | stuck : Uni R I N p .stuck
  | step (a : Action) (k : a.Resp → Prog α) : p a → (∀ r r', RespRel R a r r' → k r = k r') →
      (∀ r, RespUni R I N a r → Uni R I N p (k r)) → Uni R I N p (.step a k)

section
variable {R : Shared → Shared → Prop} {I : Ctx → Prop} {N : Node → Prop} {p q : Action → Prop} {ρ : Nat → Prop}

theorem Uni.ret {α : Type} (a : α) : Uni R I N p (Pure.pure a : Prog α) := .pure a

theorem Uni.bind {α β : Type} {m : Prog α} {f : α → Prog β} (hm : Uni R I N p m) (hf : ∀ a, Uni R I N p (f a)) :
    Uni R I N p (m >>= f) := by
  change Uni R I N p (m.bind f)
  induction hm with
  | pure a => exact hf a
  | stuck => exact .stuck
  | step a k hp he _ ih => exact .step a _ hp (fun r r' h => by simp only [he r r' h]) ih

theorem Uni.when {b : Bool} {m : Prog Unit} (h : Uni R I N p m) : Uni R I N p (Prog.when b m) := by
  unfold Prog.when; split
  · exact h
  · exact .ret _

/-- Effects whose responses are related only if they are equal. -/
def Strict : Action → Prop
  | .ctx | .look | .user _ => False
  | _ => True

theorem Uni.act {α : Type} {a : Action} {f : a.Resp → α} (h : p a) (hs : Strict a) :
    Uni R I N p (.step a fun r => .pure (f r)) := by
  refine .step _ _ h (fun r r' hr => ?_) fun _ _ => .pure _
  cases a <;> first | exact hs.elim | (cases hr; rfl)

theorem Uni.bindCtx {β : Type} {f : Ctx → Prog β} (h : p .ctx) (he : ∀ c c', CtxSim R c c' → f c = f c')
    (hf : ∀ c, I c → Uni R I N p (f c)) : Uni R I N p (Do.ctx >>= f) := .step _ _ h he hf

theorem Uni.bindLook {β : Type} {f : St → Prog β} (h : p .look) (he : ∀ s s', Sim R s s' → f s = f s')
    (hf : ∀ s, Uni R I N p (f s)) : Uni R I N p (Do.look >>= f) := .step _ _ h he fun s _ => hf s

theorem Uni.bindUser {β : Type} {u : St → St} {f : St → Prog β} (h : p (.user u))
    (he : ∀ s s', Sim R s s' → f s = f s') (hf : ∀ s, Uni R I N p (f s)) : Uni R I N p (Do.user u >>= f) :=
  .step _ _ h he fun s _ => hf s

theorem Uni.bindYields {β : Type} {g : FnId} {f : YieldProg → Prog β} (h : p (.yields g))
    (hf : ∀ pr, QuietYield R pr → Uni R I N p (f pr)) : Uni R I N p (Do.yields g >>= f) :=
  .step _ _ h (fun r r' hr => by cases hr; rfl) hf

theorem Uni.bindCollect {β : Type} {g : FnId} {f : List (Option Node) → Prog β} (h : p (.collect g))
    (hf : ∀ ns, (∀ n, some n ∈ ns → N n) → Uni R I N p (f ns)) : Uni R I N p (Do.collect g >>= f) :=
  .step _ _ h (fun r r' hr => by cases hr; rfl) hf

theorem Uni.bindImp {β : Type} {g : FnId} {f : ImpProg → Prog β} (h : p (.imp g))
    (hf : ∀ pr, QuietImp R N pr → Uni R I N p (f pr)) : Uni R I N p (Do.imp g >>= f) :=
  .step _ _ h (fun r r' hr => by cases hr; rfl) hf

/-- The effects needed to render values and attributes are in `p`; user functions in `q` are. -/
structure UniLeaf (R : Shared → Shared → Prop) (I : Ctx → Prop) (p q : Action → Prop) (ρ : Nat → Prop) : Prop
    extends AllowsLeaf I p q ρ where
  maps : ∀ sh sh', R sh sh' → sh.maps = sh'.maps
  dl : ∀ sh sh', R sh sh' → ∀ r, ρ r → sh.dl r = sh'.dl r

/-- All effects of rendering are in `p`, as far as they are not calls of user functions outside `q`. -/
structure UniTree (R : Shared → Shared → Prop) (I : Ctx → Prop) (p q : Action → Prop) (ρ : Nat → Prop) : Prop
    extends UniLeaf R I p q ρ where
  order : ∀ ks, p (.order ks)
  enter : ∀ f, p (.enter f)
  setItem : ∀ i d, p (.setItem i d)
  leave : p .leave
  look : p .look
  user : ∀ u, QuietCall R (fun s => ((), u s)) → p (.user u)

section leaf
variable (A : UniLeaf R I p q ρ)
include A

theorem UniLeaf.lookup {c c' : Ctx} (h : CtxSim R c c') (k : Bytes) : c.lookup k = c'.lookup k := by
  have hm : c.maps = c'.maps := A.maps _ _ h.2.2
  unfold Ctx.lookup
  rw [h.1, hm]

theorem UniLeaf.values {c c' : Ctx} (h : CtxSim R c c') {a : Attr} (ha : AttrUses q ρ a) :
    a.values c.dl = a.values c'.dl := by
  cases a with
  | delim n d r => exact A.dl _ _ h.2.2 r ha
  | _ => rfl

theorem UniLeaf.valuesAll {c c' : Ctx} (h : CtxSim R c c') {as : List Attr} (ha : ∀ a ∈ as, AttrUses q ρ a) :
    as.flatMap (Attr.values c.dl) = as.flatMap (Attr.values c'.dl) := by
  induction as with
  | nil => rfl
  | cons a as ih =>
    rw [List.flatMap_cons, List.flatMap_cons, A.values h (ha a (.head _)), ih fun b hb => ha b (.tail _ hb)]

theorem Uni.ctxWrite (d : Bytes) : Uni R I N p (ctxWrite d) := by
  unfold Aitch.ctxWrite
  refine .bindCtx A.ctx (fun c c' h => by simp only [h.1]) fun c _ => ?_
  split
  · exact .bind (.act (A.write d) trivial) fun _ => .act (A.setErr _) trivial
  · exact .ret _

theorem Uni.retErr : Uni R I N p retErr := .bindCtx A.ctx (fun c c' h => by simp only [h.1]) fun _ _ => .ret _

theorem Uni.valueWrite (d : Bytes) : Uni R I N p (valueWrite d) :=
  .bind (.act (A.write d) trivial) fun _ => .bind (.act (A.setErr _) trivial) fun _ => .ret _

theorem Uni.runDyn (d : Dyn) (h : ∀ f, d = .user f → q (.dyn f)) : Uni R I N p (runDyn d) := by
  cases d with
  | user f => exact .act (A.fns _ (h f rfl) nofun) trivial
  | key k => refine .bindCtx A.ctx (fun c c' h => by simp only [A.lookup h]) fun c _ => ?_; split <;> exact .ret _
  | cargo => exact .bindCtx A.ctx (fun c c' h => by simp only [h.1]) fun _ _ => .ret _

mutual
theorem Uni.renderValue : (v : Value) → ValueUses q v → Uni R I N p (renderValue v)
  | .mk _ (some (.user f)) _, h =>
    .bind (.runDyn A (.user f) fun g hg => by cases hg; exact h) fun _ => .valueWrite A _
  | .mk _ (some (.key k)) _, _ => .bind (.runDyn A (.key k) fun g hg => by cases hg) fun _ => .valueWrite A _
  | .mk _ (some .cargo) _, _ => .bind (.runDyn A .cargo fun g hg => by cases hg) fun _ => .valueWrite A _
  | .mk v none [], _ => .valueWrite A v
  | .mk _ none (c :: cs), h =>
    .bind (Uni.renderValue c h.1) fun _ => .bind (Uni.renderConcats cs h.2 _) fun _ => .ret _
theorem Uni.renderConcats : (vs : List Value) → ValuesUse q vs → (l : Nat) → Uni R I N p (renderConcats vs l)
  | [], _, _ => .ret _
  | c :: cs, h, _ => .bind (Uni.renderValue c h.1) fun _ => Uni.renderConcats cs h.2 _
end

theorem Uni.renderValues : (vs : List Value) → ValuesUse q vs → Uni R I N p (renderValues vs)
  | [], _ => .ret _
  | v :: vs, h => .bind (.renderValue A v h.1) fun _ => Uni.renderValues vs h.2

theorem Uni.renderDelimValues (d : Bytes) : (vs : List Value) → ValuesUse q vs → (b : Bool) →
    Uni R I N p (renderDelimValues d vs b)
  | [], _, _ => .ret _
  | v :: vs, h, _ => .bind (.when (.ctxWrite A _)) fun _ => .bind (.renderValue A v h.1) fun _ =>
      Uni.renderDelimValues d vs h.2 _

theorem Uni.renderDelim (n d : Bytes) (vs : List Value) (h : ValuesUse q vs) : Uni R I N p (renderDelim n d vs) :=
  .bind (.ctxWrite A _) fun _ => .bind (.ctxWrite A _) fun _ => .bind (.ctxWrite A _) fun _ =>
  .bind (.renderDelimValues A _ _ h _) fun _ => .ctxWrite A _

theorem Uni.renderAttr (a : Attr) (h : AttrUses q ρ a) : Uni R I N p (renderAttr a) := by
  cases a with
  | plain n vs =>
    exact .bind (.ctxWrite A _) fun _ => .bind (.ctxWrite A _) fun _ => .bind (.ctxWrite A _) fun _ =>
      .bind (.renderValues A _ h) fun _ => .ctxWrite A _
  | bool n => exact .bind (.ctxWrite A _) fun _ => .ctxWrite A _
  | delim n d r => exact .bindCtx A.ctx (fun c c' hs => congrArg _ (A.dl _ _ hs.2.2 r h)) fun c hc => .renderDelim A _ _ _ (A.heap c hc r h)

theorem Uni.renderChosen (a : Attr) (h : AttrUses q ρ a) (l : List Attr) (b : Attr) (hl : ∀ a ∈ l, AttrUses q ρ a)
    (hb : AttrUses q ρ b) :
    Uni R I N p (renderChosen a l b) := by
  cases a with
  | delim n d r =>
    refine .bindCtx A.ctx (fun c c' hs => ?_) fun c hc => .renderDelim A _ _ _
      ((valuesUse_append).2 ⟨A.heap c hc r h, attrsUse_values A.toAllowsLeaf hc l hl⟩)
    have hd : c.dl r = c'.dl r := A.dl _ _ hs.2.2 r h
    rw [hd, A.valuesAll hs hl]
  | plain n vs => exact .renderAttr A _ hb
  | bool n => exact .renderAttr A _ hb

theorem Uni.renderAttrs : (as : List Attr) → (∀ a ∈ as, AttrUses q ρ a) → Uni R I N p (renderAttrs as)
  | [], _ => .ret _
  | a :: as, h => .bind (.renderAttr A a (h a (by simp))) fun _ => Uni.renderAttrs as fun b hb => h b (by simp [hb])

theorem Uni.runCond (k : Cond) (h : CondUses q k) : Uni R I N p (runCond k) := by
  cases k with
  | user f => exact .act (A.fns _ h nofun) trivial
  | has k => refine .bindCtx A.ctx (fun c c' h => by simp only [A.lookup h]) fun c _ => ?_; split <;> exact .ret _
  | hasNot k => refine .bindCtx A.ctx (fun c c' h => by simp only [A.lookup h]) fun c _ => ?_; split <;> exact .ret _

theorem Uni.evalConds : (ks : List Cond) → (∀ k ∈ ks, CondUses q k) → Uni R I N p (evalConds ks)
  | [], _ => .ret _
  | k :: ks, h => by
    refine .bind (.runCond A k (h k (by simp))) fun b => ?_
    split
    · exact Uni.evalConds ks fun k hk => h k (by simp [hk])
    · exact .ret _

theorem Uni.bindEvaluate {β : Type} {f : List (Bytes × List Attr) → Prog β}
    (hf : ∀ ev, EvalUses q ρ ev → Uni R I N p (f ev)) :
    (cas : List CondAttr) → (∀ ca ∈ cas, AttrUses q ρ ca.att ∧ ∀ k ∈ ca.conditions, CondUses q k) →
    (r : List (Bytes × List Attr)) → EvalUses q ρ r → Uni R I N p (evaluate cas r >>= f)
  | [], _, r, hr => hf r hr
  | ca :: cas, h, r, hr => by
    have : (evaluate (ca :: cas) r >>= f) =
        (Aitch.evalConds ca.conditions >>= fun b =>
          evaluate cas (if b then addEvaluated ca.att.name ca.att r else r) >>= f) := by
      change ((Aitch.evalConds ca.conditions).bind _).bind f = (Aitch.evalConds ca.conditions).bind _
      generalize Aitch.evalConds ca.conditions = m
      induction m with
      | pure a => rfl
      | step a k ih => simp only [Prog.bind]; congr 1; funext r; exact ih r
      | stuck => rfl
    rw [this]
    refine .bind (.evalConds A _ (h ca (by simp)).2) fun b => ?_
    refine Uni.bindEvaluate hf cas (fun ca hca => h ca (by simp [hca])) _ ?_
    split
    · exact evalUses_add hr (h ca (by simp)).1
    · exact hr

theorem Uni.renderStatic (h : ElemHead) (hh : HeadUses q ρ h) (ev : List (Bytes × List Attr)) (he : EvalUses q ρ ev)
    (n : Bytes) : Uni R I N p (renderStatic h ev n) := by
  unfold Aitch.renderStatic
  split
  · exact .ret _
  · split
    · exact .ret _
    · rename_i att hatt
      have hm := hh.1 att (List.mem_of_getElem? hatt)
      split
      · rename_i as hl
        have hl := evalUses_lookup he hl
        refine .renderChosen A _ hm _ _ hl ?_
        cases hg : as.getLast? with
        | none => exact hm
        | some b => exact hl b (List.mem_of_getLast? hg)
      · exact .renderAttr A _ hm

theorem Uni.renderStatics (h : ElemHead) (hh : HeadUses q ρ h) (ev : List (Bytes × List Attr)) (he : EvalUses q ρ ev) :
    (ns : List Bytes) → Uni R I N p (renderStatics h ev ns)
  | [] => .ret _
  | n :: ns => .bind (.renderStatic A h hh ev he n) fun _ => Uni.renderStatics h hh ev he ns

theorem Uni.renderExtra (h : ElemHead) (ev : List (Bytes × List Attr)) (he : EvalUses q ρ ev) (n : Bytes) :
    Uni R I N p (renderExtra h ev n) := by
  unfold Aitch.renderExtra
  split
  · rename_i first others h1 h2
    have hl := evalUses_lookup he h2
    refine .renderChosen A _ (hl first (by simp)) _ _ (fun a ha => hl a (by simp [ha])) ?_
    rw [List.getLast?_eq_some_getLast (by simp)]
    exact hl _ (List.getLast_mem _)
  · exact .ret _

theorem Uni.renderExtras (h : ElemHead) (ev : List (Bytes × List Attr)) (he : EvalUses q ρ ev) :
    (ns : List Bytes) → Uni R I N p (renderExtras h ev ns)
  | [] => .ret _
  | n :: ns => .bind (.renderExtra A h ev he n) fun _ => Uni.renderExtras h ev he ns

theorem Uni.renderEndTag (n : Bytes) : Uni R I N p (renderEndTag n) :=
  .bind (.ctxWrite A _) fun _ => .bind (.ctxWrite A _) fun _ => .ctxWrite A _

/-- The values collected by `Start` use functions in `q`. -/
def EntriesUse (q : Action → Prop) (es : List (Bytes × Option (List Value))) : Prop :=
  ∀ e ∈ es, ∀ vs, e.2 = some vs → ValuesUse q vs

omit A in
theorem startDelim_uses (d : Bytes) : (vs : List Value) → ValuesUse q vs → (avs : Option (List Value)) →
    (∀ l, avs = some l → ValuesUse q l) → ∀ l, startDelim d vs avs = some l → ValuesUse q l
  | [], _, _, ha => ha
  | v :: vs, hv, avs, ha => by
    refine startDelim_uses d vs hv.2 _ fun l hl => ?_
    cases hl
    have h0 : ValuesUse q (avs.getD []) := by
      cases avs with
      | none => trivial
      | some l => exact ha l rfl
    refine valuesUse_append.2 ⟨?_, hv.1, trivial⟩
    split
    · exact valuesUse_append.2 ⟨h0, trivial, trivial⟩
    · exact h0

theorem entriesUse_add {c : Ctx} (hc : I c) {a : Attr} (ha : AttrUses q ρ a) :
    (es : List (Bytes × Option (List Value))) → EntriesUse q es → EntriesUse q (startAdd c.dl a es)
  | [], _ => by
    cases a with
    | plain n vs => intro e he; simp [startAdd] at he; subst he; intro vs hvs; cases hvs; exact ha
    | bool n => intro e he; simp [startAdd] at he; subst he; intro vs hvs; cases hvs
    | delim n d r =>
      intro e he; simp [startAdd] at he; subst he
      exact startDelim_uses d _ (A.heap c hc r ha) _ fun l hl => by cases hl; trivial
  | (n, avs) :: es, h => by
    have h1 : EntriesUse q es := fun e he => h e (.tail _ he)
    have h2 := h (n, avs) (.head _)
    unfold startAdd
    split
    · cases a with
      | plain n' vs =>
        intro e he; rcases List.mem_cons.1 he with rfl | he
        · intro vs hvs; cases hvs; exact ha
        · exact h1 e he
      | bool n' =>
        intro e he; rcases List.mem_cons.1 he with rfl | he
        · intro vs hvs; cases hvs
        · exact h1 e he
      | delim n' d r =>
        intro e he; rcases List.mem_cons.1 he with rfl | he
        · exact startDelim_uses d _ (A.heap c hc r ha) _ h2
        · exact h1 e he
    · intro e he; rcases List.mem_cons.1 he with rfl | he
      · exact h2
      · exact entriesUse_add hc ha es h1 e he

theorem entriesUse_collect {c : Ctx} (hc : I c) : (attrs : List (Option Node)) →
    (∀ a, some (.attr a) ∈ attrs → AttrUses q ρ a) → (es : List (Bytes × Option (List Value))) → EntriesUse q es →
    EntriesUse q (startCollect c.dl attrs es)
  | [], _, es, h => h
  | x :: attrs, ha, es, h => by
    have ih := entriesUse_collect hc attrs fun a h => ha a (.tail _ h)
    cases x with
    | none => exact ih es h
    | some n =>
      cases n with
      | attr a => exact ih _ (entriesUse_add A hc (ha a (.head _)) es h)
      | _ => exact ih es h

theorem startAdd_same {c c' : Ctx} (h : CtxSim R c c') {a : Attr} (ha : AttrUses q ρ a) :
    (es : List (Bytes × Option (List Value))) → startAdd c.dl a es = startAdd c'.dl a es
  | [] => by
    cases a with
    | delim n d r => simp only [startAdd]; rw [show c.dl r = c'.dl r from A.dl _ _ h.2.2 r ha]
    | _ => rfl
  | (n, avs) :: es => by
    unfold startAdd
    rw [startAdd_same h ha es]
    cases a with
    | delim n d r => simp only; rw [show c.dl r = c'.dl r from A.dl _ _ h.2.2 r ha]
    | _ => rfl

theorem startCollect_same {c c' : Ctx} (h : CtxSim R c c') : (attrs : List (Option Node)) →
    (∀ a, some (.attr a) ∈ attrs → AttrUses q ρ a) → (es : List (Bytes × Option (List Value))) →
    startCollect c.dl attrs es = startCollect c'.dl attrs es
  | [], _, es => rfl
  | x :: attrs, ha, es => by
    have ih := startCollect_same h attrs fun a h => ha a (.tail _ h)
    cases x with
    | none => exact ih es
    | some n =>
      cases n with
      | attr a => simp only [startCollect]; rw [startAdd_same A h (ha a (.head _)) es]; exact ih _
      | _ => exact ih es

theorem Uni.startWrite : (es : List (Bytes × Option (List Value))) → EntriesUse q es → Uni R I N p (startWrite es)
  | [], _ => .ret _
  | (n, vs) :: es, h => by
    refine .bind (.ctxWrite A _) fun _ => .bind (.ctxWrite A _) fun _ => .bind ?_ fun _ =>
      Uni.startWrite es fun e he => h e (.tail _ he)
    cases vs with
    | none => exact .ret _
    | some vs => exact .bind (.ctxWrite A _) fun _ => .bind (.renderValues A vs (h _ (.head _) vs rfl)) fun _ => .ctxWrite A _

theorem Uni.startTag (n : Bytes) (attrs : List (Option Node)) (h : ∀ a, some (.attr a) ∈ attrs → AttrUses q ρ a) :
    Uni R I N p (startTag n attrs) :=
  .bind (.ctxWrite A _) fun _ => .bind (.ctxWrite A _) fun _ =>
    .bindCtx A.ctx (fun c c' hs => by rw [startCollect_same A hs attrs h]) fun c hc =>
    .bind (.startWrite A _ (entriesUse_collect A hc attrs h [] (by intro e he; cases he))) fun _ => .ctxWrite A _

theorem Uni.endAll : (ns : List Bytes) → Uni R I N p (endAll ns)
  | [] => .ret _
  | n :: ns => .bind (.renderEndTag A n) fun _ => Uni.endAll ns

end leaf

theorem nodesCall_iff (ns : List Node) : NodesCall q ρ ns ↔ ∀ n ∈ ns, NodeCalls q ρ n := by
  induction ns with
  | nil => simp [NodesCall]
  | cons n ns ih => simp [NodesCall, ih]

section tree
variable (A : UniTree R I p q ρ)
include A

theorem Uni.renderAttributes (h : ElemHead) (hh : HeadUses q ρ h) : Uni R I N p (renderAttributes h) := by
  unfold Aitch.renderAttributes
  split
  · refine .bindEvaluate A.toUniLeaf (fun ev he => ?_) _ hh.2 _ (by simp [EvalUses])
    split
    · exact .bind (.act (A.order _) trivial) fun _ => .bind (.renderStatics A.toUniLeaf _ hh _ he _) fun _ =>
        .bind (.act (A.order _) trivial) fun _ => .renderExtras A.toUniLeaf _ _ he _
    · exact .renderAttrs A.toUniLeaf _ hh.1
  · exact .renderAttrs A.toUniLeaf _ hh.1

theorem Uni.renderStartTag (h : ElemHead) (hh : HeadUses q ρ h) : Uni R I N p (renderStartTag h) :=
  .bind (.ctxWrite A.toUniLeaf _) fun _ => .bind (.ctxWrite A.toUniLeaf _) fun _ =>
  .bind (.renderAttributes A h hh) fun _ => .ctxWrite A.toUniLeaf _

section
variable {rec : Render}

theorem Uni.contentLoop : (ns : List Node) → (∀ n ∈ ns, Uni R I N p (rec n)) → Uni R I N p (contentLoop rec ns)
  | [], _ => .ret _
  | n :: ns, h => .bind (h n (by simp)) fun _ => .bind (.act (A.setErr _) trivial) fun _ =>
      Uni.contentLoop ns fun m hm => h m (by simp [hm])

theorem Uni.conditionalLoop : (ns : List Node) → (∀ n ∈ ns, Uni R I N p (rec n)) →
    Uni R I N p (conditionalLoop rec ns)
  | [], _ => .ret _
  | n :: ns, h => by
    refine .bind (h n (by simp)) fun e => .bind (.act (A.setErr _) trivial) fun _ => ?_
    split
    · exact .ret _
    · exact Uni.conditionalLoop ns fun m hm => h m (by simp [hm])

theorem Uni.collectionLoop : (ns : List Node) → (∀ n ∈ ns, Uni R I N p (rec n)) → Uni R I N p (collectionLoop rec ns)
  | [], _ => .ret _
  | n :: ns, h => by
    have ih := Uni.collectionLoop ns fun m hm => h m (by simp [hm])
    unfold Aitch.collectionLoop
    split
    · exact ih
    · refine .bind (h n (by simp)) fun e => .bind (.act (A.setErr _) trivial) fun _ => ?_
      split
      · exact .ret _
      · exact ih

theorem Uni.documentLoop : (ns : List Node) → (∀ n ∈ ns, Uni R I N p (rec n)) → Uni R I N p (documentLoop rec ns)
  | [], _ => .ret _
  | n :: ns, h => .bind (h n (by simp)) fun _ => Uni.documentLoop ns fun m hm => h m (by simp [hm])

theorem Uni.ignoreLoop : (ns : List (Option Node)) → (∀ n, some n ∈ ns → Uni R I N p (rec n)) →
    Uni R I N p (ignoreLoop rec ns)
  | [], _ => .ret _
  | none :: ns, h => Uni.ignoreLoop ns fun m hm => h m (by simp [hm])
  | some n :: ns, h => by
    have ih := Uni.ignoreLoop ns fun m hm => h m (by simp [hm])
    unfold Aitch.ignoreLoop
    split
    · exact ih
    · exact .bind (h n (by simp)) fun _ => ih

theorem Uni.runOp (op : ImpOp) (ho : OpIn N op) (hN : ∀ a, N (.attr a) → AttrUses q ρ a)
    (h : ∀ n, N n → Uni R I N p (rec n)) (stack : List Bytes) : Uni R I N p (runOp rec op stack) := by
  have L := A.toUniLeaf
  cases op with
  | writeString d => exact .bind (.ctxWrite L _) fun _ => .ret _
  | writeRaw d => exact .bind (.ctxWrite L _) fun _ => .ret _
  | writeNodes ns => exact .bind (.ignoreLoop A ns fun n hn => h n (ho n hn)) fun _ => .ret _
  | start n v attrs => exact .bind (.startTag L n attrs fun a ha => hN a (ho.1 _ ha)) fun _ => .ret _
  | «end» =>
    cases stack with
    | nil => exact .ret _
    | cons n ns => exact .bind (.renderEndTag L _) fun _ => .ret _
  | endAll => exact .bind (.endAll L _) fun _ => .ret _

theorem Uni.runImp (hN : ∀ a, N (.attr a) → AttrUses q ρ a) (h : ∀ n, N n → Uni R I N p (rec n)) (pr : ImpProg)
    (hpr : QuietImp R N pr) (stack : List Bytes) : Uni R I N p (runImp rec pr stack) := by
  induction hpr generalizing stack with
  | ret => exact .ret _
  | user hu hk _ ih =>
    exact .bindUser (A.user _ hu) (fun s s' hs => by simp only [hk s s' hs]) fun s => ih s stack
  | call ho hk _ ih =>
    exact .bind (.runOp A _ ho hN h stack) fun stack =>
      .bindLook A.look (fun s s' hs => by simp only [hk s s' hs]) fun s => ih s stack
  | render hn hk _ ih =>
    exact .bind (h _ hn) fun e => .bindLook A.look (fun s s' hs => by simp only [hk e s s' hs]) fun s => ih e s stack
  | write hk _ ih =>
    exact .bind (.act (A.write _) trivial) fun r =>
      .bindLook A.look (fun s s' hs => by simp only [hk r s s' hs]) fun s => ih r s stack

theorem Uni.iterNodes : (ns : List Node) → (∀ n ∈ ns, Uni R I N p (rec n)) → Uni R I N p (iterNodes rec ns)
  | [], _ => .ret _
  | n :: ns, h => by
    refine .bind (h n (by simp)) fun e => ?_
    split
    · exact .ret _
    · exact Uni.iterNodes ns fun m hm => h m (by simp [hm])

theorem Uni.iterItems (ns : List Node) (h : ∀ n ∈ ns, Uni R I N p (rec n)) (d : Option MapId) :
    (its : List Any) → Uni R I N p (iterItems rec ns d its)
  | [] => .ret _
  | it :: its => by
    refine .bind (.act (A.setItem _ _) trivial) fun _ => .bind (.iterNodes A ns h) fun e => ?_
    split
    · exact .ret _
    · exact Uni.iterItems ns h d its

theorem Uni.runItems (fn : ItemSrc) (h : SrcUses q fn) : Uni R I N p (runItems fn) := by
  cases fn with
  | user f => exact .act (A.fns _ h nofun) trivial
  | key k => exact .bindCtx A.ctx (fun c c' h => by simp only [keyItems, A.lookup h]) fun _ _ => .ret _

theorem Uni.renderIterator (ns : List Node) (h : ∀ n ∈ ns, Uni R I N p (rec n)) (fn : ItemSrc) (hf : SrcUses q fn) :
    Uni R I N p (renderIterator rec ns fn) := by
  unfold Aitch.renderIterator
  refine .bindCtx A.ctx (fun c c' h => by simp only [h.1]) fun c _ => ?_
  split
  · exact .ret _
  · refine .bind (.runItems A fn hf) fun its => ?_
    split
    · exact .ret _
    · refine .bindCtx A.ctx (fun c c' h => by simp only [h.1]) fun c _ => .bind (.act (A.enter _) trivial) fun _ => .bind (.iterItems A ns h _ _) fun e =>
        .bind (.act A.leave trivial) fun _ => ?_
      split
      · exact .bind (.act (A.setErr _) trivial) fun _ => .ret _
      · exact .ret _

theorem Uni.setErrIf (e : Option Err) : Uni R I N p (setErrIf e) := by
  cases e with
  | none => exact .ret _
  | some e => exact .act (A.setErr _) trivial

theorem Uni.runYield (ns : List Node) (h : ∀ n ∈ ns, Uni R I N p (rec n)) (pr : YieldProg) (hpr : QuietYield R pr)
    (child : Frame) : Uni R I N p (runYield rec ns pr child) := by
  induction hpr generalizing child with
  | done => exact .ret _
  | user hu hk _ ih =>
    exact .bindUser (A.user _ hu) (fun s s' hs => by simp only [hk s s' hs]) fun s => ih s child
  | write hk _ ih =>
    exact .bind (.act (A.write _) trivial) fun r =>
      .bindLook A.look (fun s s' hs => by simp only [hk r s s' hs]) fun s => ih r s child
  | yield hk _ ih =>
    exact .bind (.act (A.enter _) trivial) fun _ => .bind (.act (A.setItem _ _) trivial) fun _ =>
      .bind (.iterNodes A ns h) fun e => .bind (.act A.leave trivial) fun child => .bind (.setErrIf A _) fun _ =>
      .bindLook (A.look) (fun s s' hs => by simp only [hk s s' hs]) fun s => ih s child

theorem Uni.renderYield (ns : List Node) (h : ∀ n ∈ ns, Uni R I N p (rec n)) (f : FnId) (hq : p (.yields f)) :
    Uni R I N p (renderYield rec ns f) := by
  unfold Aitch.renderYield
  refine .bindCtx A.ctx (fun c c' h => by simp only [h.1]) fun c _ => ?_
  split
  · exact .ret _
  · exact .bindYields hq fun pr hpr =>
      .bind (.runYield A ns h pr hpr _) fun _ => .retErr A.toUniLeaf

end

/-- A node whose user functions are in `q` renders with effects in `p` only, if its parts do. -/
theorem Uni.renderStep {rec : Render} (hN : ∀ n, N n ↔ NodeCalls q ρ n) (ih : ∀ n, NodeCalls q ρ n → Uni R I N p (rec n)) (n : Node)
    (hf : NodeCalls q ρ n) (hy : ∀ ns f, n = .yieldIterator ns f → p (.yields f)) : Uni R I N p (renderStep rec n) := by
  have L := A.toUniLeaf
  have sub : ∀ ns, NodesCall q ρ ns → ∀ m ∈ ns, Uni R I N p (rec m) :=
    fun ns h1 m hm => ih m ((nodesCall_iff ns).1 h1 m hm)
  cases n with
  | element h cs =>
    exact .bind (.renderStartTag A h hf.1) fun _ => .bind (.contentLoop A cs (sub cs hf.2)) fun _ =>
      .bind (.renderEndTag L _) fun _ => .retErr L
  | voidElement h => exact .bind (.renderStartTag A h hf) fun _ => .retErr L
  | attr a => exact .bind (.renderAttr L a hf) fun _ => .retErr L
  | text vs => exact .bind (.renderValues L vs hf) fun _ => .retErr L
  | comment vs =>
    exact .bind (.ctxWrite L _) fun _ => .bind (.renderValues L vs hf) fun _ =>
      .bind (.ctxWrite L _) fun _ => .retErr L
  | fragment vs => exact .bind (.renderValues L vs hf) fun _ => .retErr L
  | pi n vs =>
    exact .bind (.ctxWrite L _) fun _ => .bind (.ctxWrite L _) fun _ => .bind (.ctxWrite L _) fun _ =>
      .bind (.renderValues L vs hf) fun _ => .bind (.ctxWrite L _) fun _ => .retErr L
  | collection ns => exact .bind (.collectionLoop A ns (sub ns hf)) fun _ => .retErr L
  | conditional ns as fn =>
    exact .bind (.runCond L fn hf.1) fun _ => .bind (.when (.conditionalLoop A ns (sub ns hf.2))) fun _ =>
      .retErr L
  | collector f =>
    exact .bindCollect (A.fns _ hf nofun) fun ns hns => .bind (.ignoreLoop A ns fun n hn => ih n ((hN n).1 (hns n hn))) fun _ =>
      .retErr L
  | imperative f =>
    cases f with
    | none => exact .ret _
    | some f =>
      exact .bindImp (A.fns _ hf nofun) fun pr hpr => .runImp A (fun a ha => (hN _).1 ha) (fun n hn => ih n ((hN n).1 hn)) pr hpr []
  | iterator ns fn => exact .renderIterator A ns (sub ns hf.2) fn hf.1
  | yieldIterator ns f => exact .renderYield A ns (sub ns hf.2) f (hy ns f rfl)
  | document pr cs =>
    cases pr with
    | none => exact .bind (.documentLoop A _ (sub cs hf)) fun _ => .retErr L
    | some pr => exact .bind (.documentLoop A _ (sub (pr :: cs) hf)) fun _ => .retErr L

/-- A node whose user functions are in `q` renders with effects in `p` only. -/
theorem Uni.renderProg (hy : ∀ f, q (.yields f) → p (.yields f)) (hN : ∀ n, N n ↔ NodeCalls q ρ n) (fuel : Nat) :
    ∀ n, NodeCalls q ρ n → Uni R I N p (renderProg fuel n) := by
  induction fuel with
  | zero => intro n _; exact .stuck
  | succ fuel ih =>
    intro n hf
    exact .renderStep A hN ih n hf fun ns f e => hy f (by subst e; exact hf.1)

end tree
end

end Aitch
