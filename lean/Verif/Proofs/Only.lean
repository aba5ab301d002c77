import Verif.Model.Render
import Verif.Spec.Finite
/-
What effects a rendering program can have: `Only I p m` says that `m` ends and performs only effects satisfying
`p`, provided the memory it reads satisfies `I`.
-/
set_option linter.unusedSectionVars false

namespace Aitch
open Spec

/-- What may be assumed of a response: memory that is read satisfies `I`. -/
def RespOK (I : Ctx → Prop) : (a : Action) → a.Resp → Prop
  | .ctx, c => I c
  | _, _ => True

/-- `m` ends and performs only effects in `p`. -/
inductive Only (I : Ctx → Prop) (p : Action → Prop) {α : Type} : Prog α → Prop
  | pure (a : α) : Only I p (.pure a)
  | step (a : Action) (k : a.Resp → Prog α) : p a → (∀ r, RespOK I a r → Only I p (k r)) → Only I p (.step a k)

section
variable {I : Ctx → Prop} {p q : Action → Prop} {ρ : Nat → Prop}

theorem Only.ret {α : Type} (a : α) : Only I p (Pure.pure a : Prog α) := .pure a

theorem Only.bind {α β : Type} {m : Prog α} {f : α → Prog β} (hm : Only I p m) (hf : ∀ a, Only I p (f a)) :
    Only I p (m >>= f) := by
  change Only I p (m.bind f)
  induction hm with
  | pure a => exact hf a
  | step a k hp _ ih => exact .step a _ hp ih

/-- Effects in `p` keep `I`. -/
def Keeps (env : Env) (I : Ctx → Prop) (p : Action → Prop) : Prop :=
  ∀ a s, p a → I s.toCtx → I (a.run env s).2.toCtx

theorem respOK (env : Env) (a : Action) (s : St) (h : I s.toCtx) : RespOK I a (a.run env s).1 := by
  cases a <;> simp [RespOK, Action.run, h]

theorem Only.exec {α : Type} {env : Env} {m : Prog α} (h : Only I p m) (K : Keeps env I p) (s : St)
    (hs : I s.toCtx) : ∃ r s', exec env m s = some (r, s') ∧ I s'.toCtx := by
  induction h generalizing s with
  | pure a => exact ⟨a, s, rfl, hs⟩
  | step a k hp _ ih => exact ih _ (respOK env a s hs) _ (K a s hp hs)

theorem Only.mono {I' : Ctx → Prop} {p' : Action → Prop} {α : Type} {m : Prog α} (h : Only I p m)
    (hI : ∀ c, I' c → I c) (hp : ∀ a, p a → p' a) : Only I' p' m := by
  induction h with
  | pure a => exact .pure a
  | step a k hpa _ ih =>
    refine .step a k (hp a hpa) fun r hr => ih r ?_
    cases a <;> first | trivial | exact hI _ hr

theorem Only.when {b : Bool} {m : Prog Unit} (h : Only I p m) : Only I p (Prog.when b m) := by
  unfold Prog.when; split
  · exact h
  · exact .ret _

/-- The effects needed to render values and attributes are in `p`; user functions in `q` are. -/
structure AllowsLeaf (I : Ctx → Prop) (p q : Action → Prop) (ρ : Nat → Prop) : Prop where
  ctx : p .ctx
  write : ∀ d, p (.write d)
  setErr : ∀ e, p (.setErr e)
  heap : ∀ c, I c → HeapUses q ρ c.dl
  fns : ∀ a, q a → (∀ f, a ≠ .yields f) → p a

/-- All effects of rendering are in `p`, as far as they are not calls of user functions outside `q`. -/
structure Allows (I : Ctx → Prop) (p q : Action → Prop) (ρ : Nat → Prop) : Prop extends AllowsLeaf I p q ρ where
  yields : ∀ f, q (.yields f) → p (.yields f)
  order : ∀ ks, p (.order ks)
  enter : ∀ f, p (.enter f)
  setItem : ∀ i d, p (.setItem i d)
  leave : p .leave
  look : ∀ f, q (.yields f) → p .look
  user : ∀ f u, q (.yields f) → p (.user u)

theorem Only.act {α : Type} {a : Action} {f : a.Resp → α} (h : p a) : Only I p (.step a fun r => .pure (f r)) :=
  .step _ _ h fun _ _ => .pure _

theorem Only.bindCtx {β : Type} {f : Ctx → Prog β} (h : p .ctx) (hf : ∀ c, I c → Only I p (f c)) :
    Only I p (Do.ctx >>= f) := .step _ _ h hf

section leaf
variable (A : AllowsLeaf I p q ρ)
include A

theorem Only.ctxWrite (d : Bytes) : Only I p (ctxWrite d) := by
  unfold Aitch.ctxWrite
  refine .bindCtx A.ctx fun c _ => ?_
  split
  · exact .bind (.act (A.write d)) fun _ => .act (A.setErr _)
  · exact .ret _

theorem Only.retErr : Only I p retErr := .bindCtx A.ctx fun _ _ => .ret _

theorem Only.valueWrite (d : Bytes) : Only I p (valueWrite d) :=
  .bind (.act (A.write d)) fun _ => .bind (.act (A.setErr _)) fun _ => .ret _

theorem Only.runDyn (d : Dyn) (h : ∀ f, d = .user f → q (.dyn f)) : Only I p (runDyn d) := by
  cases d with
  | user f => exact .act (A.fns _ (h f rfl) nofun)
  | key k => refine .bindCtx A.ctx fun c _ => ?_; split <;> exact .ret _
  | cargo => exact .bindCtx A.ctx fun _ _ => .ret _

mutual
theorem Only.renderValue : (v : Value) → ValueUses q v → Only I p (renderValue v)
  | .mk _ (some (.user f)) _, h =>
    .bind (.runDyn A (.user f) fun g hg => by cases hg; exact h) fun _ => .valueWrite A _
  | .mk _ (some (.key k)) _, _ => .bind (.runDyn A (.key k) fun g hg => by cases hg) fun _ => .valueWrite A _
  | .mk _ (some .cargo) _, _ => .bind (.runDyn A .cargo fun g hg => by cases hg) fun _ => .valueWrite A _
  | .mk v none [], _ => .valueWrite A v
  | .mk _ none (c :: cs), h =>
    .bind (Only.renderValue c h.1) fun _ => .bind (Only.renderConcats cs h.2 _) fun _ => .ret _
theorem Only.renderConcats : (vs : List Value) → ValuesUse q vs → (l : Nat) → Only I p (renderConcats vs l)
  | [], _, _ => .ret _
  | c :: cs, h, _ => .bind (Only.renderValue c h.1) fun _ => Only.renderConcats cs h.2 _
end

theorem Only.renderValues : (vs : List Value) → ValuesUse q vs → Only I p (renderValues vs)
  | [], _ => .ret _
  | v :: vs, h => .bind (.renderValue A v h.1) fun _ => Only.renderValues vs h.2

theorem Only.renderDelimValues (d : Bytes) : (vs : List Value) → ValuesUse q vs → (b : Bool) →
    Only I p (renderDelimValues d vs b)
  | [], _, _ => .ret _
  | v :: vs, h, _ => .bind (.when (.ctxWrite A _)) fun _ => .bind (.renderValue A v h.1) fun _ =>
      Only.renderDelimValues d vs h.2 _

theorem Only.renderDelim (n d : Bytes) (vs : List Value) (h : ValuesUse q vs) : Only I p (renderDelim n d vs) :=
  .bind (.ctxWrite A _) fun _ => .bind (.ctxWrite A _) fun _ => .bind (.ctxWrite A _) fun _ =>
  .bind (.renderDelimValues A _ _ h _) fun _ => .ctxWrite A _

theorem Only.renderAttr (a : Attr) (h : AttrUses q ρ a) : Only I p (renderAttr a) := by
  cases a with
  | plain n vs =>
    exact .bind (.ctxWrite A _) fun _ => .bind (.ctxWrite A _) fun _ => .bind (.ctxWrite A _) fun _ =>
      .bind (.renderValues A _ h) fun _ => .ctxWrite A _
  | bool n => exact .bind (.ctxWrite A _) fun _ => .ctxWrite A _
  | delim n d r => exact .bindCtx A.ctx fun c hc => .renderDelim A _ _ _ (A.heap c hc r h)

omit A in
theorem valuesUse_append {a b : List Value} : ValuesUse q (a ++ b) ↔ ValuesUse q a ∧ ValuesUse q b := by
  induction a with
  | nil => simp [ValuesUse]
  | cons v vs ih => simp [ValuesUse, ih, and_assoc]

theorem attrUses_values {c : Ctx} (hc : I c) (a : Attr) (h : AttrUses q ρ a) : ValuesUse q (a.values c.dl) := by
  cases a with
  | plain n vs => exact h
  | bool n => trivial
  | delim n d r => exact A.heap c hc r h

theorem attrsUse_values {c : Ctx} (hc : I c) (as : List Attr) (h : ∀ a ∈ as, AttrUses q ρ a) :
    ValuesUse q (as.flatMap (Attr.values c.dl)) := by
  induction as with
  | nil => trivial
  | cons a as ih =>
    rw [List.flatMap_cons, valuesUse_append]
    exact ⟨attrUses_values A hc a (h a (by simp)), ih fun b hb => h b (by simp [hb])⟩

theorem Only.renderChosen (a : Attr) (h : AttrUses q ρ a) (l : List Attr) (b : Attr) (hl : ∀ a ∈ l, AttrUses q ρ a)
    (hb : AttrUses q ρ b) :
    Only I p (renderChosen a l b) := by
  cases a with
  | delim n d r =>
    exact .bindCtx A.ctx fun c hc => .renderDelim A _ _ _
      ((valuesUse_append).2 ⟨A.heap c hc r h, attrsUse_values A hc l hl⟩)
  | plain n vs => exact .renderAttr A _ hb
  | bool n => exact .renderAttr A _ hb

theorem Only.renderAttrs : (as : List Attr) → (∀ a ∈ as, AttrUses q ρ a) → Only I p (renderAttrs as)
  | [], _ => .ret _
  | a :: as, h => .bind (.renderAttr A a (h a (by simp))) fun _ => Only.renderAttrs as fun b hb => h b (by simp [hb])

theorem Only.runCond (k : Cond) (h : CondUses q k) : Only I p (runCond k) := by
  cases k with
  | user f => exact .act (A.fns _ h nofun)
  | has k => refine .bindCtx A.ctx fun c _ => ?_; split <;> exact .ret _
  | hasNot k => refine .bindCtx A.ctx fun c _ => ?_; split <;> exact .ret _

theorem Only.evalConds : (ks : List Cond) → (∀ k ∈ ks, CondUses q k) → Only I p (evalConds ks)
  | [], _ => .ret _
  | k :: ks, h => by
    refine .bind (.runCond A k (h k (by simp))) fun b => ?_
    split
    · exact Only.evalConds ks fun k hk => h k (by simp [hk])
    · exact .ret _

/-- All attributes in a map of evaluated attributes satisfy `AttrUses`. -/
def EvalUses (q : Action → Prop) (ρ : Nat → Prop) (ev : List (Bytes × List Attr)) : Prop := ∀ x ∈ ev, ∀ a ∈ x.2, AttrUses q ρ a

omit A in
theorem evalUses_add {ev : List (Bytes × List Attr)} (h : EvalUses q ρ ev) {n : Bytes} {a : Attr}
    (ha : AttrUses q ρ a) : EvalUses q ρ (addEvaluated n a ev) := by
  induction ev with
  | nil =>
    intro x hx b hb
    simp [addEvaluated] at hx; subst hx; simp at hb; subst hb; exact ha
  | cons e rest ih =>
    have ih := ih fun x hx => h x (by simp [hx])
    unfold addEvaluated
    split
    · intro x hx b hb
      rcases List.mem_cons.1 hx with rfl | hx
      · simp at hb
        rcases hb with hb | rfl
        · exact h _ (by simp) b hb
        · exact ha
      · exact h x (by simp [hx]) b hb
    · intro x hx b hb
      rcases List.mem_cons.1 hx with rfl | hx
      · exact h _ (by simp) b hb
      · exact ih x hx b hb

theorem Only.bindEvaluate {β : Type} {f : List (Bytes × List Attr) → Prog β}
    (hf : ∀ ev, EvalUses q ρ ev → Only I p (f ev)) :
    (cas : List CondAttr) → (∀ ca ∈ cas, AttrUses q ρ ca.att ∧ ∀ k ∈ ca.conditions, CondUses q k) →
    (r : List (Bytes × List Attr)) → EvalUses q ρ r → Only I p (evaluate cas r >>= f)
  | [], _, r, hr => hf r hr
  | ca :: cas, h, r, hr => by
    have : (evaluate (ca :: cas) r >>= f) =
        (Aitch.evalConds ca.conditions >>= fun b =>
          evaluate cas (if b then addEvaluated ca.att.name ca.att r else r) >>= f) := by
      change ((Aitch.evalConds ca.conditions).bind _).bind f = (Aitch.evalConds ca.conditions).bind _
      generalize Aitch.evalConds ca.conditions = m
      induction m with
      | pure a => rfl
      | step a k ih => simp only [Prog.bind]; congr 1; funext r; exact ih r
      | stuck => rfl
    rw [this]
    refine .bind (.evalConds A _ (h ca (by simp)).2) fun b => ?_
    refine Only.bindEvaluate hf cas (fun ca hca => h ca (by simp [hca])) _ ?_
    split
    · exact evalUses_add hr (h ca (by simp)).1
    · exact hr

omit A in
theorem evalUses_lookup {ev : List (Bytes × List Attr)} (h : EvalUses q ρ ev) {n : Bytes} {as : List Attr}
    (hl : ev.lookup n = some as) : ∀ a ∈ as, AttrUses q ρ a := by
  induction ev with
  | nil => simp at hl
  | cons e rest ih =>
    obtain ⟨m, bs⟩ := e
    simp only [List.lookup] at hl
    split at hl
    · simp at hl; subst hl; exact h (m, bs) (by simp)
    · exact ih (fun x hx => h x (by simp [hx])) hl

theorem Only.renderStatic (h : ElemHead) (hh : HeadUses q ρ h) (ev : List (Bytes × List Attr)) (he : EvalUses q ρ ev)
    (n : Bytes) : Only I p (renderStatic h ev n) := by
  unfold Aitch.renderStatic
  split
  · exact .ret _
  · split
    · exact .ret _
    · rename_i att hatt
      have hm := hh.1 att (List.mem_of_getElem? hatt)
      split
      · rename_i as hl
        have hl := evalUses_lookup he hl
        refine .renderChosen A _ hm _ _ hl ?_
        cases hg : as.getLast? with
        | none => exact hm
        | some b => exact hl b (List.mem_of_getLast? hg)
      · exact .renderAttr A _ hm

theorem Only.renderStatics (h : ElemHead) (hh : HeadUses q ρ h) (ev : List (Bytes × List Attr)) (he : EvalUses q ρ ev) :
    (ns : List Bytes) → Only I p (renderStatics h ev ns)
  | [] => .ret _
  | n :: ns => .bind (.renderStatic A h hh ev he n) fun _ => Only.renderStatics h hh ev he ns

theorem Only.renderExtra (h : ElemHead) (ev : List (Bytes × List Attr)) (he : EvalUses q ρ ev) (n : Bytes) :
    Only I p (renderExtra h ev n) := by
  unfold Aitch.renderExtra
  split
  · rename_i first others h1 h2
    have hl := evalUses_lookup he h2
    refine .renderChosen A _ (hl first (by simp)) _ _ (fun a ha => hl a (by simp [ha])) ?_
    rw [List.getLast?_eq_some_getLast (by simp)]
    exact hl _ (List.getLast_mem _)
  · exact .ret _

theorem Only.renderExtras (h : ElemHead) (ev : List (Bytes × List Attr)) (he : EvalUses q ρ ev) :
    (ns : List Bytes) → Only I p (renderExtras h ev ns)
  | [] => .ret _
  | n :: ns => .bind (.renderExtra A h ev he n) fun _ => Only.renderExtras h ev he ns

theorem Only.renderEndTag (n : Bytes) : Only I p (renderEndTag n) :=
  .bind (.ctxWrite A _) fun _ => .bind (.ctxWrite A _) fun _ => .ctxWrite A _

end leaf

section tree
variable (A : Allows I p q ρ)
include A

theorem Only.renderAttributes (h : ElemHead) (hh : HeadUses q ρ h) : Only I p (renderAttributes h) := by
  unfold Aitch.renderAttributes
  split
  · refine .bindEvaluate A.toAllowsLeaf (fun ev he => ?_) _ hh.2 _ (by simp [EvalUses])
    split
    · exact .bind (.act (A.order _)) fun _ => .bind (.renderStatics A.toAllowsLeaf _ hh _ he _) fun _ =>
        .bind (.act (A.order _)) fun _ => .renderExtras A.toAllowsLeaf _ _ he _
    · exact .renderAttrs A.toAllowsLeaf _ hh.1
  · exact .renderAttrs A.toAllowsLeaf _ hh.1

theorem Only.renderStartTag (h : ElemHead) (hh : HeadUses q ρ h) : Only I p (renderStartTag h) :=
  .bind (.ctxWrite A.toAllowsLeaf _) fun _ => .bind (.ctxWrite A.toAllowsLeaf _) fun _ =>
  .bind (.renderAttributes A h hh) fun _ => .ctxWrite A.toAllowsLeaf _

section
variable {rec : Render}

theorem Only.contentLoop : (ns : List Node) → (∀ n ∈ ns, Only I p (rec n)) → Only I p (contentLoop rec ns)
  | [], _ => .ret _
  | n :: ns, h => .bind (h n (by simp)) fun _ => .bind (.act (A.setErr _)) fun _ =>
      Only.contentLoop ns fun m hm => h m (by simp [hm])

theorem Only.conditionalLoop : (ns : List Node) → (∀ n ∈ ns, Only I p (rec n)) →
    Only I p (conditionalLoop rec ns)
  | [], _ => .ret _
  | n :: ns, h => by
    refine .bind (h n (by simp)) fun e => .bind (.act (A.setErr _)) fun _ => ?_
    split
    · exact .ret _
    · exact Only.conditionalLoop ns fun m hm => h m (by simp [hm])

theorem Only.collectionLoop : (ns : List Node) → (∀ n ∈ ns, Only I p (rec n)) → Only I p (collectionLoop rec ns)
  | [], _ => .ret _
  | n :: ns, h => by
    have ih := Only.collectionLoop ns fun m hm => h m (by simp [hm])
    unfold Aitch.collectionLoop
    split
    · exact ih
    · refine .bind (h n (by simp)) fun e => .bind (.act (A.setErr _)) fun _ => ?_
      split
      · exact .ret _
      · exact ih

theorem Only.documentLoop : (ns : List Node) → (∀ n ∈ ns, Only I p (rec n)) → Only I p (documentLoop rec ns)
  | [], _ => .ret _
  | n :: ns, h => .bind (h n (by simp)) fun _ => Only.documentLoop ns fun m hm => h m (by simp [hm])

theorem Only.iterNodes : (ns : List Node) → (∀ n ∈ ns, Only I p (rec n)) → Only I p (iterNodes rec ns)
  | [], _ => .ret _
  | n :: ns, h => by
    refine .bind (h n (by simp)) fun e => ?_
    split
    · exact .ret _
    · exact Only.iterNodes ns fun m hm => h m (by simp [hm])

theorem Only.iterItems (ns : List Node) (h : ∀ n ∈ ns, Only I p (rec n)) (d : Option MapId) :
    (its : List Any) → Only I p (iterItems rec ns d its)
  | [] => .ret _
  | it :: its => by
    refine .bind (.act (A.setItem _ _)) fun _ => .bind (.iterNodes A ns h) fun e => ?_
    split
    · exact .ret _
    · exact Only.iterItems ns h d its

theorem Only.runItems (fn : ItemSrc) (h : SrcUses q fn) : Only I p (runItems fn) := by
  cases fn with
  | user f => exact .act (A.fns _ h nofun)
  | key k => exact .bindCtx A.ctx fun _ _ => .ret _

theorem Only.renderIterator (ns : List Node) (h : ∀ n ∈ ns, Only I p (rec n)) (fn : ItemSrc) (hf : SrcUses q fn) :
    Only I p (renderIterator rec ns fn) := by
  unfold Aitch.renderIterator
  refine .bindCtx A.ctx fun c _ => ?_
  split
  · exact .ret _
  · refine .bind (.runItems A fn hf) fun its => ?_
    split
    · exact .ret _
    · refine .bindCtx A.ctx fun c _ => .bind (.act (A.enter _)) fun _ => .bind (.iterItems A ns h _ _) fun e =>
        .bind (.act A.leave) fun _ => ?_
      split
      · exact .bind (.act (A.setErr _)) fun _ => .ret _
      · exact .ret _

theorem Only.setErrIf (e : Option Err) : Only I p (setErrIf e) := by
  cases e with
  | none => exact .ret _
  | some e => exact .act (A.setErr _)

theorem Only.runYield (ns : List Node) (h : ∀ n ∈ ns, Only I p (rec n)) (pr : YieldProg) (child : Frame)
    {f : FnId} (hq : q (.yields f)) : Only I p (runYield rec ns pr child) := by
  induction pr generalizing child with
  | done => exact .ret _
  | user upd k ih => exact .bind (.act (A.user f _ hq)) fun s => ih s child
  | write d k ih => exact .bind (.act (A.write _)) fun r => .bind (.act (A.look f hq)) fun s => ih r s child
  | yield it k ih =>
    exact .bind (.act (A.enter _)) fun _ => .bind (.act (A.setItem _ _)) fun _ => .bind (.iterNodes A ns h) fun e =>
      .bind (.act A.leave) fun child => .bind (.setErrIf A _) fun _ => .bind (.act (A.look f hq)) fun s => ih s child

theorem Only.renderYield (ns : List Node) (h : ∀ n ∈ ns, Only I p (rec n)) (f : FnId) (hq : q (.yields f)) :
    Only I p (renderYield rec ns f) := by
  unfold Aitch.renderYield
  refine .bindCtx A.ctx fun c _ => ?_
  split
  · exact .ret _
  · exact .bind (.act (A.yields _ hq)) fun pr => .bind (.runYield A ns h pr _ hq) fun _ => .retErr A.toAllowsLeaf

end

omit A in
theorem nodesUse_iff (ns : List Node) : NodesUse q ρ ns ↔ ∀ n ∈ ns, NodeUses q ρ n := by
  induction ns with
  | nil => simp [NodesUse]
  | cons n ns ih => simp [NodesUse, ih]

omit A in
theorem depthAll_le (ns : List Node) (k : Nat) : depthAll ns ≤ k ↔ ∀ n ∈ ns, depth n ≤ k := by
  induction ns with
  | nil => simp [depthAll]
  | cons n ns ih => simp [depthAll, ← ih, Nat.max_le]

/-- A node of known depth whose user functions are in `q` renders with effects in `p` only, and ends. -/
theorem Only.renderProg (fuel : Nat) : ∀ n, NodeUses q ρ n → depth n ≤ fuel → Only I p (renderProg fuel n) := by
  induction fuel with
  | zero =>
    intro n _ h
    exfalso
    cases n with
    | document p cs => cases p <;> simp [depth] at h
    | _ => simp [depth] at h
  | succ fuel ih =>
    intro n hf hd
    have L := A.toAllowsLeaf
    have sub : ∀ ns, NodesUse q ρ ns → depthAll ns + 1 ≤ fuel + 1 → ∀ m ∈ ns, Only I p (Aitch.renderProg fuel m) := by
      intro ns h1 h2 m hm
      exact ih m ((nodesUse_iff ns).1 h1 m hm) ((depthAll_le ns fuel).1 (by omega) m hm)
    change Only I p (renderStep (Aitch.renderProg fuel) n)
    cases n with
    | element h cs =>
      exact .bind (.renderStartTag A h hf.1) fun _ => .bind (.contentLoop A cs (sub cs hf.2 hd)) fun _ =>
        .bind (.renderEndTag L _) fun _ => .retErr L
    | voidElement h => exact .bind (.renderStartTag A h hf) fun _ => .retErr L
    | attr a => exact .bind (.renderAttr L a hf) fun _ => .retErr L
    | text vs => exact .bind (.renderValues L vs hf) fun _ => .retErr L
    | comment vs =>
      exact .bind (.ctxWrite L _) fun _ => .bind (.renderValues L vs hf) fun _ =>
        .bind (.ctxWrite L _) fun _ => .retErr L
    | fragment vs => exact .bind (.renderValues L vs hf) fun _ => .retErr L
    | pi n vs =>
      exact .bind (.ctxWrite L _) fun _ => .bind (.ctxWrite L _) fun _ => .bind (.ctxWrite L _) fun _ =>
        .bind (.renderValues L vs hf) fun _ => .bind (.ctxWrite L _) fun _ => .retErr L
    | collection ns => exact .bind (.collectionLoop A ns (sub ns hf hd)) fun _ => .retErr L
    | conditional ns as fn =>
      exact .bind (.runCond L fn hf.1) fun _ => .bind (.when (.conditionalLoop A ns (sub ns hf.2 hd))) fun _ =>
        .retErr L
    | collector f => exact hf.elim
    | imperative f => cases hf; exact .ret _
    | iterator ns fn => exact .renderIterator A ns (sub ns hf.2 hd) fn hf.1
    | yieldIterator ns f => exact .renderYield A ns (sub ns hf.2 hd) f hf.1
    | document pr cs =>
      cases pr with
      | none => exact .bind (.documentLoop A _ (sub cs hf hd)) fun _ => .retErr L
      | some pr => exact .bind (.documentLoop A _ (sub (pr :: cs) hf hd)) fun _ => .retErr L

end tree
end

end Aitch
