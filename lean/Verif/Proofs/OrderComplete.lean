import Verif.Proofs.Order
import Verif.Proofs.Complete
/-
Completeness for functions with side effects: everything `Plays` allows is done by some run.
-/
namespace Aitch
open Spec

/-- A healthy writer and functions with the effects `F`, those given to `Imperative` by its calls,
and those given to `IterateYield` literally. -/
structure LiveCalls (env : Env) (F : Effects) : Prop extends Live env F where
  calls : ∀ f s, env.imp f s = (F.imp f s.toCtx).prog
  yielded : ∀ f s, env.yields f s = (F.yields f s.toCtx).prog

/-- For some choice of orders, `m` started in `c` returns `r`, ends in `c'` and writes `w`. -/
def CanE {α : Type} (F : Effects) (c : Ctx) (m : Prog α) (r : α) (c' : Ctx) (w : Bytes) : Prop :=
  ∃ os, ∀ env s, LiveCalls env F → s.toCtx = c → Follows env s.tick os →
    ∃ s', exec env m s = some (r, s') ∧ s'.toCtx = c' ∧ s'.out = s.out ++ w ∧ s'.tick = s.tick + os.length

section
variable {F : Effects} {c : Ctx}

theorem CanE.pure {α : Type} {a : α} : CanE F c (Pure.pure a) a c [] :=
  ⟨[], fun _ s _ hs _ => ⟨s, rfl, hs, by simp, by simp⟩⟩

theorem CanE.bind {α β : Type} {m : Prog α} {f : α → Prog β} {a : α} {b : β} {c1 c2 : Ctx} {w1 w2 : Bytes}
    (hm : CanE F c m a c1 w1) (hf : CanE F c1 (f a) b c2 w2) : CanE F c (m >>= f) b c2 (w1 ++ w2) := by
  obtain ⟨os1, h1⟩ := hm
  obtain ⟨os2, h2⟩ := hf
  refine ⟨os1 ++ os2, fun env s G hs hfo => ?_⟩
  obtain ⟨s1, e1, hc1, ho1, ht1⟩ := h1 env s G hs fun i o hi => by
    refine hfo i o ?_
    rw [List.getElem?_append_left]
    · exact hi
    · exact (List.getElem?_eq_some_iff.1 hi).1
  obtain ⟨s2, e2, hc2, ho2, ht2⟩ := h2 env s1 G hc1 fun i o hi ks hk => by
    rw [ht1, Nat.add_assoc]
    refine hfo (os1.length + i) o ?_ ks hk
    rw [List.getElem?_append_right (by omega)]
    simpa using hi
  refine ⟨s2, ?_, hc2, ?_, ?_⟩
  · rw [exec_bind, e1]; exact e2
  · rw [ho2, ho1, List.append_assoc]
  · rw [ht2, ht1, List.length_append]; omega

theorem CanE.of_eq {α : Type} {m : Prog α} {r : α} {c' : Ctx} {w w' : Bytes} (h : CanE F c m r c' w) (e : w = w') :
    CanE F c m r c' w' := e ▸ h

theorem CanE.leaf {α : Type} {m : Prog α} {r : α} {w : Bytes} {c' : Ctx} (ho : Only (fun _ => True) NoOrder m)
    (hd : ∀ env, Live env F → D env c m r w c') : CanE F c m r c' w := by
  refine ⟨[], fun env s G hs _ => ?_⟩
  have K : Keeps env (fun _ => True) NoOrder := fun _ _ _ _ => trivial
  obtain ⟨r', s', h, _⟩ := ho.exec (env := env) K s trivial
  obtain ⟨w', h1, h2, h3, h4⟩ := hd env G.toLive s r' s' hs h
  subst h2; subst h4
  exact ⟨s', h, h3, h1, by simpa using tick_of_only ho K trivial h⟩

theorem CanE.impCalls (f : FnId) : CanE F c (Do.imp f) (F.imp f c).prog c [] :=
  ⟨[], fun env s G hs _ => ⟨s, by simp [Do.imp, exec, Action.run, G.calls, hs], hs, by simp, by simp⟩⟩

theorem CanE.order {ks o : List Bytes} (h : o.Perm ks) : CanE F c (Do.order ks) o c [] := by
  refine ⟨[o], fun env s G hs hf => ?_⟩
  refine ⟨{ s with tick := s.tick + 1 }, ?_, hs, by simp [St.out], rfl⟩
  have := hf 0 o (by simp) ks h.symm
  simp only [Nat.add_zero] at this
  simp [Do.order, exec, Action.run, this]

theorem CanE.write (d : Bytes) : CanE F c (Do.write d) (d.length, none) c d :=
  .leaf (.act trivial) fun _ L => Tr.write L.healthy d

theorem CanE.ctxWrite (he : c.frame.err = none) (d : Bytes) : CanE F c (ctxWrite d) () c d :=
  .leaf (.ctxWrite allowsLeaf d) fun _ L => E.ctxWrite L.healthy he d

theorem CanE.renderValues (he : c.frame.err = none) (vs : List Value) :
    CanE F c (renderValues vs) () (playValues F vs c).2 (playValues F vs c).1 :=
  .leaf (.renderValues allowsLeaf vs (valuesUse_noOrder vs)) fun _ L => d_renderValues L vs c he

theorem CanE.retErr (he : c.frame.err = none) : CanE F c retErr none c [] :=
  .leaf (.retErr allowsLeaf) fun _ _ => by rw [← he]; exact E.retErr

theorem CanE.renderEndTag (he : c.frame.err = none) (n : Bytes) : CanE F c (renderEndTag n) () c (endBytes n) :=
  .leaf (.renderEndTag allowsLeaf n) fun _ L => e_endTag L.healthy he n

theorem CanE.setErr (he : c.frame.err = none) : CanE F c (Do.setErr none) () c [] :=
  .leaf (.act trivial) fun _ _ => E.setErr he

theorem CanE.ctx : CanE F c Do.ctx c c [] := .leaf (.act trivial) fun _ _ => E.ctx

theorem CanE.startTag (he : c.frame.err = none) (n : Bytes) (attrs : List (Option Node)) :
    CanE F c (startTag n attrs) () (playStart F n attrs c).2 (playStart F n attrs c).1 := by
  refine .leaf ?_ fun _ L => d_startTag L n attrs c he
  exact .bind (.ctxWrite allowsLeaf _) fun _ => .bind (.ctxWrite allowsLeaf _) fun _ =>
    .bindCtx trivial fun _ _ => .bind (.startWrite allowsLeaf valuesUse_noOrder _) fun _ => .ctxWrite allowsLeaf _

theorem CanE.endAll (he : c.frame.err = none) (stack : List Bytes) :
    CanE F c (endAll stack) () c (stack.flatMap endBytes) :=
  .leaf (.endAll allowsLeaf stack) fun _ L => e_endTags L.healthy he stack

theorem CanE.runCond (k : Cond) : CanE F c (runCond k) (playCond F k c).1 (playCond F k c).2 [] :=
  .leaf (.runCond allowsLeaf k (condUses_noOrder k)) fun _ L => d_runCond L k c

theorem CanE.runItems (fn : ItemSrc) : CanE F c (runItems fn) (playItems F fn c).1 (playItems F fn c).2 [] := by
  refine .leaf ?_ fun _ L => d_runItems L fn c
  cases fn with
  | user f => exact .act trivial
  | key k => exact .bindCtx trivial fun _ _ => .ret _

theorem CanE.act {α : Type} {a : Action} {f : a.Resp → α} {c' : Ctx} {r : α}
    (h : ∀ env s, s.toCtx = c → f (a.run env s).1 = r ∧ (a.run env s).2.toCtx = c' ∧
      (a.run env s).2.out = s.out ∧ (a.run env s).2.tick = s.tick) :
    CanE F c (.step a fun x => .pure (f x)) r c' [] := by
  refine ⟨[], fun env s _ hs _ => ?_⟩
  obtain ⟨h1, h2, h3, h4⟩ := h env s hs
  exact ⟨(a.run env s).2, by simp [exec, h1], h2, by simp [h3], by simp [h4]⟩

theorem CanE.enter (f : Frame) :
    CanE F c (Do.enter f) () { c with frame := f, parents := c.frame :: c.parents } [] :=
  .act fun env s hs => ⟨rfl, by simp [Action.run, ← hs], rfl, rfl⟩

theorem CanE.setItem (it : Any) (d : Option MapId) :
    CanE F c (Do.setItem it d) () { c with frame := { c.frame with cargo := it, data := d } } [] :=
  .act fun env s hs => ⟨rfl, by simp [Action.run, ← hs], rfl, rfl⟩

theorem CanE.leave {f : Frame} {fs : List Frame} (h : c.parents = f :: fs) :
    CanE F c Do.leave c.frame { c with frame := f, parents := fs } [] :=
  .act fun env s hs => by
    have hp : s.parents = f :: fs := by rw [hs]; exact h
    simp [Action.run, hp, ← hs, St.out]

theorem CanE.bindLook {β : Type} {m : Ctx → Prog β} {r : β} {c' : Ctx} {w : Bytes} (h : CanE F c (m c) r c' w) :
    CanE F c (Do.look >>= fun s => m s.toCtx) r c' w := by
  obtain ⟨os, h⟩ := h
  exact ⟨os, fun env s G hs hf => by subst hs; exact h env s G rfl hf⟩

theorem CanE.bindUser {β : Type} {upd : Ctx → Ctx} {m : Ctx → Prog β} {r : β} {c' : Ctx} {w : Bytes}
    (h : CanE F (within c (upd c)) (m (within c (upd c))) r c' w) :
    CanE F c (Do.user (fun s => { s with toCtx := upd s.toCtx }) >>= fun s => m s.toCtx) r c' w := by
  obtain ⟨os, h⟩ := h
  refine ⟨os, fun env s G hs hf => ?_⟩
  subst hs
  exact h env _ G rfl hf

/-! Tags -/

theorem CanE.renderAttributes (K : Calm F) (he : c.frame.err = none) {h : ElemHead} (wf : WFHead h) {w : Bytes} {c' : Ctx}
    (hl : PlaysAttrs F h c w c') : CanE F c (renderAttributes h) () c' w := by
  unfold Aitch.renderAttributes
  have hact := step_active K h.conditionals c
  unfold PlaysAttrs PlaysTag at hl
  have plain : (playActive F h.conditionals c).1 = [] →
      CanE F (playActive F h.conditionals c).2 (renderAttrs h.attributes) () c' w := by
    intro ha
    have he' := hact.1 he
    generalize playActive F h.conditionals c = p at ha hl he' ⊢
    obtain ⟨act, c1⟩ := p
    simp only at ha
    simp only [ha, if_true] at hl
    obtain ⟨hw, rfl⟩ := hl
    have hw : w = (playList (playAttr F) h.attributes c1).1 := by simpa using hw
    rw [hw]
    exact .leaf (.renderAttrs allowsLeaf _ fun a _ => attrUses_noOrder a) fun _ L => d_renderAttrs L h.attributes c1 he'
  by_cases hc : h.conditionals.length > 0
  · rw [if_pos hc]
    refine .of_eq (w := [] ++ w) (.bind (c1 := (playActive F h.conditionals c).2)
      (.leaf (.evaluate allowsLeaf _ (fun _ _ k _ => condUses_noOrder k) _)
        fun _ L => d_evaluate L h.conditionals [] c) ?_) (by simp)
    have hk := keys_group (playActive F h.conditionals c).1
    by_cases ha : (playActive F h.conditionals c).1 = []
    · have := plain ha
      rw [ha]
      simp only [groupInto, List.foldl_nil, List.length_nil, gt_iff_lt, Nat.lt_irrefl, if_false]
      exact this
    · have hlen : (groupInto [] (playActive F h.conditionals c).1).length > 0 := by
        have : ((groupInto [] (playActive F h.conditionals c).1).map (·.1)).length > 0 := by
          rw [hk]
          cases hx : (playActive F h.conditionals c).1 with
          | nil => exact absurd hx ha
          | cons a as => simp [distinct]
        simpa using this
      rw [if_pos hlen]
      have he' := hact.1 he
      clear plain hact
      generalize playActive F h.conditionals c = p at ha hl he' hk hlen ⊢
      obtain ⟨act, c1⟩ := p
      simp only at ha hk he' ⊢
      simp only [ha, if_false] at hl
      obtain ⟨l₁, l₂, h1, h2, hw, rfl⟩ := hl
      obtain ⟨as', hp1, rfl⟩ := exists_perm_map _ _ _ h1
      rw [extraDeclarations_eq] at h2
      obtain ⟨ns', hp2, rfl⟩ := exists_perm_filterMap _ _ _ h2
      rw [playList_append] at hw ⊢
      have hst := step_list (step_merged K) (as'.map fun a => (a, named a.name act)) c1
      refine .of_eq (.bind (CanE.order (o := as'.map Attr.name) ?_) (.bind
        (.leaf (.renderStatics allowsLeaf _ (headUses_noOrder h) _ (evalUses_noOrder _) _)
          fun _ L => d_renderStatics L wf act as' (fun a h => hp1.mem_iff.mp h) c1 he')
        (.bind (CanE.order (o := ns') ?_)
          (.leaf (.renderExtras allowsLeaf _ _ (evalUses_noOrder _) _)
            fun _ L => d_renderExtras L wf act ns' _ (hst.1 he'))))) ?_
      · rw [wf_keys wf]; exact hp1.map _
      · rw [hk]; exact hp2
      · have hw := List.append_cancel_right hw
        have hw := List.append_cancel_left hw
        rw [hw]; simp
  · rw [if_neg hc]
    have hnil : h.conditionals = [] := by
      cases hx : h.conditionals with
      | nil => rfl
      | cons a as => rw [hx] at hc; simp at hc
    have h1 : (playActive F h.conditionals c).1 = [] := by rw [hnil]; rfl
    have h2 : (playActive F h.conditionals c).2 = c := by rw [hnil]; rfl
    have := plain h1
    rw [h2] at this
    exact this

theorem step_tag (K : Calm F) {h : ElemHead} {w : Bytes} {c' : Ctx} (hl : PlaysTag F h c w c') : Step c c' := by
  have hact := step_active K h.conditionals c
  unfold PlaysTag at hl
  generalize playActive F h.conditionals c = p at hact hl
  obtain ⟨act, c1⟩ := p
  simp only at hact hl
  split at hl
  · rw [hl.2]; exact hact.trans (step_list (step_attr K) _ _)
  · obtain ⟨l₁, l₂, -, -, -, rfl⟩ := hl
    exact hact.trans (step_list (step_merged K) _ _)

/-- The attributes within a tag that is played. -/
theorem playsAttrs_of_tag {h : ElemHead} {w : Bytes} {c' : Ctx} (hl : PlaysTag F h c w c') :
    ∃ w', w = b%"<" ++ h.name ++ w' ++ b%">" ∧ PlaysAttrs F h c w' c' := by
  unfold PlaysAttrs
  have hl' := hl
  unfold PlaysTag at hl
  generalize playActive F h.conditionals c = p at hl
  obtain ⟨act, c1⟩ := p
  simp only at hl
  split at hl
  · refine ⟨_, hl.1, ?_⟩
    rw [← hl.1]; exact hl'
  · obtain ⟨l₁, l₂, -, -, hw, -⟩ := hl
    refine ⟨_, hw, ?_⟩
    rw [← hw]; exact hl'

theorem CanE.renderStartTag (K : Calm F) (he : c.frame.err = none) {h : ElemHead} (wf : WFHead h) {w : Bytes} {c' : Ctx}
    (hl : PlaysTag F h c w c') : CanE F c (renderStartTag h) () c' w := by
  have hst := step_tag K hl
  obtain ⟨w', rfl, hp⟩ := playsAttrs_of_tag hl
  exact .of_eq (.bind (.ctxWrite he _) (.bind (.ctxWrite he _) (.bind (.renderAttributes K he wf hp)
    (.ctxWrite (hst.1 he) _)))) (by simp)

/-! Nodes -/

/-- With enough fuel, the program `L` can write `w` and end in `c'`. -/
def CanLE {α : Type} (F : Effects) (c : Ctx) (L : Render → Prog α) (r : α) (c' : Ctx) (w : Bytes) : Prop :=
  ∃ f0, ∀ f ≥ f0, CanE F c (L (renderProg f)) r c' w

theorem CanLE.step {n : Node} {w : Bytes} {c' : Ctx} (h : CanLE F c (fun rec => renderStep rec n) none c' w) :
    CanLE F c (fun rec => rec n) none c' w := by
  obtain ⟨f0, h⟩ := h
  refine ⟨f0 + 1, fun f hf => ?_⟩
  obtain ⟨f, rfl⟩ : ∃ g, f = g + 1 := ⟨f - 1, by omega⟩
  exact h f (by omega)

theorem CanLE.of {α : Type} {m : Prog α} {r : α} {w : Bytes} {c' : Ctx} (h : CanE F c m r c' w) :
    CanLE F c (fun _ => m) r c' w := ⟨0, fun _ _ => h⟩

theorem CanLE.bind {α β : Type} {L : Render → Prog α} {K : Render → α → Prog β} {a : α} {b : β} {w1 w2 : Bytes}
    {c1 c2 : Ctx} (h1 : CanLE F c L a c1 w1) (h2 : CanLE F c1 (fun rec => K rec a) b c2 w2) :
    CanLE F c (fun rec => L rec >>= K rec) b c2 (w1 ++ w2) := by
  obtain ⟨f1, h1⟩ := h1
  obtain ⟨f2, h2⟩ := h2
  exact ⟨max f1 f2, fun f hf => .bind (h1 f (by omega)) (h2 f (by omega))⟩

theorem CanLE.of_eq {α : Type} {L : Render → Prog α} {r : α} {c' : Ctx} {w w' : Bytes} (h : CanLE F c L r c' w)
    (e : w = w') : CanLE F c L r c' w' := e ▸ h

/-- The same for every node of a list, one after the other. -/
inductive CanAllE (F : Effects) : List Node → Ctx → Bytes → Ctx → Prop
  | nil {c0} : CanAllE F [] c0 [] c0
  | cons {n ns c0 w c1 w' c2} : Step c0 c1 → CanLE F c0 (fun rec => rec n) none c1 w → CanAllE F ns c1 w' c2 →
      CanAllE F (n :: ns) c0 (w ++ w') c2

theorem CanAllE.steps {ns : List Node} {w : Bytes} {c' : Ctx} (h : CanAllE F ns c w c') : Step c c' := by
  induction h with
  | nil => exact Step.refl _
  | cons h _ _ ih => exact h.trans ih

theorem CanLE.contentLoop (he : c.frame.err = none) {ns : List Node} {w : Bytes} {c' : Ctx}
    (h : CanAllE F ns c w c') : CanLE F c (fun rec => contentLoop rec ns) () c' w := by
  induction h with
  | nil => exact .of .pure
  | cons hst h _ ih => exact .of_eq (.bind h (.bind (.of (.setErr (hst.1 he))) (ih (hst.1 he)))) (by simp)

theorem CanLE.conditionalLoop (he : c.frame.err = none) {ns : List Node} {w : Bytes} {c' : Ctx}
    (h : CanAllE F ns c w c') : CanLE F c (fun rec => conditionalLoop rec ns) () c' w := by
  induction h with
  | nil => exact .of .pure
  | cons hst h _ ih => exact .of_eq (.bind h (.bind (.of (.setErr (hst.1 he))) (ih (hst.1 he)))) (by simp)

theorem CanLE.collectionLoop (he : c.frame.err = none) (ns : List Node) {w : Bytes} {c' : Ctx}
    (h : CanAllE F (ns.filter fun n => !n.isAttr) c w c') : CanLE F c (fun rec => collectionLoop rec ns) () c' w := by
  induction ns generalizing c w with
  | nil => cases h; exact .of .pure
  | cons n ns ih =>
    unfold Aitch.collectionLoop
    by_cases ha : n.isAttr = true
    · rw [List.filter_cons_of_neg (by simp [ha])] at h
      simp only [ha, if_true]
      exact ih he h
    · rw [List.filter_cons_of_pos (by simp [ha])] at h
      simp only [ha]
      cases h with
      | cons hst h hs =>
        exact .of_eq (.bind h (.bind (.of (.setErr (hst.1 he))) (ih (hst.1 he) hs))) (by simp)

theorem CanLE.ignoreLoop (ns : List (Option Node)) {w : Bytes} {c' : Ctx}
    (h : CanAllE F (contentNodes ns) c w c') : CanLE F c (fun rec => ignoreLoop rec ns) () c' w := by
  induction ns generalizing c w with
  | nil => cases h; exact .of .pure
  | cons o ns ih =>
    cases o with
    | none => exact ih h
    | some n =>
      unfold Aitch.ignoreLoop
      by_cases ha : n.isAttr = true
      · have : contentNodes (some n :: ns) = contentNodes ns := by simp [contentNodes, ha]
        rw [this] at h
        simp only [ha, if_true]
        exact ih h
      · have : contentNodes (some n :: ns) = n :: contentNodes ns := by simp [contentNodes, ha]
        rw [this] at h
        simp only [ha]
        cases h with
        | cons _ h hs => exact .bind h (ih hs)

theorem CanLE.documentLoop {ns : List Node} {w : Bytes} {c' : Ctx} (h : CanAllE F ns c w c') :
    CanLE F c (fun rec => documentLoop rec ns) () c' w := by
  induction h with
  | nil => exact .of .pure
  | cons _ h _ ih => exact .bind h ih

theorem CanLE.iterNodes {ns : List Node} {w : Bytes} {c' : Ctx} (h : CanAllE F ns c w c') :
    CanLE F c (fun rec => iterNodes rec ns) none c' w := by
  induction h with
  | nil => exact .of .pure
  | cons _ h _ ih => exact .bind h ih

theorem CanLE.item {ns : List Node} {d : Option MapId} {it : Any} {its : List Any} {fr : Frame} {w w' : Bytes}
    {c1 c2 : Ctx} {fr' : Frame} (h : CanAllE F ns (itemCtx c fr it (itemData d it)) w c1)
    (hs : CanLE F (below (backTo c c1) c1.frame) (fun rec => iterItems rec ns d its) none (below c2 fr') w') :
    CanLE F (below c fr) (fun rec => iterItems rec ns d (it :: its)) none (below c2 fr') (w ++ w') := by
  have hb : c1 = below (backTo c c1) c1.frame := by
    have hp : c1.parents = c.frame :: c.parents := h.steps.2
    unfold below backTo
    cases c1
    simp only at hp
    simp [hp]
  have h1 := CanLE.iterNodes h
  rw [← hb] at hs
  unfold Aitch.iterItems
  refine .of_eq (w := [] ++ (w ++ w')) (.bind (.of (.setItem _ _)) (.bind (c1 := c1) (a := none) ?_ hs)) (by simp)
  have e : ∀ d', { below c fr with frame := { (below c fr).frame with cargo := it, data := d' } } = itemCtx c fr it d' :=
    fun _ => rfl
  cases it <;> (rw [e]; exact h1)

theorem CanLE.renderIterator (he : c.frame.err = none) (K : Calm F) {ns : List Node} {fn : ItemSrc} {w : Bytes} {c' : Ctx}
    {fr : Frame} (hf : c'.frame = (playItems F fn c).2.frame) (hp : c'.parents = (playItems F fn c).2.parents)
    (hn : (playItems F fn c).1 = [] → w = [] ∧ c' = (playItems F fn c).2)
    (h : CanLE F (below (playItems F fn c).2 { err := none, data := none, cargo := .nil })
      (fun rec => iterItems rec ns (playItems F fn c).2.frame.data (playItems F fn c).1) none (below c' fr) w) :
    CanLE F c (fun rec => renderIterator rec ns fn) none c' w := by
  obtain ⟨f0, h0⟩ := h
  refine ⟨f0, fun f hfu => ?_⟩
  have he' := (step_items K fn c).1 he
  unfold Aitch.renderIterator
  refine .of_eq (w := [] ++ w) (.bind .ctx ?_) (by simp)
  simp only [he]
  refine .of_eq (w := [] ++ w) (.bind (.runItems fn) ?_) (by simp)
  have h0 := h0 f hfu
  cases hi : (playItems F fn c).1 with
  | nil =>
    obtain ⟨rfl, rfl⟩ := hn hi
    exact .pure
  | cons it its =>
    rw [hi] at h0
    refine .of_eq (w := [] ++ ([] ++ (w ++ ([] ++ [])))) (.bind .ctx (.bind (.enter _) (.bind (a := none)
      (c1 := below c' fr) ?_
      (.bind (c1 := c') (a := fr) ?_ ?_)))) (by simp)
    · rw [he']
      exact h0
    · have := CanE.leave (F := F) (c := below c' fr) (f := c'.frame) (fs := c'.parents) rfl
      exact this
    · exact .pure

theorem CanLE.yielded {ns : List Node} {it : Any} {k : Ctx → Yielding} {fr : Frame} {w w' : Bytes}
    {c1 c2 : Ctx} (h : CanAllE F ns (itemCtx c fr it (itemData fr.data it)) w c1)
    (hs : CanLE F (backTo c c1) (fun rec => runYield rec ns (k (backTo c c1)).prog c1.frame) () c2 w') :
    CanLE F c (fun rec => runYield rec ns (Yielding.yield it k).prog fr) () c2 (w ++ w') := by
  have hp : c1.parents = c.frame :: c.parents := h.steps.2
  obtain ⟨f1, h1⟩ := CanLE.iterNodes h
  obtain ⟨f2, h2⟩ := hs
  refine ⟨max f1 f2, fun f hf => ?_⟩
  have h1 := h1 f (by omega)
  have h2 := h2 f (by omega)
  unfold Yielding.prog
  unfold Aitch.runYield
  refine .of_eq (w := [] ++ ([] ++ (w ++ ([] ++ ([] ++ w'))))) (.bind (.enter fr)
    (.bind (.setItem _ _) (.bind (c1 := c1) (a := none) ?_
      (.bind (c1 := backTo c c1) (a := c1.frame) (.leave hp) (.bind (c1 := backTo c c1) (a := ()) .pure
        (.bindLook (m := fun c => runYield (renderProg f) ns (k c).prog c1.frame) h2)))))) (by simp)
  cases it <;> exact h1

theorem CanLE.renderYield (he : c.frame.err = none) {ns : List Node} {g : FnId} {w : Bytes} {c' : Ctx} (hst : Step c c')
    (h : CanLE F c (fun rec => runYield rec ns (F.yields g c).prog { err := none, data := none, cargo := .nil }) () c' w) :
    CanLE F c (fun rec => renderYield rec ns g) none c' w := by
  obtain ⟨f0, h0⟩ := h
  refine ⟨f0, fun f hf => ?_⟩
  have hy : CanE F c (Do.yields g) (F.yields g c).prog c [] :=
    ⟨[], fun env s L hs _ => ⟨s, by simp [Do.yields, exec, Action.run, L.yielded, hs], hs, by simp, by simp⟩⟩
  unfold Aitch.renderYield
  refine .of_eq (w := [] ++ w) (.bind .ctx ?_) (by simp)
  simp only [he]
  exact .of_eq (.bind hy (.bind (h0 f hf) (.retErr (hst.1 he)))) (by simp)

theorem CanLE.called {op : ImpOp} {k : Ctx → Doing} {stack stack' : List Bytes} {w w' : Bytes} {c1 c2 : Ctx}
    (h : CanLE F c (fun rec => runOp rec op stack) stack' c1 w)
    (hs : CanLE F c1 (fun rec => runImp rec (k c1).prog stack') none c2 w') :
    CanLE F c (fun rec => runImp rec (Doing.call op k).prog stack) none c2 (w ++ w') := by
  unfold Doing.prog
  unfold Aitch.runImp
  refine .bind h ?_
  obtain ⟨f0, hs⟩ := hs
  exact ⟨f0, fun f hf => .bindLook (m := fun c => runImp (renderProg f) (k c).prog stack') (hs f hf)⟩

end

section
variable {F : Effects}

mutual
theorem can_node (K : Calm F) : {n : Node} → {c : Ctx} → {w : Bytes} → {c' : Ctx} → Plays F n c w c' →
    c.frame.err = none → WF n → Step c c' ∧ CanLE F c (fun rec => rec n) none c' w
  | _, _, _, _, @Plays.element _ h cs c w c1 w' c2 hl hw, he, wf => by
    have hst := step_tag K hl
    have hc := can_nodes K hw (hst.1 he) wf.2
    have he2 := hc.steps.1 (hst.1 he)
    exact ⟨hst.trans hc.steps, .step (.of_eq (.bind (.of (.renderStartTag K he wf.1 hl)) (.bind (.contentLoop (hst.1 he) hc)
      (.bind (.of (.renderEndTag he2 _)) (.of (.retErr he2))))) (by simp))⟩
  | _, _, _, _, @Plays.voidElement _ h c w c1 hl, he, wf => by
    have hst := step_tag K hl
    exact ⟨hst, .step (.of_eq (.bind (.of (.renderStartTag K he wf hl)) (.of (.retErr (hst.1 he)))) (by simp))⟩
  | _, _, _, _, @Plays.attr _ a c, he, wf => by
    have hst := step_attr K a c
    exact ⟨hst, .step (.of_eq (.bind (.of (.leaf (.renderAttr allowsLeaf a (attrUses_noOrder a))
      fun _ L => d_renderAttr L a c he)) (.of (.retErr (hst.1 he)))) (by simp))⟩
  | _, _, _, _, @Plays.text _ vs c, he, wf => by
    have hst := step_values K vs c
    exact ⟨hst, .step (.of_eq (.bind (.of (.renderValues he vs)) (.of (.retErr (hst.1 he)))) (by simp))⟩
  | _, _, _, _, @Plays.comment _ vs c, he, wf => by
    have hst := step_values K vs c
    exact ⟨hst, .step (.of_eq (.bind (.of (.ctxWrite he _)) (.bind (.of (.renderValues he vs))
      (.bind (.of (.ctxWrite (hst.1 he) _)) (.of (.retErr (hst.1 he)))))) (by simp))⟩
  | _, _, _, _, @Plays.fragment _ vs c, he, wf => by
    have hst := step_values K vs c
    exact ⟨hst, .step (.of_eq (.bind (.of (.renderValues he vs)) (.of (.retErr (hst.1 he)))) (by simp))⟩
  | _, _, _, _, @Plays.pi _ name vs c, he, wf => by
    have hst := step_values K vs c
    exact ⟨hst, .step (.of_eq (.bind (.of (.ctxWrite he _)) (.bind (.of (.ctxWrite he _)) (.bind (.of (.ctxWrite he _))
      (.bind (.of (.renderValues he vs)) (.bind (.of (.ctxWrite (hst.1 he) _)) (.of (.retErr (hst.1 he))))))))
      (by simp))⟩
  | _, _, _, _, @Plays.collection _ ns c w c1 hw, he, wf => by
    have hc := can_nodes K hw he (wfAll_filter wf _)
    exact ⟨hc.steps, .step (.of_eq (.bind (.collectionLoop he ns hc) (.of (.retErr (hc.steps.1 he)))) (by simp))⟩
  | _, _, _, _, @Plays.conditionalOn _ ns as fn c w c1 hb hw, he, wf => by
    have hst := step_cond K fn c
    have hc := can_nodes K hw (hst.1 he) wf
    refine ⟨hst.trans hc.steps, .step (.of_eq (w := [] ++ (w ++ [])) (.bind (.of (.runCond fn)) ?_) (by simp))⟩
    rw [hb]
    exact .bind (.conditionalLoop (hst.1 he) hc) (.of (.retErr (hc.steps.1 (hst.1 he))))
  | _, _, _, _, @Plays.conditionalOff _ ns as fn c hb, he, wf => by
    have hst := step_cond K fn c
    refine ⟨hst, .step (.of_eq (w := [] ++ ([] ++ [])) (.bind (.of (.runCond fn)) ?_) (by simp))⟩
    rw [hb]
    exact .bind (a := ()) (.of .pure) (.of (.retErr (hst.1 he)))
  | _, _, _, _, @Plays.collector _ f c w c1 hw, he, wf => by
    have hst := step_within (K.collect f) c
    have hc := can_nodes K hw (hst.1 he) (wfAll_contentNodes (K.collected f c))
    exact ⟨hst.trans hc.steps, .step (.of_eq (.bind (.of (.leaf (.act trivial) fun _ L => d_collect L f)) (.bind
      (.ignoreLoop _ hc) (.of (.retErr (hc.steps.1 (hst.1 he)))))) (by simp))⟩
  | _, _, _, _, .imperativeNil, he, wf => ⟨Step.refl _, .step (.of .pure)⟩
  | _, _, _, _, @Plays.imperative _ f c w c1 hw, he, wf => by
    have hd := can_doing K hw he (K.imp f c)
    exact ⟨hd.1, .step (.of_eq (.bind (.of (.impCalls f)) hd.2) (by simp))⟩
  | _, _, _, _, @Plays.iterator _ ns fn c fr w c1 hw, he, wf => by
    have hst := step_items K fn c
    obtain ⟨hf, hp, hn, hc⟩ := can_items K hw rfl wf
    exact ⟨hst.trans ⟨fun h => by rw [hf]; exact h, hp⟩, .step (.renderIterator he K hf hp (fun h => hn h) hc)⟩
  | _, _, _, _, @Plays.yieldIterator _ ns f c w c1 hw, he, wf => by
    obtain ⟨hst, hc⟩ := can_yields K hw he rfl wf (K.yields f c)
    exact ⟨hst, .step (.renderYield he hst hc)⟩
  | _, _, _, _, @Plays.document _ p cs c w c1 hw, he, wf => by
    have hc := can_nodes K hw he (by cases p <;> exact wf)
    exact ⟨hc.steps, .step (.of_eq (.bind (.documentLoop hc) (.of (.retErr (hc.steps.1 he)))) (by simp))⟩
theorem can_nodes (K : Calm F) : {ns : List Node} → {c : Ctx} → {w : Bytes} → {c' : Ctx} → PlaysAll F ns c w c' →
    c.frame.err = none → WFAll ns → CanAllE F ns c w c'
  | _, _, _, _, .nil, _, _ => .nil
  | _, _, _, _, .cons h hs, he, wf =>
    .cons (can_node K h he wf.1).1 (can_node K h he wf.1).2 (can_nodes K hs ((can_node K h he wf.1).1.1 he) wf.2)
theorem can_items (K : Calm F) : {ns : List Node} → {d : Option MapId} → {its : List Any} → {c : Ctx} → {fr : Frame} →
    {w : Bytes} → {c' : Ctx} → {fr' : Frame} → PlaysItems F ns d its c fr w c' fr' → fr.err = none → WFAll ns →
    c'.frame = c.frame ∧ c'.parents = c.parents ∧ (its = [] → w = [] ∧ c' = c) ∧
      CanLE F (below c fr) (fun rec => iterItems rec ns d its) none (below c' fr') w
  | _, _, _, _, _, _, _, _, .nil, _, _ => ⟨rfl, rfl, fun _ => ⟨rfl, rfl⟩, .of .pure⟩
  | _, _, _, _, _, _, _, _, @PlaysItems.cons _ ns d it its c fr w w' c2 fr' c1 h hs, he, wf => by
    have hc := can_nodes K h he wf
    obtain ⟨hf, hp, -, hi⟩ := can_items K hs (hc.steps.1 he) wf
    exact ⟨hf, hp, fun h => by simp at h, .item hc hi⟩
theorem can_yields (K : Calm F) : {ns : List Node} → {y : Yielding} → {c : Ctx} → {fr : Frame} → {w : Bytes} → {c' : Ctx} →
    PlaysYields F ns y c fr w c' → c.frame.err = none → fr.err = none → WFAll ns → y.Calm →
    Step c c' ∧ CanLE F c (fun rec => runYield rec ns y.prog fr) () c' w
  | _, _, _, _, _, _, .done, _, _, _, _ => ⟨Step.refl _, .of .pure⟩
  | _, _, _, _, _, _, @PlaysYields.yield _ ns it k c fr w w' c2 c1 h hs, he, hf, wf, hy => by
    have hc := can_nodes K h hf wf
    obtain ⟨hst, hi⟩ := can_yields K hs he (hc.steps.1 hf) wf (hy _)
    exact ⟨Step.trans ⟨fun _ => he, rfl⟩ hst, .yielded hc hi⟩
  | _, _, _, _, _, _, @PlaysYields.act _ ns upd k c fr w c1 h, he, hf, wf, hy => by
    have hst := step_within hy.1 c
    obtain ⟨hst2, f0, hi⟩ := can_yields K h (hst.1 he) hf wf (hy.2 _)
    exact ⟨hst.trans hst2, f0, fun f hfu =>
      .bindUser (m := fun c => runYield (renderProg f) ns (k c).prog fr) (hi f hfu)⟩
  | _, _, _, _, _, _, @PlaysYields.write _ ns d k c fr w c1 h, he, hf, wf, hy => by
    obtain ⟨hst, f0, hi⟩ := can_yields K h he hf wf (hy _)
    exact ⟨hst, f0, fun f hfu => .bind (.write d)
      (.bindLook (m := fun c => runYield (renderProg f) ns (k c).prog fr) (hi f hfu))⟩
theorem can_doing (K : Calm F) : {p : Doing} → {stack : List Bytes} → {c : Ctx} → {w : Bytes} → {c' : Ctx} →
    PlaysDoing F p stack c w c' → c.frame.err = none → p.Calm →
    Step c c' ∧ CanLE F c (fun rec => runImp rec p.prog stack) none c' w
  | _, _, _, _, _, .done, _, _ => ⟨Step.refl _, .of .pure⟩
  | _, _, _, _, _, @PlaysDoing.act _ upd k stack c w c1 h, he, hp => by
    have hst := step_within hp.1 c
    obtain ⟨hst2, f0, hi⟩ := can_doing K h (hst.1 he) (hp.2 _)
    exact ⟨hst.trans hst2, f0, fun f hfu =>
      .bindUser (m := fun c => runImp (renderProg f) (k c).prog stack) (hi f hfu)⟩
  | _, _, _, _, _, .writeString h, he, hp => by
    obtain ⟨hst, hi⟩ := can_doing K h he (hp.2 _)
    exact ⟨hst, .called (.of_eq (.bind (.of (.ctxWrite he _)) (.of .pure)) (by simp)) hi⟩
  | _, _, _, _, _, .writeRaw h, he, hp => by
    obtain ⟨hst, hi⟩ := can_doing K h he (hp.2 _)
    exact ⟨hst, .called (.of_eq (.bind (.of (.ctxWrite he _)) (.of .pure)) (by simp)) hi⟩
  | _, _, _, _, _, @PlaysDoing.writeNodes _ ns k stack c w c1 w' c2 h hs, he, hp => by
    have hc := can_nodes K h he (wfAll_contentNodes fun n hn => hp.1 ns n rfl hn)
    obtain ⟨hst, hi⟩ := can_doing K hs (hc.steps.1 he) (hp.2 _)
    exact ⟨hc.steps.trans hst, .called (.of_eq (.bind (.ignoreLoop _ hc) (.of .pure)) (by simp)) hi⟩
  | _, _, _, _, _, @PlaysDoing.startVoid _ n attrs k stack c w c1 h, he, hp => by
    have hst := step_start K n attrs c
    obtain ⟨hst2, hi⟩ := can_doing K h (hst.1 he) (hp.2 _)
    exact ⟨hst.trans hst2, .called (.of_eq (.bind (.of (.startTag he n attrs)) (.of .pure)) (by simp)) hi⟩
  | _, _, _, _, _, @PlaysDoing.start _ n attrs k stack c w c1 h, he, hp => by
    have hst := step_start K n attrs c
    obtain ⟨hst2, hi⟩ := can_doing K h (hst.1 he) (hp.2 _)
    exact ⟨hst.trans hst2, .called (.of_eq (.bind (.of (.startTag he n attrs)) (.of .pure)) (by simp)) hi⟩
  | _, _, _, _, _, .endNone h, he, hp => by
    obtain ⟨hst, hi⟩ := can_doing K h he (hp.2 _)
    exact ⟨hst, .called (w := []) (.of .pure) hi⟩
  | _, _, _, _, _, .endSome h, he, hp => by
    obtain ⟨hst, hi⟩ := can_doing K h he (hp.2 _)
    exact ⟨hst, .called (.of_eq (.bind (.of (.renderEndTag he _)) (.of .pure)) (by simp)) hi⟩
  | _, _, _, _, _, .endAll h, he, hp => by
    obtain ⟨hst, hi⟩ := can_doing K h he (hp.2 _)
    exact ⟨hst, .called (.of_eq (.bind (.of (.endAll he _)) (.of .pure)) (by simp)) hi⟩
end

end

/-- An environment with a healthy writer, functions `F`, and the given orders. -/
noncomputable def envOfEffects (F : Effects) (os : List (List Bytes)) : Env where
  write _ d := (d.length, none)
  dyn f s := ((F.dyn f s.toCtx).1, { s with toCtx := (F.dyn f s.toCtx).2 })
  cond f s := ((F.cond f s.toCtx).1, { s with toCtx := (F.cond f s.toCtx).2 })
  collect f s := ((F.collect f s.toCtx).1, { s with toCtx := (F.collect f s.toCtx).2 })
  items f s := ((F.items f s.toCtx).1, { s with toCtx := (F.items f s.toCtx).2 })
  yields f s := (F.yields f s.toCtx).prog
  imp f s := (F.imp f s.toCtx).prog
  order t ks := open Classical in if (os[t]?.getD ks).Perm ks then os[t]?.getD ks else ks
  order_perm t ks := by
    split
    · assumption
    · exact .refl _

theorem live_envOfEffects {F : Effects} (K : Calm F) (os : List (List Bytes)) : LiveCalls (envOfEffects F os) F where
  healthy _ _ := rfl
  acts :=
    ⟨fun _ _ => rfl, fun _ _ => rfl, fun _ _ => rfl, fun _ _ => rfl, fun _ _ => offers_prog _, fun _ _ => performs_prog _⟩
  calm := K
  calls _ _ := rfl
  yielded _ _ := rfl

/-- Whatever `Plays` allows is done by some run. -/
theorem run_of_plays {F : Effects} (K : Calm F) {n : Node} (wf : WF n) {c c' : Ctx} {w : Bytes}
    (he : c.frame.err = none) (h : Plays F n c w c') :
    ∃ env, Live env F ∧ ∃ fuel s s', s.toCtx = c ∧ render env fuel n s = some (none, s') ∧ s'.out = s.out ++ w ∧
      s'.toCtx = c' := by
  obtain ⟨f, hf⟩ := (can_node K h he wf).2
  obtain ⟨os, h⟩ := hf f (Nat.le_refl _)
  obtain ⟨s', h1, h2, h3, -⟩ := h (envOfEffects F os) ⟨c, [], 0⟩ (live_envOfEffects K os) rfl (by
    intro i o hi ks hk
    simp [envOfEffects, hi, hk.symm])
  exact ⟨_, (live_envOfEffects K os).toLive, f, ⟨c, [], 0⟩, s', rfl, h1, h3, h2⟩

end Aitch
