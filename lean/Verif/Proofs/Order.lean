import Verif.Proofs.Refine
import Verif.Spec.Order
/-
Rendering with side effects follows the document order.
-/
namespace Aitch
open Spec

/-- `m` started in `c` writes `w`, returns `r` and ends in `c'`. -/
def D {α} (env : Env) (c : Ctx) (m : Prog α) (r : α) (w : Bytes) (c' : Ctx) : Prop :=
  Tr env c m (fun r' c2 w' => r' = r ∧ c2 = c' ∧ w' = w)

theorem E.toD {α} {env : Env} {c : Ctx} {m : Prog α} {r : α} {w : Bytes} (h : E env c m r w) : D env c m r w c := h

theorem D.pure {α} {env : Env} {c : Ctx} {a : α} : D env c (Pure.pure a) a [] c := E.pure

theorem D.bind {α β} {env : Env} {c c1 c2 : Ctx} {m : Prog α} {f : α → Prog β} {a : α} {r : β} {w1 w2 : Bytes}
    (hm : D env c m a w1 c1) (hf : D env c1 (f a) r w2 c2) : D env c (m >>= f) r (w1 ++ w2) c2 := by
  refine Tr.bind hm ?_
  rintro a' c' w' ⟨rfl, rfl, rfl⟩
  exact hf.conseq fun r c' w ⟨h1, h2, h3⟩ => ⟨h1, h2, by rw [h3]⟩

theorem D.bindTr {α β} {env : Env} {c c1 : Ctx} {m : Prog α} {f : α → Prog β} {a : α} {w1 : Bytes}
    {Q : β → Ctx → Bytes → Prop}
    (hm : D env c m a w1 c1) (hf : Tr env c1 (f a) (fun r c' w => Q r c' (w1 ++ w))) : Tr env c (m >>= f) Q := by
  refine Tr.bind hm ?_
  rintro a' c' w' ⟨rfl, rfl, rfl⟩
  exact hf

theorem D.of_eq {α} {env : Env} {c c' : Ctx} {m : Prog α} {r : α} {w w' : Bytes} (h : D env c m r w c')
    (e : w = w') : D env c m r w' c' := e ▸ h

/-- Everything the theorems below assume. -/
structure Live (env : Env) (F : Effects) : Prop where
  healthy : Healthy env
  acts : Acts env F
  calm : Calm F

/-! No error appears, the parents stay. -/

/-- From an error-free context to an error-free one with the same parents. -/
def Step (c c' : Ctx) : Prop := (c.frame.err = none → c'.frame.err = none) ∧ c'.parents = c.parents

theorem Step.refl (c : Ctx) : Step c c := ⟨id, rfl⟩
theorem Step.trans {a b c : Ctx} (h : Step a b) (h' : Step b c) : Step a c :=
  ⟨fun x => h'.1 (h.1 x), h'.2.trans h.2⟩
theorem step_within {upd : Ctx → Ctx} (h : Quiet upd) (c : Ctx) : Step c (within c (upd c)) := ⟨h c, rfl⟩

section
variable {F : Effects} (K : Calm F)
include K

theorem step_dyn (d : Dyn) (c : Ctx) : Step c (playDyn F c d).2 := by
  cases d with
  | user f => exact step_within (K.dyn f) c
  | key k => exact Step.refl c
  | cargo => exact Step.refl c

set_option linter.unusedSectionVars false in
mutual
theorem step_value : (v : Value) → (c : Ctx) → Step c (playValue F v c).2
  | .mk _ (some d) _, c => by simp only [playValue]; exact step_dyn K d c
  | .mk v none [], c => by simp only [playValue]; exact Step.refl c
  | .mk _ none (x :: xs), c => by
    simp only [playValue]
    exact (step_value x c).trans (step_values xs _)
theorem step_values : (vs : List Value) → (c : Ctx) → Step c (playValues F vs c).2
  | [], c => by simp only [playValues]; exact Step.refl c
  | x :: xs, c => by
    simp only [playValues]
    exact (step_value x c).trans (step_values xs _)
end

theorem step_delim (d : Bytes) : (vs : List Value) → (c : Ctx) → Step c (playDelim F d vs c).2
  | [], c => by simp only [playDelim]; exact Step.refl c
  | [v], c => by simp only [playDelim]; exact step_value K v c
  | v :: v' :: vs, c => by
    simp only [playDelim]
    exact (step_value K v c).trans (step_delim d (v' :: vs) _)

theorem step_attr (a : Attr) (c : Ctx) : Step c (playAttr F a c).2 := by
  cases a with
  | plain n vs => exact step_values K vs c
  | bool n => exact Step.refl c
  | delim n d r => exact step_delim K d _ c

theorem step_merged (p : Attr × List Attr) (c : Ctx) : Step c (playMerged F p c).2 := by
  obtain ⟨a, more⟩ := p
  cases more with
  | nil => exact step_attr K a c
  | cons e es =>
    cases a with
    | plain n vs => exact step_attr K _ c
    | bool n => exact step_attr K _ c
    | delim n d r => exact step_delim K d _ c

omit K in
theorem step_list {α} {f : α → Ctx → Bytes × Ctx} (h : ∀ x c, Step c (f x c).2) (l : List α) (c : Ctx) :
    Step c (playList f l c).2 := by
  induction l generalizing c with
  | nil => exact Step.refl c
  | cons x xs ih => exact (h x c).trans (ih _)

theorem step_cond (k : Cond) (c : Ctx) : Step c (playCond F k c).2 := by
  cases k with
  | user f => exact step_within (K.cond f) c
  | has k => exact Step.refl c
  | hasNot k => exact Step.refl c

theorem step_conds (ks : List Cond) (c : Ctx) : Step c (playConds F ks c).2 := by
  induction ks generalizing c with
  | nil => exact Step.refl c
  | cons k ks ih =>
    simp only [playConds]
    split
    · exact (step_cond K k c).trans (ih _)
    · exact step_cond K k c

theorem step_active (as : List CondAttr) (c : Ctx) : Step c (playActive F as c).2 := by
  induction as generalizing c with
  | nil => exact Step.refl c
  | cons a as ih => exact (step_conds K _ c).trans (ih _)

theorem step_items (fn : ItemSrc) (c : Ctx) : Step c (playItems F fn c).2 := by
  cases fn with
  | user f => exact step_within (K.items f) c
  | key k => exact Step.refl c

theorem step_started (p : Bytes × Option (List Value)) (c : Ctx) : Step c (playStarted F p c).2 := by
  obtain ⟨n, _ | vs⟩ := p
  · exact Step.refl c
  · exact step_values K vs c

theorem step_start (n : Bytes) (attrs : List (Option Node)) (c : Ctx) : Step c (playStart F n attrs c).2 :=
  step_list (step_started K) _ c

end

section
variable {env : Env} {F : Effects} {c : Ctx}

theorem d_dyn (L : Live env F) (f : FnId) : D env c (Do.dyn f) (F.dyn f c).1 [] (within c (F.dyn f c).2) := by
  refine Tr.step fun s hs => ⟨[], ?_, Tr.pure ?_⟩
  · simp [Action.run, L.acts.dyn, St.confine, St.out]
  · subst hs; simp [Action.run, L.acts.dyn, St.confine, within]

theorem d_cond (L : Live env F) (f : FnId) : D env c (Do.cond f) (F.cond f c).1 [] (within c (F.cond f c).2) := by
  refine Tr.step fun s hs => ⟨[], ?_, Tr.pure ?_⟩
  · simp [Action.run, L.acts.cond, St.confine, St.out]
  · subst hs; simp [Action.run, L.acts.cond, St.confine, within]

theorem d_collect (L : Live env F) (f : FnId) :
    D env c (Do.collect f) (F.collect f c).1 [] (within c (F.collect f c).2) := by
  refine Tr.step fun s hs => ⟨[], ?_, Tr.pure ?_⟩
  · simp [Action.run, L.acts.collect, St.confine, St.out]
  · subst hs; simp [Action.run, L.acts.collect, St.confine, within]

theorem d_items (L : Live env F) (f : FnId) :
    D env c (Do.items f) (F.items f c).1 [] (within c (F.items f c).2) := by
  refine Tr.step fun s hs => ⟨[], ?_, Tr.pure ?_⟩
  · simp [Action.run, L.acts.items, St.confine, St.out]
  · subst hs; simp [Action.run, L.acts.items, St.confine, within]

theorem tr_yields (L : Live env F) (f : FnId) :
    Tr env c (Do.yields f) (fun p c' w => Offers p (F.yields f c) ∧ c' = c ∧ w = []) := by
  refine Tr.step fun s hs => ⟨[], ?_, Tr.pure ⟨?_, ?_, ?_⟩⟩
  · simp [Action.run]
  · simpa [Action.run, hs] using L.acts.yields f s
  · simpa [Action.run] using hs
  · simp

theorem tr_imp (L : Live env F) (f : FnId) :
    Tr env c (Do.imp f) (fun p c' w => Performs p (F.imp f c) ∧ c' = c ∧ w = []) := by
  refine Tr.step fun s hs => ⟨[], ?_, Tr.pure ⟨?_, ?_, ?_⟩⟩
  · simp [Action.run]
  · simpa [Action.run, hs] using L.acts.imp f s
  · simpa [Action.run] using hs
  · simp

theorem Tr.user (upd : Ctx → Ctx) :
    Tr env c (Do.user fun s => { s with toCtx := upd s.toCtx })
      (fun s c' w => s.toCtx = c' ∧ c' = within c (upd c) ∧ w = []) := by
  refine Tr.step fun s hs => ⟨[], ?_, Tr.pure ?_⟩
  · simp [Action.run, St.confine, St.out]
  · subst hs; simp [Action.run, St.confine, within]

theorem d_runDyn (L : Live env F) (d : Dyn) :
    D env c (runDyn d) (playDyn F c d).1 [] (playDyn F c d).2 := by
  cases d with
  | user f => exact d_dyn L f
  | key k =>
    unfold Aitch.runDyn
    refine D.bind (w1 := []) (w2 := []) E.ctx ?_
    simp only [playDyn]
    cases c.lookup k <;> exact E.pure
  | cargo => exact D.bind (w1 := []) (w2 := []) E.ctx E.pure

theorem d_valueWrite (H : Healthy env) (he : c.frame.err = none) (d : Bytes) :
    D env c (valueWrite d) (decide (d ≠ [])) d c := by
  unfold Aitch.valueWrite
  have : decide (d ≠ []) = decide (d.length > 0) := by
    cases d <;> simp
  rw [this]
  exact D.of_eq (D.bind (Tr.write H d) (D.bind (E.setErr he) E.pure)) (by simp)

mutual
theorem d_renderValue (L : Live env F) : (v : Value) → (c : Ctx) → c.frame.err = none →
    D env c (renderValue v) (decide ((playValue F v c).1 ≠ [])) (playValue F v c).1 (playValue F v c).2
  | .mk _ (some d) _, c, he => by
    simp only [Aitch.renderValue, playValue]
    exact D.of_eq (D.bind (d_runDyn L d) (d_valueWrite L.healthy ((step_dyn L.calm d c).1 he) _)) (by simp)
  | .mk value none [], c, he => by
    simp only [Aitch.renderValue, playValue]
    exact d_valueWrite L.healthy he _
  | .mk value none (x :: xs), c, he => by
    simp only [Aitch.renderValue, playValue]
    refine D.bindTr (d_renderValue L x c he) ?_
    refine Tr.bind (tr_playConcats L xs _ ((step_value L.calm x c).1 he) _) ?_
    rintro l c' w ⟨hl, rfl, rfl⟩
    refine Tr.pure ⟨?_, rfl, by simp⟩
    simp only [ne_eq, List.append_eq_nil_iff, decide_eq_decide] at hl ⊢
    rw [hl]
    by_cases hx : (playValue F x c).1 = [] <;> simp [hx]
theorem tr_playConcats (L : Live env F) : (vs : List Value) → (c : Ctx) → c.frame.err = none → (l : Nat) →
    Tr env c (renderConcats vs l)
      (fun r c' w => (r > 0 ↔ l > 0 ∨ (playValues F vs c).1 ≠ []) ∧ c' = (playValues F vs c).2 ∧
        w = (playValues F vs c).1)
  | [], c, he, l => by
    simp only [Aitch.renderConcats, playValues]
    exact Tr.pure (by simp)
  | x :: xs, c, he, l => by
    simp only [Aitch.renderConcats, playValues]
    refine D.bindTr (d_renderValue L x c he) ?_
    refine (tr_playConcats L xs _ ((step_value L.calm x c).1 he) _).conseq ?_
    rintro r c' w ⟨hr, rfl, rfl⟩
    refine ⟨?_, rfl, rfl⟩
    rw [hr]
    by_cases hx : (playValue F x c).1 = [] <;> simp [hx]
end

theorem d_renderValues (L : Live env F) (vs : List Value) (c : Ctx) (he : c.frame.err = none) :
    D env c (renderValues vs) () (playValues F vs c).1 (playValues F vs c).2 := by
  induction vs generalizing c with
  | nil => simp only [Aitch.renderValues, playValues]; exact D.pure
  | cons v vs ih =>
    simp only [Aitch.renderValues, playValues]
    exact D.bind (d_renderValue L v c he) (ih _ ((step_value L.calm v c).1 he))

theorem d_renderDelimValues (L : Live env F) (d : Bytes) (vs : List Value) (b : Bool) (c : Ctx)
    (he : c.frame.err = none) :
    D env c (renderDelimValues d vs b) () ((if b ∧ vs ≠ [] then d else []) ++ (playDelim F d vs c).1)
      (playDelim F d vs c).2 := by
  induction vs generalizing b c with
  | nil => simp only [Aitch.renderDelimValues, playDelim]; exact D.pure.of_eq (by simp)
  | cons v vs ih =>
    simp only [Aitch.renderDelimValues]
    have hd : D env c (Prog.when b (Aitch.ctxWrite d)) () (if b then d else []) c := by
      cases b
      · exact E.pure
      · exact E.ctxWrite L.healthy he d
    cases vs with
    | nil =>
      simp only [playDelim]
      refine D.of_eq (D.bind hd (D.bind (d_renderValue L v c he) (c2 := (playValue F v c).2) (w2 := []) ?_)) ?_
      · exact D.pure
      · cases b <;> simp
    | cons v' vs' =>
      refine D.of_eq (D.bind hd (D.bind (d_renderValue L v c he) (ih _ _ ((step_value L.calm v c).1 he)))) ?_
      simp only [playDelim]
      by_cases hv : (playValue F v c).1 = [] <;> cases b <;> simp [hv]

theorem d_renderDelim (L : Live env F) (n d : Bytes) (vs : List Value) (c : Ctx) (he : c.frame.err = none) :
    D env c (renderDelim n d vs) () (Spec.valued n (playDelim F d vs c)).1 (Spec.valued n (playDelim F d vs c)).2 := by
  have W := fun d => E.ctxWrite (c := c) L.healthy he d
  have W2 := fun d' => E.ctxWrite (c := (playDelim F d vs c).2) L.healthy ((step_delim L.calm d vs c).1 he) d'
  refine D.of_eq (D.bind (W _) (D.bind (W _) (D.bind (W _)
    (D.bind (d_renderDelimValues L d vs false c he) (W2 _))))) ?_
  simp [Shown.bytes, Spec.valued]

theorem d_renderPlain (L : Live env F) (n : Bytes) (vs : List Value) (c : Ctx) (he : c.frame.err = none) :
    D env c (renderPlain n vs) () (Spec.valued n (playValues F vs c)).1 (Spec.valued n (playValues F vs c)).2 := by
  have W := fun d => E.ctxWrite (c := c) L.healthy he d
  have W2 := fun d' => E.ctxWrite (c := (playValues F vs c).2) L.healthy ((step_values L.calm vs c).1 he) d'
  refine D.of_eq (D.bind (W _) (D.bind (W _) (D.bind (W _) (D.bind (d_renderValues L vs c he) (W2 _))))) ?_
  simp [Shown.bytes, Spec.valued]

theorem d_renderAttr (L : Live env F) (a : Attr) (c : Ctx) (he : c.frame.err = none) :
    D env c (renderAttr a) () (playAttr F a c).1 (playAttr F a c).2 := by
  have W := fun d => E.ctxWrite (c := c) L.healthy he d
  cases a with
  | plain n vs => exact d_renderPlain L n vs c he
  | bool n => exact D.of_eq (D.bind (W _) (W _)) rfl
  | delim n d r => exact D.of_eq (D.bind E.ctx (d_renderDelim L n d _ c he)) rfl

theorem d_renderAttrs (L : Live env F) (as : List Attr) (c : Ctx) (he : c.frame.err = none) :
    D env c (renderAttrs as) () (playList (playAttr F) as c).1 (playList (playAttr F) as c).2 := by
  induction as generalizing c with
  | nil => exact E.pure
  | cons a as ih => exact D.bind (d_renderAttr L a c he) (ih _ ((step_attr L.calm a c).1 he))

theorem d_renderChosen (L : Live env F) (a : Attr) (e : Attr) (es : List Attr) (c : Ctx) (he : c.frame.err = none) :
    D env c (renderChosen a (e :: es) ((e :: es).getLast (by simp))) () (playMerged F (a, e :: es) c).1
      (playMerged F (a, e :: es) c).2 := by
  cases a with
  | plain n vs => exact d_renderAttr L _ c he
  | bool n => exact d_renderAttr L _ c he
  | delim n d r => exact D.of_eq (D.bind E.ctx (d_renderDelim L n d _ c he)) rfl

theorem d_renderFirst (L : Live env F) (e : Attr) (es : List Attr) (c : Ctx) (he : c.frame.err = none) :
    D env c (renderChosen e es ((e :: es).getLast (by simp))) () (playMerged F (e, es) c).1
      (playMerged F (e, es) c).2 := by
  cases es with
  | nil =>
    have h0 : playMerged F (e, []) c = playAttr F e c := by simp [playMerged]
    rw [h0]
    cases e with
    | plain n vs => exact d_renderAttr L (.plain n vs) c he
    | bool n => exact d_renderAttr L (.bool n) c he
    | delim n d r =>
      have h1 : renderChosen (.delim n d r) [] ([Attr.delim n d r].getLast (by simp)) = renderAttr (.delim n d r) := by
        simp [renderChosen, renderAttr]
      rw [h1]
      exact d_renderAttr L (.delim n d r) c he
  | cons e' es =>
    have := d_renderChosen L e e' es c he
    simpa using this

theorem d_runCond (L : Live env F) (k : Cond) (c : Ctx) :
    D env c (runCond k) (playCond F k c).1 [] (playCond F k c).2 := by
  cases k with
  | user f => exact d_cond L f
  | has k =>
    refine D.bind (w1 := []) (w2 := []) E.ctx ?_
    simp only [playCond]
    rcases c.lookup k with _ | v
    · exact E.pure
    · cases v
      case bool b => cases b <;> exact E.pure
      all_goals exact E.pure
  | hasNot k =>
    refine D.bind (w1 := []) (w2 := []) E.ctx ?_
    simp only [playCond]
    rcases c.lookup k with _ | v
    · exact E.pure
    · cases v
      case bool b => cases b <;> exact E.pure
      all_goals exact E.pure

theorem d_evalConds (L : Live env F) (ks : List Cond) (c : Ctx) :
    D env c (evalConds ks) (playConds F ks c).1 [] (playConds F ks c).2 := by
  induction ks generalizing c with
  | nil => exact E.pure
  | cons k ks ih =>
    refine D.bind (w1 := []) (w2 := []) (d_runCond L k c) ?_
    simp only [playConds]
    split
    · exact ih _
    · exact E.pure

theorem d_evaluate (L : Live env F) (cas : List CondAttr) (acc : List (Bytes × List Attr)) (c : Ctx) :
    D env c (evaluate cas acc) (groupInto acc (playActive F cas c).1) [] (playActive F cas c).2 := by
  induction cas generalizing acc c with
  | nil => exact E.pure
  | cons ca cas ih =>
    simp only [Aitch.evaluate, playActive]
    refine D.bind (w1 := []) (w2 := []) (d_evalConds L ca.conditions c) ?_
    cases h : (playConds F ca.conditions c).1
    · exact ih acc _
    · exact ih _ _

theorem d_renderStatic (L : Live env F) {h : ElemHead} (wf : WFHead h) (act : List Attr)
    {a : Attr} (ha : a ∈ h.attributes) (c : Ctx) (he : c.frame.err = none) :
    D env c (renderStatic h (groupInto [] act) a.name) () (playMerged F (a, named a.name act) c).1
      (playMerged F (a, named a.name act) c).2 := by
  obtain ⟨i, hi, hg⟩ := wf_lookup wf ha
  simp only [Aitch.renderStatic, hi, hg, lookup_group]
  cases hn : named a.name act with
  | nil =>
    simp only [playMerged]
    exact d_renderAttr L a c he
  | cons e es =>
    have h3 : (e :: es).getLast?.getD a = (e :: es).getLast (by simp) := by
      rw [List.getLast?_eq_some_getLast (by simp)]; rfl
    have h2 := d_renderChosen L a e es c he
    rw [← h3] at h2
    exact h2

theorem d_renderStatics (L : Live env F) {h : ElemHead} (wf : WFHead h) (act : List Attr)
    (as : List Attr) (ha : ∀ a ∈ as, a ∈ h.attributes) (c : Ctx) (he : c.frame.err = none) :
    D env c (renderStatics h (groupInto [] act) (as.map Attr.name)) ()
      (playList (playMerged F) (as.map fun a => (a, named a.name act)) c).1
      (playList (playMerged F) (as.map fun a => (a, named a.name act)) c).2 := by
  induction as generalizing c with
  | nil => exact E.pure
  | cons a as ih =>
    simp only [List.map_cons, Aitch.renderStatics, playList]
    exact D.bind (d_renderStatic L wf act (ha a (by simp)) c he)
      (ih (fun x hx => ha x (by simp [hx])) _ ((step_merged L.calm _ c).1 he))

/-- The declarations of one name that is only declared conditionally. -/
def extraOf (statics act : List Attr) (n : Bytes) : Option (Attr × List Attr) :=
  if n ∈ statics.map Attr.name then none else
    match named n act with
    | [] => none
    | e :: es => some (e, es)

theorem extraDeclarations_eq (statics act : List Attr) :
    extraDeclarations statics act = (distinct (act.map Attr.name)).filterMap (extraOf statics act) := by
  unfold extraDeclarations
  rw [distinct_filter]
  generalize distinct (act.map Attr.name) = l
  induction l with
  | nil => rfl
  | cons x xs ih =>
    by_cases hx : x ∈ statics.map Attr.name
    · rw [List.filter_cons_of_neg (by simpa using hx),
        List.filterMap_cons_none (f := extraOf statics act) (by rw [extraOf, if_pos hx]), ih]
    · rw [List.filter_cons_of_pos (by simpa using hx)]
      simp only [List.filterMap_cons, ih]
      have : extraOf statics act x = (match named x act with | [] => none | e :: es => some (e, es)) := by
        rw [extraOf, if_neg hx]
      rw [this]
      cases named x act <;> rfl

theorem d_renderExtras (L : Live env F) {h : ElemHead} (wf : WFHead h) (act : List Attr)
    (ns : List Bytes) (c : Ctx) (he : c.frame.err = none) :
    D env c (renderExtras h (groupInto [] act) ns) ()
      (playList (playMerged F) (ns.filterMap (extraOf h.attributes act)) c).1
      (playList (playMerged F) (ns.filterMap (extraOf h.attributes act)) c).2 := by
  induction ns generalizing c with
  | nil => exact E.pure
  | cons n ns ih =>
    simp only [Aitch.renderExtras, Aitch.renderExtra]
    by_cases hn : n ∈ h.attributes.map Attr.name
    · obtain ⟨a, ha, rfl⟩ := List.mem_map.mp hn
      obtain ⟨i, hi, hg⟩ := wf_lookup wf ha
      rw [List.filterMap_cons_none (by rw [extraOf, if_pos hn])]
      simp only [hi]
      exact D.of_eq (D.bind D.pure (ih c he)) rfl
    · simp only [wf_lookup_none wf hn, lookup_group]
      cases hm : named n act with
      | nil =>
        rw [List.filterMap_cons_none (by simp [extraOf, hm])]
        exact D.of_eq (D.bind D.pure (ih c he)) rfl
      | cons e es =>
        rw [List.filterMap_cons_some (b := (e, es)) (by simp only [extraOf, if_neg hn, hm])]
        have h3 : (e :: es).getLast?.getD e = (e :: es).getLast (by simp) := by
          rw [List.getLast?_eq_some_getLast (by simp)]; rfl
        have h2 := d_renderFirst L e es c he
        rw [← h3] at h2
        exact D.bind h2 (ih _ ((step_merged L.calm _ c).1 he))

theorem playList_append {α} (f : α → Ctx → Bytes × Ctx) (l l' : List α) (c : Ctx) :
    playList f (l ++ l') c =
      ((playList f l c).1 ++ (playList f l' (playList f l c).2).1, (playList f l' (playList f l c).2).2) := by
  induction l generalizing c with
  | nil => rfl
  | cons x xs ih => simp only [List.cons_append, playList, ih, List.append_assoc]

/-- The attributes of a tag. -/
def PlaysAttrs (F : Effects) (h : ElemHead) (c : Ctx) (w : Bytes) (c' : Ctx) : Prop :=
  PlaysTag F h c (b%"<" ++ h.name ++ w ++ b%">") c'

theorem tr_playAttributes (L : Live env F) {h : ElemHead} (wf : WFHead h) (c : Ctx) (he : c.frame.err = none) :
    Tr env c (renderAttributes h) (fun _ c' w => Step c c' ∧ PlaysAttrs F h c w c') := by
  unfold Aitch.renderAttributes
  have hact := step_active L.calm h.conditionals c
  have plain : (playActive F h.conditionals c).1 = [] → Tr env (playActive F h.conditionals c).2
      (renderAttrs h.attributes) (fun _ c' w => Step c c' ∧ PlaysAttrs F h c w c') := by
    intro ha
    refine Tr.conseq (d_renderAttrs L h.attributes _ (hact.1 he)) ?_
    rintro r c' w ⟨_, rfl, rfl⟩
    refine ⟨hact.trans (step_list (step_attr L.calm) _ _), ?_⟩
    unfold PlaysAttrs PlaysTag
    generalize playActive F h.conditionals c = p at ha ⊢
    obtain ⟨act, c1⟩ := p
    simp only at ha
    simp [ha]
  by_cases hc : h.conditionals.length > 0
  · rw [if_pos hc]
    refine D.bindTr (d_evaluate L h.conditionals [] c) ?_
    have hk := keys_group (playActive F h.conditionals c).1
    by_cases ha : (playActive F h.conditionals c).1 = []
    · rw [ha]
      simp only [groupInto, List.foldl_nil, List.length_nil, gt_iff_lt, Nat.lt_irrefl, if_false, List.nil_append]
      exact plain ha
    · have hlen : (groupInto [] (playActive F h.conditionals c).1).length > 0 := by
        have : ((groupInto [] (playActive F h.conditionals c).1).map (·.1)).length > 0 := by
          rw [hk]
          cases hx : (playActive F h.conditionals c).1 with
          | nil => exact absurd hx ha
          | cons a as => simp [distinct]
        simpa using this
      rw [if_pos hlen]
      refine Tr.bind (Tr.order _) ?_
      rintro names c1 w1 ⟨hp, rfl, rfl⟩
      rw [wf_keys wf] at hp
      obtain ⟨as', has', rfl⟩ := exists_perm_map _ _ _ hp
      refine D.bindTr (d_renderStatics L wf _ as' (fun a h => has'.mem_iff.mp h) _ (hact.1 he)) ?_
      refine Tr.bind (Tr.order _) ?_
      rintro names c2 w2 ⟨hp2, rfl, rfl⟩
      rw [hk] at hp2
      have hst := step_list (step_merged L.calm)
        (as'.map fun a => (a, named a.name (playActive F h.conditionals c).1)) (playActive F h.conditionals c).2
      refine Tr.conseq (d_renderExtras L wf _ names _ (hst.1 (hact.1 he))) ?_
      rintro r c' w ⟨_, rfl, rfl⟩
      refine ⟨hact.trans (hst.trans (step_list (step_merged L.calm) _ _)), ?_⟩
      unfold PlaysAttrs PlaysTag
      generalize playActive F h.conditionals c = p at ha hp2 ⊢
      obtain ⟨act, c1⟩ := p
      simp only at ha hp2
      simp only [ha, if_false]
      refine ⟨as'.map fun a => (a, named a.name act), names.filterMap (extraOf h.attributes act), has'.map _, ?_, ?_⟩
      · rw [extraDeclarations_eq]
        exact hp2.filterMap _
      · rw [playList_append]
        simp
  · rw [if_neg hc]
    have hnil : h.conditionals = [] := by
      cases hx : h.conditionals with
      | nil => rfl
      | cons a as => rw [hx] at hc; simp at hc
    have h1 : (playActive F h.conditionals c).1 = [] := by rw [hnil]; rfl
    have h2 : (playActive F h.conditionals c).2 = c := by rw [hnil]; rfl
    have := plain h1
    rw [h2] at this
    exact this

theorem tr_playStartTag (L : Live env F) {h : ElemHead} (wf : WFHead h) (c : Ctx) (he : c.frame.err = none) :
    Tr env c (renderStartTag h) (fun _ c' w => Step c c' ∧ PlaysTag F h c w c') := by
  have W := fun d => E.ctxWrite (c := c) L.healthy he d
  refine D.bindTr (W _) (D.bindTr (W _) (Tr.bind (tr_playAttributes L wf c he) ?_))
  rintro _ c' w ⟨hst, hp⟩
  refine Tr.conseq (E.ctxWrite L.healthy (hst.1 he) _) ?_
  rintro _ c1 w1 ⟨_, rfl, rfl⟩
  refine ⟨hst, ?_⟩
  unfold PlaysAttrs at hp
  simpa using hp

theorem e_endTag (H : Healthy env) (he : c.frame.err = none) (n : Bytes) :
    E env c (renderEndTag n) () (endBytes n) := by
  have W := fun d => E.ctxWrite (c := c) H he d
  exact E.of_eq (E.bind (W _) (E.bind (W _) (W _))) (by simp [endBytes])

theorem e_endTags (H : Healthy env) (he : c.frame.err = none) (stack : List Bytes) :
    E env c (endAll stack) () (stack.flatMap endBytes) := by
  induction stack with
  | nil => exact E.pure
  | cons n ns ih => exact E.bind (e_endTag H he n) ih

/-! Nodes -/

/-- What is to be shown of the recursive calls. -/
def RecPlays (env : Env) (F : Effects) (rec : Render) : Prop :=
  ∀ n c, WF n → c.frame.err = none →
    Tr env c (rec n) (fun e c' w => e = none ∧ Step c c' ∧ Plays F n c w c')

theorem tr_playContent {rec : Render} (R : RecPlays env F rec) (ns : List Node) (hw : WFAll ns) (c : Ctx)
    (he : c.frame.err = none) :
    Tr env c (contentLoop rec ns) (fun _ c' w => Step c c' ∧ PlaysAll F ns c w c') := by
  induction ns generalizing c with
  | nil => exact Tr.pure ⟨Step.refl c, .nil⟩
  | cons n ns ih =>
    refine Tr.bind (R n c hw.1 he) ?_
    rintro e c1 w ⟨rfl, hst, ho⟩
    refine E.bindTr (E.setErr (hst.1 he)) ?_
    refine Tr.conseq (ih hw.2 c1 (hst.1 he)) ?_
    rintro _ c2 w2 ⟨hst2, hos⟩
    exact ⟨hst.trans hst2, .cons ho hos⟩

theorem tr_playConditional {rec : Render} (R : RecPlays env F rec) (ns : List Node) (hw : WFAll ns) (c : Ctx)
    (he : c.frame.err = none) :
    Tr env c (conditionalLoop rec ns) (fun _ c' w => Step c c' ∧ PlaysAll F ns c w c') := by
  induction ns generalizing c with
  | nil => exact Tr.pure ⟨Step.refl c, .nil⟩
  | cons n ns ih =>
    refine Tr.bind (R n c hw.1 he) ?_
    rintro e c1 w ⟨rfl, hst, ho⟩
    refine E.bindTr (E.setErr (hst.1 he)) ?_
    refine Tr.conseq (ih hw.2 c1 (hst.1 he)) ?_
    rintro _ c2 w2 ⟨hst2, hos⟩
    exact ⟨hst.trans hst2, .cons ho hos⟩

theorem tr_playCollection {rec : Render} (R : RecPlays env F rec) (ns : List Node) (hw : WFAll ns) (c : Ctx)
    (he : c.frame.err = none) :
    Tr env c (collectionLoop rec ns)
      (fun _ c' w => Step c c' ∧ PlaysAll F (ns.filter fun n => !n.isAttr) c w c') := by
  induction ns generalizing c with
  | nil => exact Tr.pure ⟨Step.refl c, .nil⟩
  | cons n ns ih =>
    unfold Aitch.collectionLoop
    by_cases ha : n.isAttr = true
    · rw [if_pos ha, List.filter_cons_of_neg (by simp [ha])]
      exact ih hw.2 c he
    · rw [if_neg ha, List.filter_cons_of_pos (by simp [ha])]
      refine Tr.bind (R n c hw.1 he) ?_
      rintro e c1 w ⟨rfl, hst, ho⟩
      refine E.bindTr (E.setErr (hst.1 he)) ?_
      refine Tr.conseq (ih hw.2 c1 (hst.1 he)) ?_
      rintro _ c2 w2 ⟨hst2, hos⟩
      exact ⟨hst.trans hst2, .cons ho hos⟩

theorem tr_playIgnore {rec : Render} (R : RecPlays env F rec) (ns : List (Option Node))
    (hw : ∀ n, some n ∈ ns → WF n) (c : Ctx) (he : c.frame.err = none) :
    Tr env c (ignoreLoop rec ns) (fun _ c' w => Step c c' ∧ PlaysAll F (contentNodes ns) c w c') := by
  induction ns generalizing c with
  | nil => exact Tr.pure ⟨Step.refl c, .nil⟩
  | cons o ns ih =>
    have ih := ih fun n h => hw n (by simp [h])
    cases o with
    | none => exact ih c he
    | some n =>
      unfold Aitch.ignoreLoop
      by_cases ha : n.isAttr = true
      · rw [if_pos ha]
        have : contentNodes (some n :: ns) = contentNodes ns := by simp [contentNodes, ha]
        rw [this]
        exact ih c he
      · rw [if_neg ha]
        have : contentNodes (some n :: ns) = n :: contentNodes ns := by simp [contentNodes, ha]
        rw [this]
        refine Tr.bind (R n c (hw n (by simp)) he) ?_
        rintro e c1 w ⟨rfl, hst, ho⟩
        refine Tr.conseq (ih c1 (hst.1 he)) ?_
        rintro _ c2 w2 ⟨hst2, hos⟩
        exact ⟨hst.trans hst2, .cons ho hos⟩

theorem tr_playDocument {rec : Render} (R : RecPlays env F rec) (ns : List Node) (hw : WFAll ns) (c : Ctx)
    (he : c.frame.err = none) :
    Tr env c (documentLoop rec ns) (fun _ c' w => Step c c' ∧ PlaysAll F ns c w c') := by
  induction ns generalizing c with
  | nil => exact Tr.pure ⟨Step.refl c, .nil⟩
  | cons n ns ih =>
    refine Tr.bind (R n c hw.1 he) ?_
    rintro e c1 w ⟨rfl, hst, ho⟩
    refine Tr.conseq (ih hw.2 c1 (hst.1 he)) ?_
    rintro _ c2 w2 ⟨hst2, hos⟩
    exact ⟨hst.trans hst2, .cons ho hos⟩

theorem tr_playNodes {rec : Render} (R : RecPlays env F rec) (ns : List Node) (hw : WFAll ns) (c : Ctx)
    (he : c.frame.err = none) :
    Tr env c (iterNodes rec ns) (fun e c' w => e = none ∧ Step c c' ∧ PlaysAll F ns c w c') := by
  induction ns generalizing c with
  | nil => exact Tr.pure ⟨rfl, Step.refl c, .nil⟩
  | cons n ns ih =>
    refine Tr.bind (R n c hw.1 he) ?_
    rintro e c1 w ⟨rfl, hst, ho⟩
    refine Tr.conseq (ih hw.2 c1 (hst.1 he)) ?_
    rintro _ c2 w2 ⟨rfl, hst2, hos⟩
    exact ⟨rfl, hst.trans hst2, .cons ho hos⟩

theorem tr_playItemsLoop {rec : Render} (R : RecPlays env F rec) (ns : List Node) (hw : WFAll ns)
    (d : Option MapId) : (items : List Any) → (c : Ctx) → (fr : Frame) → fr.err = none →
    Tr env (below c fr) (iterItems rec ns d items)
      (fun e c' w => e = none ∧ ∃ c1 fr', c' = below c1 fr' ∧ c1.frame = c.frame ∧ c1.parents = c.parents ∧
        PlaysItems F ns d items c fr w c1 fr')
  | [], c, fr, _ => Tr.pure ⟨rfl, c, fr, rfl, rfl, rfl, .nil⟩
  | it :: its, c, fr, he => by
    unfold Aitch.iterItems
    refine Tr.bind (Tr.setItem _ _) ?_
    rintro _ c1 w1 ⟨hc1, rfl⟩
    have hc : c1 = itemCtx c fr it (itemData d it) := by
      rw [hc1]
      unfold below itemCtx
      cases it <;> simp [itemData]
    subst hc
    refine Tr.bind (tr_playNodes R ns hw _ he) ?_
    rintro e c2 w2 ⟨rfl, hst, ho⟩
    have hb : c2 = below (backTo c c2) c2.frame := by
      unfold below backTo
      have hp : c2.parents = c.frame :: c.parents := hst.2
      cases c2
      simp only at hp
      simp [hp]
    have hl := tr_playItemsLoop R ns hw d its (backTo c c2) c2.frame (hst.1 he)
    rw [← hb] at hl
    refine Tr.conseq hl ?_
    rintro e c3 w3 ⟨rfl, c4, fr', hb4, hf, hpa, hos⟩
    exact ⟨rfl, c4, fr', hb4, hf, hpa, by simpa using PlaysItems.cons ho hos⟩

theorem d_runItems (L : Live env F) (fn : ItemSrc) (c : Ctx) :
    D env c (runItems fn) (playItems F fn c).1 [] (playItems F fn c).2 := by
  cases fn with
  | user f => exact d_items L f
  | key k => exact D.bind (w1 := []) (w2 := []) E.ctx E.pure

theorem tr_playIterator (L : Live env F) {rec : Render} (R : RecPlays env F rec)
    (ns : List Node) (hw : WFAll ns) (fn : ItemSrc) (c : Ctx) (he : c.frame.err = none) :
    Tr env c (renderIterator rec ns fn) (fun e c' w => e = none ∧ Step c c' ∧ Plays F (.iterator ns fn) c w c') := by
  unfold Aitch.renderIterator
  refine E.bindTr E.ctx ?_
  simp only [he]
  have hst := step_items L.calm fn c
  refine D.bindTr (d_runItems L fn c) ?_
  cases hi : (playItems F fn c).1 with
  | nil =>
    refine Tr.pure ⟨rfl, hst, .iterator (fr := { err := none, data := none, cargo := .nil }) ?_⟩
    rw [hi]
    exact .nil
  | cons it its =>
    refine E.bindTr E.ctx ?_
    refine Tr.bind (Tr.enter _) ?_
    rintro _ c1 w1 ⟨rfl, rfl⟩
    have he' := hst.1 he
    refine Tr.bind (tr_playItemsLoop R ns hw _ (it :: its) (playItems F fn c).2 _ he') ?_
    rintro e c2 w2 ⟨rfl, c3, frL, rfl, hf, hpa, ho⟩
    refine Tr.bind (Tr.leave rfl) ?_
    rintro fr0 c4 w4 ⟨_, rfl, rfl⟩
    refine Tr.pure ⟨rfl, ?_, ?_⟩
    · refine hst.trans ⟨fun h => ?_, ?_⟩
      · simp only; rw [hf]; exact h
      · exact hpa
    · refine .iterator (fr := frL) ?_
      rw [hi]
      rw [he'] at ho
      simpa [below] using ho

theorem tr_playYields (L : Live env F) {rec : Render} (R : RecPlays env F rec) (ns : List Node) (hw : WFAll ns)
    {pr : YieldProg} {y : Yielding} (ho : Offers pr y) (hy : y.Calm) (c : Ctx) (he : c.frame.err = none) (fr : Frame)
    (hf : fr.err = none) :
    Tr env c (runYield rec ns pr fr) (fun _ c' w => Step c c' ∧ PlaysYields F ns y c fr w c') := by
  induction ho generalizing c fr with
  | done => exact Tr.pure ⟨Step.refl c, .done⟩
  | @act upd k k' _ ih =>
    unfold Aitch.runYield
    refine Tr.bind (Tr.user upd) ?_
    rintro s c1 w1 ⟨hs, rfl, rfl⟩
    have hst := step_within hy.1 c
    refine Tr.conseq (ih s (hy.2 _) _ (hst.1 he) fr hf) ?_
    rintro _ c2 w2 ⟨hst2, ho⟩
    rw [hs] at ho
    exact ⟨hst.trans hst2, .act ho⟩
  | @write d k k' _ ih =>
    unfold Aitch.runYield
    refine E.bindTr (Tr.write L.healthy d) ?_
    refine Tr.bind Tr.look ?_
    rintro s c5 w5 ⟨hs, rfl, rfl⟩
    refine Tr.conseq (ih _ s (hy _) _ he fr hf) ?_
    rintro _ c6 w6 ⟨hst6, hos⟩
    rw [hs] at hos
    exact ⟨hst6, by simpa using PlaysYields.write hos⟩
  | @yield it k k' _ ih =>
    unfold Aitch.runYield
    refine Tr.bind (Tr.enter _) ?_
    rintro _ c1 w1 ⟨rfl, rfl⟩
    refine Tr.bind (Tr.setItem _ _) ?_
    rintro _ c2 w2 ⟨hc2, rfl⟩
    have h2 : c2 = itemCtx c fr it (itemData fr.data it) := by
      rw [hc2]
      unfold itemCtx
      cases it <;> simp [itemData]
    subst h2
    refine Tr.bind (tr_playNodes R ns hw _ hf) ?_
    rintro e c3 w3 ⟨rfl, hst, ho⟩
    refine Tr.bind (Tr.leave (f := c.frame) (fs := c.parents) hst.2) ?_
    rintro fr' c4 w4 ⟨rfl, rfl, rfl⟩
    refine E.bindTr E.pure ?_
    refine Tr.bind Tr.look ?_
    rintro s c5 w5 ⟨hs, rfl, rfl⟩
    have he' : (backTo c c3).frame.err = none := he
    refine Tr.conseq (ih s (hy _) (backTo c c3) he' _ (hst.1 hf)) ?_
    rintro _ c6 w6 ⟨hst6, hos⟩
    rw [hs] at hos
    refine ⟨Step.trans ⟨fun _ => he', rfl⟩ hst6, ?_⟩
    simpa using PlaysYields.yield ho hos

theorem tr_playYieldIterator (L : Live env F) {rec : Render} (R : RecPlays env F rec)
    (ns : List Node) (hw : WFAll ns) (f : FnId) (c : Ctx) (he : c.frame.err = none) :
    Tr env c (renderYield rec ns f)
      (fun e c' w => e = none ∧ Step c c' ∧ Plays F (.yieldIterator ns f) c w c') := by
  unfold Aitch.renderYield
  refine E.bindTr E.ctx ?_
  simp only [he]
  refine Tr.bind (tr_yields L f) ?_
  rintro p c1 w1 ⟨hp, rfl, rfl⟩
  refine Tr.bind (tr_playYields L R ns hw hp (L.calm.yields f _) _ he _ rfl) ?_
  rintro _ c1 w1 ⟨hst, ho⟩
  refine Tr.conseq E.retErr ?_
  rintro e c2 w2 ⟨rfl, rfl, rfl⟩
  exact ⟨hst.1 he, hst, by simpa using Plays.yieldIterator ho⟩

theorem d_startWrite (L : Live env F) (l : List (Bytes × Option (List Value))) (c : Ctx)
    (he : c.frame.err = none) :
    D env c (startWrite l) () (playList (playStarted F) l c).1 (playList (playStarted F) l c).2 := by
  induction l generalizing c with
  | nil => exact E.pure
  | cons p l ih =>
    obtain ⟨n, vs⟩ := p
    unfold Aitch.startWrite
    have W := fun d => E.ctxWrite (c := c) L.healthy he d
    have ih := ih _ ((step_started L.calm (n, vs) c).1 he)
    cases vs with
    | none =>
      refine D.of_eq (D.bind (W _) (D.bind (W _) (D.bind D.pure ih))) ?_
      simp [playList, playStarted, Shown.bytes]
    | some vs =>
      have W2 := fun d' => E.ctxWrite (c := (playValues F vs c).2) L.healthy ((step_values L.calm vs c).1 he) d'
      refine D.of_eq (D.bind (W _) (D.bind (W _) (D.bind (D.bind (W _) (D.bind (d_renderValues L vs c he) (W2 _))) ih))) ?_
      simp [playList, playStarted, Shown.bytes, Spec.valued]

theorem d_startTag (L : Live env F) (n : Bytes) (attrs : List (Option Node)) (c : Ctx)
    (he : c.frame.err = none) :
    D env c (startTag n attrs) () (playStart F n attrs c).1 (playStart F n attrs c).2 := by
  have W := fun d => E.ctxWrite (c := c) L.healthy he d
  have W2 := fun d' => E.ctxWrite (c := (playStart F n attrs c).2) L.healthy
    ((step_start L.calm n attrs c).1 he) d'
  unfold Aitch.startTag
  refine D.of_eq (D.bind (W _) (D.bind (W _) (D.bind E.ctx (D.bind (d_startWrite L _ c he) (W2 _))))) ?_
  simp [playStart]

/-- What an Imperative function does after a step that wrote `w`. -/
theorem tr_playRest {rec : Render} {k : St → ImpProg} {k' : Ctx → Doing} {op : ImpOp} {stack stack' : List Bytes}
    {c1 : Ctx} {w : Bytes} (he : c.frame.err = none) (hst : Step c c1)
    (hk : ∀ s : St, s.toCtx = c1 → Tr env c1 (runImp rec (k s) stack')
      (fun e c' w => e = none ∧ Step c1 c' ∧ PlaysDoing F (k' c1) stack' c1 w c'))
    (hout : ∀ w' c2, PlaysDoing F (k' c1) stack' c1 w' c2 → PlaysDoing F (.call op k') stack c (w ++ w') c2) :
    Tr env c1 (do let s ← Do.look; Aitch.runImp rec (k s) stack')
      (fun e c' w' => e = none ∧ Step c c' ∧ PlaysDoing F (.call op k') stack c (w ++ w') c') := by
  refine Tr.bind Tr.look ?_
  rintro s c2 w1 ⟨hs, hc, rfl⟩
  obtain rfl : c1 = c2 := hc.symm
  refine Tr.conseq (hk s hs) ?_
  rintro e c3 w2 ⟨rfl, hst2, ho⟩
  exact ⟨rfl, hst.trans hst2, by simpa using hout _ _ ho⟩

theorem tr_playDoing (L : Live env F) {rec : Render} (R : RecPlays env F rec) {pr : ImpProg} {p : Doing}
    (hf : Performs pr p) (hp : p.Calm) (stack : List Bytes) (c : Ctx) (he : c.frame.err = none) :
    Tr env c (runImp rec pr stack) (fun e c' w => e = none ∧ Step c c' ∧ PlaysDoing F p stack c w c') := by
  induction hf generalizing stack c with
  | done => exact Tr.pure ⟨rfl, Step.refl c, .done⟩
  | @act upd k k' hk ih =>
    unfold Aitch.runImp
    refine Tr.bind (Tr.user upd) ?_
    rintro s c1 w1 ⟨hs, rfl, rfl⟩
    have hst := step_within hp.1 c
    refine Tr.conseq (ih s (hp.2 _) stack _ (hst.1 he)) ?_
    rintro e c2 w2 ⟨rfl, hst2, ho⟩
    rw [hs] at ho
    exact ⟨rfl, hst.trans hst2, .act ho⟩
  | @render n k k' hn hk ih =>
    unfold Aitch.runImp
    refine Tr.bind (R n c (hp.1 _ n rfl (by simp)) he) ?_
    rintro e c1 w1 ⟨rfl, hst, ho⟩
    refine tr_playRest (k := k none) he hst (fun s hs => ?_) fun w' c2 h => PlaysDoing.writeNodes ?_ h
    · subst hs
      exact ih s (hp.2 _) stack _ (hst.1 he)
    · have : contentNodes [some n] = [n] := by simp [contentNodes, hn]
      rw [this]
      simpa using PlaysAll.cons ho .nil
  | @write d k k' hk ih =>
    unfold Aitch.runImp
    refine E.bindTr (Tr.write L.healthy d) (tr_playRest (k := k (d.length, none)) he (Step.refl c) (fun s hs => ?_)
      fun w' c2 h => PlaysDoing.writeRaw h)
    subst hs
    exact ih _ s (hp.2 _) stack _ he
  | @call op k' k hk ih =>
    have W := fun d => E.ctxWrite (c := c) L.healthy he d
    unfold Aitch.runImp
    -- after the call
    have rest : ∀ (stack' : List Bytes) (c1 : Ctx) (w : Bytes), Step c c1 →
        (∀ w' c2, PlaysDoing F (k c1) stack' c1 w' c2 → PlaysDoing F (.call op k) stack c (w ++ w') c2) →
        Tr env c1 (do let s ← Do.look; Aitch.runImp rec (k' s) stack')
          (fun e c' w' => e = none ∧ Step c c' ∧ PlaysDoing F (.call op k) stack c (w ++ w') c') := by
      intro stack' c1 w hst hout
      refine tr_playRest he hst (fun s hs => ?_) hout
      subst hs
      exact ih s (hp.2 _) stack' _ (hst.1 he)
    cases op with
    | writeString d =>
      exact D.bindTr (D.bind (W _) D.pure) (rest _ _ _ (Step.refl c) fun w c2 h => by
        simpa using PlaysDoing.writeString h)
    | writeRaw d =>
      exact D.bindTr (D.bind (W _) D.pure) (rest _ _ _ (Step.refl c) fun w c2 h => by
        simpa using PlaysDoing.writeRaw h)
    | writeNodes ns =>
      refine Tr.bind (Q1 := fun st c' w => st = stack ∧ Step c c' ∧ PlaysAll F (contentNodes ns) c w c') ?_ ?_
      · refine Tr.bind (tr_playIgnore R ns (fun n h => hp.1 ns n rfl h) c he) ?_
        rintro _ c1 w1 ⟨hst, ho⟩
        exact Tr.pure ⟨rfl, hst, by simpa using ho⟩
      · rintro st c1 w1 ⟨rfl, hst, ho⟩
        exact rest _ _ _ hst fun w c2 h => PlaysDoing.writeNodes ho h
    | start n isVoid attrs =>
      have hst := step_start L.calm n attrs c
      cases isVoid
      · exact D.bindTr (D.bind (d_startTag L n attrs c he) D.pure) (rest _ _ _ hst fun w c2 h => by
          simpa using PlaysDoing.start h)
      · exact D.bindTr (D.bind (d_startTag L n attrs c he) D.pure) (rest _ _ _ hst fun w c2 h => by
          simpa using PlaysDoing.startVoid h)
    | «end» =>
      cases stack with
      | nil => exact D.bindTr E.pure.toD (rest _ _ _ (Step.refl c) fun w c2 h => PlaysDoing.endNone h)
      | cons n st =>
        exact D.bindTr (D.bind (e_endTag L.healthy he n) D.pure) (rest _ _ _ (Step.refl c) fun w c2 h => by
          simpa using PlaysDoing.endSome h)
    | endAll =>
      exact D.bindTr (D.bind (e_endTags L.healthy he stack) D.pure) (rest _ _ _ (Step.refl c) fun w c2 h => by
        simpa using PlaysDoing.endAll h)

theorem recPlays_step (L : Live env F) {rec : Render} (R : RecPlays env F rec) :
    RecPlays env F (renderStep rec) := by
  intro n c hw he
  have W := fun d => E.ctxWrite (c := c) L.healthy he d
  have ret : ∀ {w : Bytes} {n : Node} {c1 : Ctx}, Step c c1 → Plays F n c w c1 →
      Tr env c1 retErr (fun e c' w' => e = none ∧ Step c c' ∧ Plays F n c (w ++ w') c') := by
    intro w n c1 hst ho
    refine Tr.conseq E.retErr ?_
    rintro e c2 w2 ⟨rfl, rfl, rfl⟩
    exact ⟨hst.1 he, hst, by simpa using ho⟩
  have ret' : ∀ {m : Prog Unit} {w : Bytes} {n : Node} {c1 : Ctx}, D env c m () w c1 → Step c c1 →
      Plays F n c w c1 →
      Tr env c (do m; retErr) (fun e c' w' => e = none ∧ Step c c' ∧ Plays F n c w' c') := by
    intro m w n c1 hm hst ho
    exact D.bindTr hm (ret hst ho)
  cases n with
  | element h contents =>
    obtain ⟨hh, hc⟩ : WFHead h ∧ WFAll contents := by simpa [WF] using hw
    unfold Aitch.renderStep
    refine Tr.bind (tr_playStartTag L hh c he) ?_
    rintro _ c1 w1 ⟨hst, hp⟩
    refine Tr.bind (tr_playContent R contents hc c1 (hst.1 he)) ?_
    rintro _ c2 w2 ⟨hst2, hos⟩
    refine E.bindTr (e_endTag L.healthy (hst2.1 (hst.1 he)) _) ?_
    refine Tr.conseq (ret (hst.trans hst2) (.element hp hos)) ?_
    rintro e c' w ⟨h1, h2, h3⟩
    exact ⟨h1, h2, by simpa using h3⟩
  | voidElement h =>
    have hh : WFHead h := by simpa [WF] using hw
    unfold Aitch.renderStep
    refine Tr.bind (tr_playStartTag L hh c he) ?_
    rintro _ c1 w1 ⟨hst, hp⟩
    exact ret hst (.voidElement hp)
  | attr a => exact ret' (d_renderAttr L a c he) (step_attr L.calm a c) .attr
  | text vs => exact ret' (d_renderValues L vs c he) (step_values L.calm vs c) .text
  | fragment vs => exact ret' (d_renderValues L vs c he) (step_values L.calm vs c) .fragment
  | comment vs =>
    have hst := step_values L.calm vs c
    unfold Aitch.renderStep
    refine D.bindTr (W _) (D.bindTr (d_renderValues L vs c he) (E.bindTr (E.ctxWrite L.healthy (hst.1 he) _) ?_))
    refine Tr.conseq (ret hst .comment) ?_
    rintro e c' w ⟨h1, h2, h3⟩
    exact ⟨h1, h2, by simpa using h3⟩
  | pi name vs =>
    have hst := step_values L.calm vs c
    unfold Aitch.renderStep
    refine D.bindTr (W _) (D.bindTr (W _) (D.bindTr (W _) (D.bindTr (d_renderValues L vs c he)
      (E.bindTr (E.ctxWrite L.healthy (hst.1 he) _) ?_))))
    refine Tr.conseq (ret hst (.pi (name := name))) ?_
    rintro e c' w ⟨h1, h2, h3⟩
    exact ⟨h1, h2, by simpa using h3⟩
  | collection ns =>
    unfold Aitch.renderStep
    refine Tr.bind (tr_playCollection R ns (by simpa [WF] using hw) c he) ?_
    rintro _ c1 w1 ⟨hst, ho⟩
    exact ret hst (.collection ho)
  | conditional ns as fn =>
    have hst := step_cond L.calm fn c
    unfold Aitch.renderStep
    refine D.bindTr (d_runCond L fn c) ?_
    cases hb : (playCond F fn c).1
    · refine D.bindTr D.pure (ret hst (.conditionalOff hb))
    · refine Tr.bind (tr_playConditional R ns (by simpa [WF] using hw) _ (hst.1 he)) ?_
      rintro _ c1 w1 ⟨hst2, ho⟩
      exact ret (hst.trans hst2) (.conditionalOn hb ho)
  | collector f =>
    have hst := step_within (L.calm.collect f) c
    unfold Aitch.renderStep
    refine D.bindTr (d_collect L f) ?_
    refine Tr.bind (tr_playIgnore R _ (L.calm.collected f c) _ (hst.1 he)) ?_
    rintro _ c1 w1 ⟨hst2, ho⟩
    exact ret (hst.trans hst2) (.collector ho)
  | imperative o =>
    cases o with
    | none => exact Tr.pure ⟨rfl, Step.refl c, .imperativeNil⟩
    | some f =>
      unfold Aitch.renderStep
      refine Tr.bind (tr_imp L f) ?_
      rintro p c0 w0 ⟨hf, rfl, rfl⟩
      refine Tr.conseq (tr_playDoing L R hf (L.calm.imp f _) [] _ he) ?_
      rintro e c' w ⟨h1, h2, h3⟩
      exact ⟨h1, h2, .imperative h3⟩
  | iterator ns fn => exact tr_playIterator L R ns (by simpa [WF] using hw) fn c he
  | yieldIterator ns f => exact tr_playYieldIterator L R ns (by simpa [WF] using hw) f c he
  | document prologue contents =>
    have hp : WFAll (prologue.toList ++ contents) := by
      cases prologue with
      | none => simpa [WF] using hw
      | some p => simpa [WF, WFAll] using hw
    unfold Aitch.renderStep
    refine Tr.bind (tr_playDocument R _ hp c he) ?_
    rintro _ c1 w1 ⟨hst, ho⟩
    exact ret hst (.document ho)

theorem recPlays (L : Live env F) (fuel : Nat) : RecPlays env F (renderProg fuel) := by
  induction fuel with
  | zero => intro n c _ _; exact Tr.stuck
  | succ fuel ih => exact recPlays_step L ih

end

/-! ### Calls -/

section
variable {F : Effects} {t : Ctx → List FnId}

/-- After the calls `fs`. -/
def Noted (t : Ctx → List FnId) (c c' : Ctx) (fs : List FnId) : Prop := t c' = t c ++ fs ∧ c'.dl = c.dl

theorem Noted.refl (c : Ctx) : Noted t c c [] := ⟨by simp, rfl⟩
theorem Noted.trans {a b c : Ctx} {fs gs : List FnId} (h : Noted t a b fs) (h' : Noted t b c gs) :
    Noted t a c (fs ++ gs) := ⟨by rw [h'.1, h.1, List.append_assoc], h'.2.trans h.2⟩

mutual
theorem noted_value (K : NotesCalls F t) : (v : Value) → (c : Ctx) → Noted t c (playValue F v c).2 (valueCalls v)
  | .mk _ (some (.user f)) _, c => by
    simp only [playValue, valueCalls, playDyn]
    exact ⟨K.note f c, K.dl f c⟩
  | .mk _ (some (.key k)) _, c => by simp only [playValue, valueCalls]; exact Noted.refl c
  | .mk _ (some .cargo) _, c => by simp only [playValue, valueCalls]; exact Noted.refl c
  | .mk _ none [], c => by simp only [playValue, valueCalls, valuesCalls]; exact Noted.refl c
  | .mk _ none (x :: xs), c => by
    simp only [playValue, valueCalls, valuesCalls]
    exact (noted_value K x c).trans (noted_values K xs _)
theorem noted_values (K : NotesCalls F t) : (vs : List Value) → (c : Ctx) →
    Noted t c (playValues F vs c).2 (valuesCalls vs)
  | [], c => by simp only [playValues, valuesCalls]; exact Noted.refl c
  | x :: xs, c => by
    simp only [playValues, valuesCalls]
    exact (noted_value K x c).trans (noted_values K xs _)
end

theorem noted_delim (K : NotesCalls F t) (d : Bytes) : (vs : List Value) → (c : Ctx) →
    Noted t c (playDelim F d vs c).2 (valuesCalls vs)
  | [], c => by simp only [playDelim, valuesCalls]; exact Noted.refl c
  | [v], c => by simp only [playDelim, valuesCalls, List.append_nil]; exact noted_value K v c
  | v :: v' :: vs, c => by
    rw [valuesCalls]
    simp only [playDelim]
    exact (noted_value K v c).trans (noted_delim K d (v' :: vs) _)

theorem noted_attr (K : NotesCalls F t) (a : Attr) (c : Ctx) : Noted t c (playAttr F a c).2 (attrCalls c.dl a) := by
  cases a with
  | plain n vs => exact noted_values K vs c
  | bool n => exact Noted.refl c
  | delim n d r => exact noted_delim K d _ c

theorem noted_attrs (K : NotesCalls F t) (as : List Attr) (c : Ctx) :
    Noted t c (playList (playAttr F) as c).2 (as.flatMap (attrCalls c.dl)) := by
  induction as generalizing c with
  | nil => exact Noted.refl c
  | cons a as ih =>
    have h := noted_attr K a c
    have h2 := ih (playAttr F a c).2
    rw [h.2] at h2
    exact h.trans h2

theorem noted_tag (K : NotesCalls F t) {h : ElemHead} (hc : h.conditionals = []) {c c' : Ctx} {w : Bytes}
    (hp : PlaysTag F h c w c') : Noted t c c' (h.attributes.flatMap (attrCalls c.dl)) := by
  unfold PlaysTag at hp
  simp only [hc, playActive, if_true] at hp
  rw [hp.2]
  exact noted_attrs K _ c

mutual
theorem noted_node (K : NotesCalls F t) : {n : Node} → {c c' : Ctx} → {w : Bytes} → Straight n →
    Plays F n c w c' → Noted t c c' (nodeCalls c.dl n)
  | .element h contents, c, c', _, hs, .element (c1 := c1) hp ho => by
    obtain ⟨hc, hcs⟩ : h.conditionals = [] ∧ StraightAll contents := by simpa [Straight] using hs
    have h1 := noted_tag K hc hp
    have h2 := noted_nodes K hcs ho
    rw [h1.2] at h2
    simp only [nodeCalls]
    exact h1.trans h2
  | .voidElement h, c, c', _, hs, .voidElement hp => by
    simp only [nodeCalls]
    exact noted_tag K (by simpa [Straight] using hs) hp
  | .attr a, c, _, _, _, .attr => by simp only [nodeCalls]; exact noted_attr K a c
  | .text vs, c, _, _, _, .text => by simp only [nodeCalls]; exact noted_values K vs c
  | .comment vs, c, _, _, _, .comment => by simp only [nodeCalls]; exact noted_values K vs c
  | .fragment vs, c, _, _, _, .fragment => by simp only [nodeCalls]; exact noted_values K vs c
  | .pi _ vs, c, _, _, _, .pi => by simp only [nodeCalls]; exact noted_values K vs c
  | .collection ns, c, c', _, hs, .collection ho => by
    simp only [nodeCalls]
    exact noted_content K (by simpa [Straight] using hs) ho
  | .document none contents, c, c', _, hs, .document ho => by
    simp only [nodeCalls]
    exact noted_nodes K (by simpa [Straight] using hs) ho
  | .document (some p) contents, c, c', _, hs, .document (.cons ho hos) => by
    obtain ⟨hp, hcs⟩ : Straight p ∧ StraightAll contents := by simpa [Straight] using hs
    have h1 := noted_node K hp ho
    have h2 := noted_nodes K hcs hos
    rw [h1.2] at h2
    simp only [nodeCalls]
    exact h1.trans h2
  | .conditional _ _ _, _, _, _, hs, _ => by simp [Straight] at hs
  | .collector _, _, _, _, hs, _ => by simp [Straight] at hs
  | .imperative _, _, _, _, hs, _ => by simp [Straight] at hs
  | .iterator _ _, _, _, _, hs, _ => by simp [Straight] at hs
  | .yieldIterator _ _, _, _, _, hs, _ => by simp [Straight] at hs
termination_by structural n => n
theorem noted_nodes (K : NotesCalls F t) : {ns : List Node} → {c c' : Ctx} → {w : Bytes} → StraightAll ns →
    PlaysAll F ns c w c' → Noted t c c' (nodesCalls c.dl ns)
  | [], c, _, _, _, .nil => by simp only [nodesCalls]; exact Noted.refl c
  | n :: ns, c, c', _, hs, .cons ho hos => by
    obtain ⟨hp, hcs⟩ : Straight n ∧ StraightAll ns := by simpa [StraightAll] using hs
    have h1 := noted_node K hp ho
    have h2 := noted_nodes K hcs hos
    rw [h1.2] at h2
    simp only [nodesCalls]
    exact h1.trans h2
termination_by structural ns => ns
theorem noted_content (K : NotesCalls F t) : {ns : List Node} → {c c' : Ctx} → {w : Bytes} → StraightAll ns →
    PlaysAll F (ns.filter fun n => !n.isAttr) c w c' → Noted t c c' (contentCalls c.dl ns)
  | [], c, _, _, _, .nil => by simp only [contentCalls]; exact Noted.refl c
  | n :: ns, c, c', _, hs, ho => by
    obtain ⟨hp, hcs⟩ : Straight n ∧ StraightAll ns := by simpa [StraightAll] using hs
    simp only [contentCalls]
    by_cases ha : n.isAttr = true
    · rw [List.filter_cons_of_neg (by simp [ha])] at ho
      simp only [ha, if_true, List.nil_append]
      exact noted_content K hcs ho
    · rw [List.filter_cons_of_pos (by simp [ha])] at ho
      rw [if_neg ha]
      cases ho with
      | cons ho hos =>
        have h1 := noted_node K hp ho
        have h2 := noted_content K hcs hos
        rw [h1.2] at h2
        exact h1.trans h2
termination_by structural ns => ns
end

end

end Aitch
