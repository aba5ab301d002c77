import Verif.Spec.Checked
import Verif.Proofs.Escape
import Verif.Proofs.Built
import Verif.Proofs.Merge
import Verif.Proofs.Hoare
/-
The code with bounds checks does the same as the code without (lemmas for C99).
-/
namespace Aitch.Checked
open Spec

variable {α β : Type}

/-! ### Expressions in range -/

theorem index_of {l : List α} {i : Nat} {a : α} (h : l[i]? = some a) : index l i = .val a := by
  unfold index; rw [h]

theorem last_of {l : List α} {a : α} (h : l.getLast? = some a) : last l = .val a := by
  have : l ≠ [] := by rintro rfl; simp at h
  unfold last
  rw [if_neg (by simpa using this)]
  exact index_of (by rw [← List.getLast?_eq_getElem?]; exact h)

theorem assign_of {l : List α} {i : Nat} {a : α} (h : i < l.length) : assign l i a = .val (l.set i a) := if_pos h

theorem slice_of {l : List α} {lo hi : Nat} (h1 : lo ≤ hi) (h2 : hi ≤ l.length) :
    slice l lo hi = .val ((l.drop lo).take (hi - lo)) := if_pos ⟨h1, h2⟩

/-! ### Functions without effects -/

theorem escLoop_checked (sb rest : Bytes) (i last : Nat) (buf : Bytes) (h : i + rest.length = sb.length) (hl : last ≤ i) :
    escLoop sb rest i last buf = .val (Aitch.escLoop sb rest i last buf) := by
  induction rest generalizing i last buf with
  | nil =>
    simp only [List.length_nil] at h
    rw [escLoop, slice_of (by omega) (Nat.le_refl _), Aitch.escLoop, Result.bind]
    rw [List.take_of_length_le (by simp)]
  | cons c rest ih =>
    simp only [List.length_cons] at h
    rw [escLoop, Aitch.escLoop]
    cases escEntity c with
    | none => exact ih _ _ _ (by omega) (by omega)
    | some html =>
      simp only
      rw [slice_of hl (by omega), Result.bind]
      exact ih _ _ _ (by omega) (by omega)

theorem htmlEscapeString_checked (s : Bytes) : htmlEscapeString s = .val (Aitch.htmlEscapeString s) := by
  unfold htmlEscapeString Aitch.htmlEscapeString
  split
  · rfl
  · exact escLoop_checked s s 0 0 [] (by simp) (Nat.le_refl _)

theorem nbspsLoop_checked (k idx : Nat) (r : Bytes) (h : idx + nbspBytes.length * k ≤ r.length) :
    nbspsLoop k idx r = .val (Aitch.nbspsLoop k idx r) := by
  induction k generalizing idx r with
  | zero => rfl
  | succ k ih =>
    have h6 : nbspBytes.length = 6 := rfl
    rw [h6] at h
    rw [nbspsLoop, slice_of (by omega) (Nat.le_refl _), Result.bind, Aitch.nbspsLoop]
    have e : r.take idx ++ copyAt ((r.drop idx).take (r.length - idx)) 0 nbspBytes = copyAt r idx nbspBytes := by
      have hx : (r.drop idx).take (r.length - idx) = r.drop idx := List.take_of_length_le (by simp)
      rw [hx]
      unfold copyAt splice
      simp only [List.length_drop, Nat.sub_zero, List.take_zero, List.nil_append, Nat.zero_add, List.drop_drop,
        List.append_assoc]
    rw [e]
    refine ih _ _ ?_
    have : (copyAt r idx nbspBytes).length = r.length := by
      unfold copyAt splice
      simp [h6]; omega
    rw [this, h6]; omega

theorem Nbsps_checked (n : Int) : Nbsps n = .val (Aitch.Nbsps n) := by
  unfold Nbsps Aitch.Nbsps
  split
  · rfl
  · rw [nbspsLoop_checked _ _ _ (by simp)]; rfl

theorem fill_checked (xs done : List Any) (k i : Nat) (r : List Any) (h : i + k = xs.length) (hr : r.length = k)
    (hd : done = xs.take i) : fill xs k i (done ++ r) = .val xs := by
  induction k generalizing i r done with
  | zero =>
    have : r = [] := List.length_eq_zero_iff.1 hr
    subst this hd
    rw [fill, List.append_nil, List.take_of_length_le (by omega)]
  | succ k ih =>
    obtain ⟨x, r, rfl⟩ : ∃ x r', r = x :: r' := by
      cases r with
      | nil => simp at hr
      | cons x r => exact ⟨x, r, rfl⟩
    have hi : i < xs.length := by omega
    have hl : done.length = i := by rw [hd, List.length_take]; omega
    rw [fill, index_of (List.getElem?_eq_getElem hi), Result.bind, assign_of (by simp; omega), Result.bind]
    have : (done ++ x :: r).set i xs[i] = (done ++ [xs[i]]) ++ r := by
      rw [List.set_append_right _ _ (by omega), hl]; simp
    rw [this]
    exact ih _ _ _ (by omega) (by simpa using hr) (by rw [List.take_add_one, List.getElem?_eq_getElem hi, hd]; rfl)

theorem reflected_checked (xs : List Any) : reflected xs = .val xs :=
  fill_checked xs [] xs.length 0 _ (by simp) (by simp) (by simp)

theorem fillNodes_checked (dl : Nat → List Value) (cs : List Any) (done r : List (Option Node)) (hr : r.length = cs.length) :
    fillNodes dl cs done.length (done ++ r) = .val (done ++ (Aitch.contentsToNodes dl cs).map some) := by
  induction cs generalizing done r with
  | nil =>
    have : r = [] := List.length_eq_zero_iff.1 hr
    subst this
    rfl
  | cons c cs ih =>
    obtain ⟨x, r, rfl⟩ : ∃ x r', r = x :: r' := by
      cases r with
      | nil => simp at hr
      | cons x r => exact ⟨x, r, rfl⟩
    have hs : ∀ n, (done ++ x :: r).set done.length n = (done ++ [n]) ++ r := fun n => by
      rw [List.set_append_right _ _ (Nat.le_refl _)]; simp
    have hl : ∀ n, assign (done ++ x :: r) done.length n = .val ((done ++ [n]) ++ r) := fun n => by
      rw [assign_of (by simp), hs]
    have ih' := fun n => ih (done ++ [n]) r (by simpa using hr)
    simp only [List.length_append, List.length_singleton, List.append_assoc] at ih' hl
    cases c <;> simp only [fillNodes, hl, Result.bind, ih'] <;> rfl

theorem contentsToNodes_checked (dl : Nat → List Value) (cs : List Any) :
    contentsToNodes dl cs = .val ((Aitch.contentsToNodes dl cs).map some) :=
  fillNodes_checked dl cs [] _ (by simp)

theorem mergedJS_checked (ord : Nat → GoMap → GoMap) (value : List GoMap) :
    mergedJS ord value = .val (Aitch.mergedJS ord value) := by
  match value with
  | [] => rfl
  | [hm] => rfl
  | a :: b :: ms => rfl

theorem whenCond_checked (key : Bytes) (nodes : List (Option Node)) :
    ∃ c, whenCond key = .val c ∧ When key nodes = mkConditional c nodes := by
  unfold whenCond When
  cases key with
  | nil => exact ⟨_, rfl, rfl⟩
  | cons x key =>
    simp only [List.head?_cons, Option.some.injEq]
    split
    · refine ⟨.hasNot key, ?_, rfl⟩
      rw [slice_of (by simp) (Nat.le_refl _), Result.bind]
      simp
    · exact ⟨_, rfl, rfl⟩

theorem NewValue_checked (dl : Nat → List Value) (v : Any) : NewValue dl v = .val (Aitch.NewValue dl v) := by
  unfold NewValue Aitch.NewValue
  match newValue dl v with
  | [] => rfl
  | [x] => rfl
  | a :: b :: vs => rfl

theorem decIndent_checked (n : Nat) (c : UInt8) : decIndent (List.replicate n c) = .val (List.replicate (n - 1) c) := by
  unfold decIndent
  cases n with
  | zero => rfl
  | succ n =>
    rw [if_pos (by simp), slice_of (Nat.zero_le _) (by omega)]
    simp [List.take_replicate]

theorem lastSlash_lt (name : Bytes) (i : Nat) (found : Option Nat) (h : ∀ j, found = some j → j < i) (j : Nat)
    (e : lastSlash name i found = some j) : j < i + name.length := by
  induction name generalizing i found with
  | nil => exact h j e
  | cons c name ih =>
    have := ih (i + 1) _ (by
      intro j hj
      split at hj
      · cases hj; omega
      · have := h j hj; omega) e
    simp only [List.length_cons]
    omega

theorem lastSlash_none (name : Bytes) (h : c%'/' ∉ name) (i : Nat) (found : Option Nat) : lastSlash name i found = found := by
  induction name generalizing i with
  | nil => rfl
  | cons c name ih =>
    simp only [List.mem_cons, not_or] at h
    rw [lastSlash, if_neg (Ne.symm h.1), ih h.2]

theorem lastSlash_append (a b : Bytes) (h : c%'/' ∉ b) (i : Nat) (found : Option Nat) :
    lastSlash (a ++ c%'/' :: b) i found = some (i + a.length) := by
  induction a generalizing i found with
  | nil => rw [List.nil_append, lastSlash, if_pos rfl, lastSlash_none _ h]; rfl
  | cons c a ih => rw [List.cons_append, lastSlash, ih, List.length_cons]; congr 1; omega

theorem funcName_checked (name : Bytes) : ∃ r, funcName name = .val r := by
  unfold funcName
  cases h : lastSlash name 0 none with
  | none => exact ⟨_, rfl⟩
  | some ls =>
    simp only
    split
    · have := lastSlash_lt name 0 none (by simp) ls h
      exact ⟨_, slice_of (by omega) (Nat.le_refl _)⟩
    · exact ⟨_, rfl⟩

theorem funcName_last (path f : Bytes) (hp : path ≠ []) (hf : c%'/' ∉ f) : funcName (path ++ c%'/' :: f) = .val f := by
  unfold funcName
  rw [lastSlash_append _ _ hf]
  have : 0 < path.length := List.length_pos_iff.2 hp
  simp only [Nat.zero_add]
  rw [if_pos this, slice_of (by simp) (Nat.le_refl _)]
  congr 1
  rw [show path ++ c%'/' :: f = (path ++ [c%'/']) ++ f by simp, show path.length + 1 = (path ++ [c%'/']).length by simp,
    List.drop_left]
  exact List.take_of_length_le (by simp; omega)

theorem addAttributes_checked (as : List Attr) (e : ElemHead) (wf : WFHead e) (dl : Nat → List Value) (bs : List Attr)
    (m : Merged bs e) : addAttributes as e dl = .val (Aitch.addAttributes as e dl) := by
  induction as generalizing e dl bs with
  | nil => rfl
  | cons a as ih =>
    have h1 := (addAttributes_one m a dl).1
    rw [addAttributes, Aitch.addAttributes]
    rw [Aitch.addAttributes] at h1
    cases hl : e.attIndices.lookup a.name with
    | none =>
      rw [hl] at h1
      exact ih _ h1.wf _ _ h1
    | some i =>
      obtain ⟨b, hb, -⟩ := getElem?_of_lookup m.wf hl
      rw [hl] at h1
      simp only [hb] at h1 ⊢
      rw [index_of hb, Result.bind]
      have hi : i < e.attributes.length := (List.getElem?_eq_some_iff.1 hb).1
      cases b <;> cases a <;> simp only [assign_of hi, Result.bind, Aitch.addAttributes] at h1 ⊢ <;>
        exact ih _ h1.wf _ _ h1

theorem NewElement_checked (name : Bytes) (contents : List Any) (h : Heap) :
    NewElement name contents h = .val (Aitch.NewElement name contents h) := by
  unfold NewElement Aitch.NewElement
  simp only
  rw [addAttributes_checked _ _ (merged_empty _ _).wf _ [] (merged_empty _ _)]
  rfl

theorem NewVoidElement_checked (name : Bytes) (contents : List Any) (h : Heap) :
    NewVoidElement name contents h = .val (Aitch.NewVoidElement name contents h) := by
  unfold NewVoidElement Aitch.NewVoidElement
  simp only
  rw [addAttributes_checked _ _ (merged_empty _ _).wf _ [] (merged_empty _ _)]
  rfl

/-! ### Programs that do the same -/

theorem reach_bind {env : Env} (m : Prog α) (f : α → Prog β) (s : St) :
    reach env (m >>= f) s = match reach env m s with
      | (some a, s') => reach env (f a) s'
      | (none, s') => (none, s') := by
  change reach env (m.bind f) s = _
  induction m generalizing s with
  | pure a => rfl
  | step a k ih => simp only [Prog.bind, reach]; exact ih _ _
  | stuck => rfl

theorem exec_reach {env : Env} (m : Prog α) (s : St) :
    exec env m s = (reach env m s).1.map fun a => (a, (reach env m s).2) := by
  induction m generalizing s with
  | pure a => rfl
  | step a k ih => exact ih _ _
  | stuck => rfl

/-- The two programs do the same. -/
def Same (env : Env) (m m' : Prog α) : Prop := ∀ s, reach env m s = reach env m' s

theorem Same.refl {env : Env} (m : Prog α) : Same env m m := fun _ => rfl

theorem Same.bind {env : Env} {m m' : Prog α} {f f' : α → Prog β} (h : Same env m m') (hf : ∀ a, Same env (f a) (f' a)) :
    Same env (m >>= f) (m' >>= f') := by
  intro s
  rw [reach_bind, reach_bind, h s]
  split
  · exact hf _ _
  · rfl

/-- The first part is the same program. -/
theorem Same.seq {env : Env} {m : Prog α} {f f' : α → Prog β} (hf : ∀ a, Same env (f a) (f' a)) :
    Same env (m >>= f) (m >>= f') :=
  Same.bind (Same.refl m) hf

/-- Programs run one after the other. -/
theorem bind_bind {γ : Type} (m : Prog α) (f : α → Prog β) (g : β → Prog γ) :
    ((m >>= f) >>= g) = (m >>= fun a => f a >>= g) := by
  change (m.bind f).bind g = m.bind fun a => (f a).bind g
  induction m with
  | pure a => rfl
  | step a k ih => simp only [Prog.bind, ih]
  | stuck => rfl

/-! ### Attributes of a tag -/

variable {boom : Prog Unit}


/-- No name has an empty list. -/
def Filled (ev : List (Bytes × List Attr)) : Prop := ∀ p ∈ ev, p.2 ≠ []

theorem filled_lookup {ev : List (Bytes × List Attr)} (h : Filled ev) {n : Bytes} {as : List Attr}
    (hl : ev.lookup n = some as) : as ≠ [] := by
  induction ev with
  | nil => simp at hl
  | cons p ev ih =>
    obtain ⟨m, bs⟩ := p
    rw [List.lookup_cons] at hl
    split at hl
    · cases hl; exact h (m, _) (by simp)
    · exact ih (fun p hp => h p (by simp [hp])) hl

theorem filled_add {ev : List (Bytes × List Attr)} (h : Filled ev) (n : Bytes) (a : Attr) : Filled (addEvaluated n a ev) := by
  induction ev with
  | nil => intro p hp; simp [addEvaluated] at hp; subst hp; simp
  | cons p ev ih =>
    obtain ⟨m, bs⟩ := p
    rw [addEvaluated]
    split
    · intro p hp
      rcases List.mem_cons.1 hp with rfl | hp
      · simp
      · exact h p (by simp [hp])
    · intro p hp
      rcases List.mem_cons.1 hp with rfl | hp
      · exact h (m, bs) (by simp)
      · exact ih (fun p hp => h p (by simp [hp])) p hp

theorem renderStatic_checked {h : ElemHead} (wf : WFHead h) {ev : List (Bytes × List Attr)} (hf : Filled ev) (n : Bytes) :
    renderStatic boom h ev n = Aitch.renderStatic h ev n := by
  unfold renderStatic Aitch.renderStatic
  cases hl : h.attIndices.lookup n with
  | none => rfl
  | some i =>
    obtain ⟨a, ha, -⟩ := getElem?_of_lookup wf hl
    simp only [ha, index_of ha, orPanic]
    cases he : ev.lookup n with
    | none => rfl
    | some eAttr =>
      obtain ⟨b, hb⟩ : ∃ b, eAttr.getLast? = some b := by
        cases hg : eAttr.getLast? with
        | none => exact absurd (List.getLast?_eq_none_iff.1 hg) (filled_lookup hf he)
        | some b => exact ⟨b, rfl⟩
      cases a <;> simp only [renderChosen, last_of hb, hb, Option.getD_some]

theorem moreValues_checked (dl : Nat → List Value) (ca : List Attr) (k i : Nat) (h : i + k = ca.length) :
    moreValues dl ca k i = .val ((ca.drop i).flatMap (Attr.values dl)) := by
  induction k generalizing i with
  | zero => rw [List.drop_of_length_le (by omega)]; rfl
  | succ k ih =>
    have hi : i < ca.length := by omega
    rw [moreValues, index_of (List.getElem?_eq_getElem hi), Result.bind, ih _ (by omega), Result.bind,
      List.drop_eq_getElem_cons hi, List.flatMap_cons]

theorem renderExtra_checked (h : ElemHead) (ev : List (Bytes × List Attr)) (n : Bytes) :
    renderExtra boom h ev n = Aitch.renderExtra h ev n := by
  unfold renderExtra Aitch.renderExtra
  cases he : ev.lookup n with
  | none => cases h.attIndices.lookup n <;> rfl
  | some ca =>
    cases hl : h.attIndices.lookup n with
    | some i => simp
    | none =>
      cases ca with
      | nil => simp
      | cons first others =>
        obtain ⟨b, hb⟩ : ∃ b, (first :: others).getLast? = some b := ⟨_, List.getLast?_eq_some_getLast (by simp)⟩
        have h0 : (first :: others)[0]? = some first := rfl
        simp only [Option.isNone_none, List.length_cons, gt_iff_lt, Nat.zero_lt_succ, and_self, if_true, index_of h0,
          orPanic, last_of hb, hb, Option.getD_some]
        cases first with
        | delim m d r =>
          simp only [renderChosen, Nat.add_sub_cancel]
          congr 1
          funext c
          rw [moreValues_checked _ _ _ _ (by simp; omega)]
          rfl
        | _ => rfl

theorem renderStatics_checked {h : ElemHead} (wf : WFHead h) {ev : List (Bytes × List Attr)} (hf : Filled ev)
    (ns : List Bytes) : renderStatics boom h ev ns = Aitch.renderStatics h ev ns := by
  induction ns with
  | nil => rfl
  | cons n ns ih => rw [renderStatics, Aitch.renderStatics, renderStatic_checked wf hf, ih]

theorem renderExtras_checked (h : ElemHead) (ev : List (Bytes × List Attr)) (ns : List Bytes) :
    renderExtras boom h ev ns = Aitch.renderExtras h ev ns := by
  induction ns with
  | nil => rfl
  | cons n ns ih => rw [renderExtras, Aitch.renderExtras, renderExtra_checked, ih]

theorem bind_same {m : Prog α} {f g : α → Prog β} (h : ∀ a, f a = g a) : (m >>= f) = (m >>= g) := by
  rw [funext h]

/-- What is done with the evaluated attributes matters only for lists that are not empty. -/
theorem evaluate_filled (cas : List CondAttr) {ev : List (Bytes × List Attr)} (hf : Filled ev)
    {f g : List (Bytes × List Attr) → Prog β} (h : ∀ ev, Filled ev → f ev = g ev) (env : Env) :
    Same env (evaluate cas ev >>= f) (evaluate cas ev >>= g) := by
  induction cas generalizing ev with
  | nil =>
    intro s
    show reach env (f ev) s = reach env (g ev) s
    rw [h ev hf]
  | cons a cas ih =>
    rw [evaluate, bind_bind, bind_bind]
    exact Same.seq fun b => ih (by split; exacts [filled_add hf _ _, hf])

theorem renderAttributes_checked {h : ElemHead} (wf : WFHead h) (env : Env) :
    Same env (renderAttributes boom h) (Aitch.renderAttributes h) := by
  unfold renderAttributes Aitch.renderAttributes
  split
  · refine evaluate_filled _ (fun p hp => by simp at hp) (fun ev hf => ?_) env
    split
    · refine bind_same fun names => ?_
      rw [renderStatics_checked wf hf]
      exact bind_same fun _ => bind_same fun _ => renderExtras_checked _ _ _
    · rfl
  · exact Same.refl _

theorem renderStartTag_checked {h : ElemHead} (wf : WFHead h) (env : Env) :
    Same env (renderStartTag boom h) (Aitch.renderStartTag h) := by
  unfold renderStartTag Aitch.renderStartTag
  exact Same.seq fun _ => Same.seq fun _ => Same.bind (renderAttributes_checked wf env) fun _ => Same.refl _

/-! ### Imperative -/

/-- The variables of `Start` as one list. -/
def entries (st : Started) : List (Bytes × Option (List Value)) := st.names.zip st.values

/-- The variables fit together. -/
structure Fits (st : Started) : Prop where
  length : st.names.length = st.values.length
  indices : st.indices = st.names.zipIdx
  nodup : st.names.Nodup

theorem startAdd_new (dl : Nat → List Value) (a : Attr) (es : List (Bytes × Option (List Value))) (h : a.name ∉ es.map (·.1)) :
    Aitch.startAdd dl a es = es ++ [(a.name, firstValues dl a)] := by
  induction es with
  | nil => cases a <;> rfl
  | cons p es ih =>
    obtain ⟨n, vs⟩ := p
    simp only [List.map_cons, List.mem_cons, not_or] at h
    rw [Aitch.startAdd.eq_def]
    simp only [if_neg (Ne.symm h.1), ih h.2, List.cons_append]

/-- What a name that is there already gets. -/
def nextValues (dl : Nat → List Value) (a : Attr) (avs : Option (List Value)) : Option (List Value) :=
  match a with
  | .delim _ d r => startDelim d (dl r) avs
  | .plain _ vs => some vs
  | .bool _ => none

theorem startAdd_old (dl : Nat → List Value) (a : Attr) (ns : List Bytes) (vs : List (Option (List Value)))
    (hl : ns.length = vs.length) (hn : ns.Nodup) (i : Nat) (h : ns[i]? = some a.name) (avs : Option (List Value))
    (hv : vs[i]? = some avs) : Aitch.startAdd dl a (ns.zip vs) = ns.zip (vs.set i (nextValues dl a avs)) := by
  induction ns generalizing vs i with
  | nil => simp at h
  | cons n ns ih =>
    cases vs with
    | nil => simp at hl
    | cons v vs =>
      rw [List.nodup_cons] at hn
      cases i with
      | zero =>
        simp only [List.getElem?_cons_zero, Option.some.injEq] at h hv
        subst hv
        rw [List.zip_cons_cons, Aitch.startAdd.eq_def]
        simp only [if_pos h]
        cases a <;> rfl
      | succ i =>
        simp only [List.getElem?_cons_succ] at h hv
        have : n ≠ a.name := by
          rintro rfl
          exact hn.1 (List.mem_of_getElem? h)
        rw [List.zip_cons_cons, Aitch.startAdd.eq_def]
        simp only [if_neg this, ih vs (by simpa using hl) hn.2 i h hv]
        rfl

theorem startAdd_checked (dl : Nat → List Value) (a : Attr) {st : Started} (hf : Fits st) :
    ∃ st', startAdd dl a st = .val st' ∧ Fits st' ∧ entries st' = Aitch.startAdd dl a (entries st) := by
  obtain ⟨h1, h2, h3⟩ := hf
  by_cases hm : a.name ∈ st.names
  · obtain ⟨i, hi⟩ := List.getElem?_of_mem hm
    have hl : st.indices.lookup a.name = some i := by rw [h2, lookup_zipIdx _ 0 h3 i _ hi]; simp
    have hlt : i < st.values.length := by rw [← h1]; exact (List.getElem?_eq_some_iff.1 hi).1
    have hv : st.values[i]? = some st.values[i] := List.getElem?_eq_getElem hlt
    refine ⟨{ st with values := st.values.set i (nextValues dl a st.values[i]) }, ?_, ⟨by simpa using h1, h2, h3⟩, ?_⟩
    · unfold startAdd
      rw [hl]
      cases a <;> simp only [index_of hv, assign_of hlt, Result.bind, nextValues]
    · exact (startAdd_old dl a _ _ h1 h3 i hi _ hv).symm
  · have hl : st.indices.lookup a.name = none := by rw [h2]; exact lookup_zipIdx_none _ _ _ hm
    refine ⟨⟨st.names ++ [a.name], st.values ++ [firstValues dl a], st.indices ++ [(a.name, st.names.length)]⟩, ?_, ?_, ?_⟩
    · unfold startAdd
      rw [hl]
    · exact ⟨by simp [h1], by simp [h2, List.zipIdx_append], List.nodup_append.2 ⟨h3, by simp, by
        intro x hx y hy e
        simp at hy
        subst hy
        exact hm (e ▸ hx)⟩⟩
    · rw [startAdd_new]
      · simp only [entries]
        rw [List.zip_append h1]
        rfl
      · simp only [entries]
        rw [List.map_fst_zip (by omega)]
        exact hm

theorem startCollect_checked (dl : Nat → List Value) (attrs : List (Option Node)) {st : Started} (hf : Fits st) :
    ∃ st', startCollect dl attrs st = .val st' ∧ Fits st' ∧ entries st' = Aitch.startCollect dl attrs (entries st) := by
  induction attrs generalizing st with
  | nil => exact ⟨st, rfl, hf, rfl⟩
  | cons a attrs ih =>
    match a with
    | some (.attr a) =>
      obtain ⟨st1, e1, f1, g1⟩ := startAdd_checked dl a hf
      obtain ⟨st2, e2, f2, g2⟩ := ih f1
      exact ⟨st2, by rw [startCollect, e1, Result.bind, e2], f2, by rw [g2, g1, Aitch.startCollect]⟩
    | none => exact ih hf
    | some (.element ..) | some (.voidElement ..) | some (.text ..) | some (.comment ..) | some (.fragment ..)
    | some (.pi ..) | some (.collection ..) | some (.conditional ..) | some (.collector ..) | some (.imperative ..)
    | some (.iterator ..) | some (.yieldIterator ..) | some (.document ..) => exact ih hf

theorem startWrite_checked (vs : List (Option (List Value))) (ns : List Bytes) (a : Nat) (h : a + ns.length = vs.length) :
    startWrite boom vs ns a = Aitch.startWrite (ns.zip (vs.drop a)) := by
  induction ns generalizing a with
  | nil => rfl
  | cons n ns ih =>
    simp only [List.length_cons] at h
    have ha : a < vs.length := by omega
    rw [startWrite, List.drop_eq_getElem_cons ha, List.zip_cons_cons, Aitch.startWrite,
      index_of (List.getElem?_eq_getElem ha), orPanic, ih _ (by omega)]

theorem startTag_checked (name : Bytes) (attrs : List (Option Node)) : startTag boom name attrs = Aitch.startTag name attrs := by
  unfold startTag Aitch.startTag
  refine bind_same fun _ => bind_same fun _ => bind_same fun c => ?_
  obtain ⟨st, e, f, g⟩ := startCollect_checked c.dl attrs (st := ⟨[], [], []⟩) ⟨rfl, rfl, List.nodup_nil⟩
  rw [e, orPanic, startWrite_checked _ _ _ (by rw [f.length]; simp), List.drop_zero]
  rw [show st.names.zip st.values = entries st from rfl, g]
  rfl

theorem endLast_checked (stack : List Bytes) (n : Bytes) :
    endLast boom (stack ++ [n]) = (renderEndTag n >>= fun _ => (return stack : Prog (List Bytes))) := by
  unfold endLast renderEndTag
  have h1 : (stack ++ [n])[(stack ++ [n]).length - 1]? = some n := by simp
  have h2 : slice (stack ++ [n]) 0 ((stack ++ [n]).length - 1) = .val stack := by
    rw [slice_of (Nat.zero_le _) (by omega)]
    simp
  rw [if_pos (by simp), index_of h1, h2]
  simp only [bind_bind, orPanic]

theorem endAll_checked (stack more : List Bytes) : endAll boom (stack ++ more) stack.length = Aitch.endAll stack.reverse := by
  induction stack using snoc_induction generalizing more with
  | nil => rfl
  | append_singleton stack n ih =>
    have h1 : (stack ++ [n] ++ more)[stack.length]? = some n := by simp
    rw [List.length_append, List.length_singleton, endAll, index_of h1, orPanic, List.reverse_append,
      List.reverse_singleton, List.singleton_append, Aitch.endAll, List.append_assoc, ih]
    simp only [renderEndTag, bind_bind]

/-! ### Loops -/

variable {env : Env}

theorem contentLoop_same {rec rec' : Render} (ns : List Node) (h : ∀ n ∈ ns, Same env (rec n) (rec' n)) :
    Same env (contentLoop rec ns) (contentLoop rec' ns) := by
  induction ns with
  | nil => exact Same.refl _
  | cons n ns ih =>
    exact Same.bind (h n (by simp)) fun e => Same.seq fun _ => ih fun m hm => h m (by simp [hm])

theorem collectionLoop_same {rec rec' : Render} (ns : List Node) (h : ∀ n ∈ ns, Same env (rec n) (rec' n)) :
    Same env (collectionLoop rec ns) (collectionLoop rec' ns) := by
  induction ns with
  | nil => exact Same.refl _
  | cons n ns ih =>
    have ih := ih fun m hm => h m (by simp [hm])
    rw [collectionLoop, collectionLoop]
    split
    · exact ih
    · refine Same.bind (h n (by simp)) fun e => Same.seq fun _ => ?_
      cases e with
      | none => exact ih
      | some e => exact Same.refl _

theorem conditionalLoop_same {rec rec' : Render} (ns : List Node) (h : ∀ n ∈ ns, Same env (rec n) (rec' n)) :
    Same env (conditionalLoop rec ns) (conditionalLoop rec' ns) := by
  induction ns with
  | nil => exact Same.refl _
  | cons n ns ih =>
    refine Same.bind (h n (by simp)) fun e => Same.seq fun _ => ?_
    cases e with
    | none => exact ih fun m hm => h m (by simp [hm])
    | some e => exact Same.refl _

theorem ignoreLoop_same {rec rec' : Render} (ns : List (Option Node)) (h : ∀ n, some n ∈ ns → Same env (rec n) (rec' n)) :
    Same env (ignoreLoop rec ns) (ignoreLoop rec' ns) := by
  induction ns with
  | nil => exact Same.refl _
  | cons n ns ih =>
    have ih := ih fun m hm => h m (by simp [hm])
    cases n with
    | none => exact ih
    | some n =>
      rw [ignoreLoop, ignoreLoop]
      split
      · exact ih
      · exact Same.bind (h n (by simp)) fun _ => ih

theorem documentLoop_same {rec rec' : Render} (ns : List Node) (h : ∀ n ∈ ns, Same env (rec n) (rec' n)) :
    Same env (documentLoop rec ns) (documentLoop rec' ns) := by
  induction ns with
  | nil => exact Same.refl _
  | cons n ns ih => exact Same.bind (h n (by simp)) fun _ => ih fun m hm => h m (by simp [hm])

theorem iterNodes_same {rec rec' : Render} (ns : List Node) (h : ∀ n ∈ ns, Same env (rec n) (rec' n)) :
    Same env (iterNodes rec ns) (iterNodes rec' ns) := by
  induction ns with
  | nil => exact Same.refl _
  | cons n ns ih =>
    refine Same.bind (h n (by simp)) fun e => ?_
    cases e with
    | none => exact ih fun m hm => h m (by simp [hm])
    | some e => exact Same.refl _

theorem iterItems_same {rec rec' : Render} (ns : List Node) (h : ∀ n ∈ ns, Same env (rec n) (rec' n))
    (data : Option MapId) (items : List Any) : Same env (iterItems rec ns data items) (iterItems rec' ns data items) := by
  induction items with
  | nil => exact Same.refl _
  | cons it its ih =>
    refine Same.seq fun _ => Same.bind (iterNodes_same ns h) fun e => ?_
    cases e with
    | none => exact ih
    | some e => exact Same.refl _

theorem renderIterator_same {rec rec' : Render} (ns : List Node) (h : ∀ n ∈ ns, Same env (rec n) (rec' n))
    (fn : ItemSrc) : Same env (renderIterator rec ns fn) (renderIterator rec' ns fn) := by
  refine Same.seq fun c => ?_
  cases c.frame.err with
  | some e => exact Same.refl _
  | none =>
    refine Same.seq fun items => ?_
    cases items with
    | nil => exact Same.refl _
    | cons it its =>
      exact Same.seq fun c => Same.seq fun _ => Same.bind (iterItems_same ns h _ _) fun e => Same.refl _

theorem runYield_same {rec rec' : Render} (ns : List Node) (h : ∀ n ∈ ns, Same env (rec n) (rec' n)) (p : YieldProg)
    (child : Frame) : Same env (runYield rec ns p child) (runYield rec' ns p child) := by
  induction p generalizing child with
  | done => exact Same.refl _
  | user upd k ih => exact Same.seq fun s => ih s child
  | write data k ih => exact Same.seq fun r => Same.seq fun s => ih r s child
  | «yield» it k ih =>
    exact Same.seq fun _ => Same.seq fun _ => Same.bind (iterNodes_same ns h) fun e => Same.seq fun child =>
      Same.seq fun _ => Same.seq fun s => ih s child

theorem renderYield_same {rec rec' : Render} (ns : List Node) (h : ∀ n ∈ ns, Same env (rec n) (rec' n)) (f : FnId) :
    Same env (renderYield rec ns f) (renderYield rec' ns f) := by
  refine Same.seq fun c => ?_
  cases c.frame.err with
  | some e => exact Same.refl _
  | none => exact Same.seq fun p => Same.bind (runYield_same ns h p _) fun _ => Same.refl _

/-! ### A function given to `Imperative` -/

/-- One method call, and what follows; the stack is upside down. -/
theorem runOp_checked {rec rec' : Render} (op : ImpOp) (stack : List Bytes)
    (hr : ∀ ns n, op = .writeNodes ns → some n ∈ ns → Same env (rec n) (rec' n)) {f f' : List Bytes → Prog β}
    (hf : ∀ stack, Same env (f stack.reverse) (f' stack)) :
    Same env (runOp boom rec op stack.reverse >>= f) (Aitch.runOp rec' op stack >>= f') := by
  cases op with
  | writeString d =>
    rw [runOp, Aitch.runOp, htmlEscapeString_checked, bind_bind, bind_bind]
    exact Same.seq fun _ => hf _
  | writeRaw d =>
    rw [runOp, Aitch.runOp, bind_bind, bind_bind]
    exact Same.seq fun _ => hf _
  | writeNodes ns =>
    rw [runOp, Aitch.runOp, bind_bind, bind_bind]
    exact Same.bind (ignoreLoop_same ns fun n hn => hr ns n rfl hn) fun _ => hf _
  | start n isVoid attrs =>
    rw [runOp, Aitch.runOp, bind_bind, bind_bind, startTag_checked]
    refine Same.seq fun _ => ?_
    cases isVoid with
    | true => exact hf _
    | false =>
      have := hf (n :: stack)
      rw [List.reverse_cons] at this
      exact this
  | «end» =>
    cases stack with
    | nil => exact hf []
    | cons n stack =>
      rw [runOp, Aitch.runOp, List.reverse_cons, endLast_checked, bind_bind, bind_bind]
      exact Same.seq fun _ => hf _
  | endAll =>
    rw [runOp, Aitch.runOp, bind_bind, bind_bind]
    have := endAll_checked (boom := boom) stack.reverse []
    rw [List.append_nil, List.reverse_reverse] at this
    rw [this]
    exact Same.seq fun _ => hf []

theorem runImp_checked {rec rec' : Render} (hr : ∀ n, Built n → Same env (rec n) (rec' n)) {p : ImpProg} (hp : ImpBuilt p)
    (stack : List Bytes) : Same env (runImp boom rec p stack.reverse) (Aitch.runImp rec' p stack) := by
  induction hp generalizing stack with
  | ret e => exact Same.refl _
  | call op k h1 h2 ih =>
    exact runOp_checked op stack (fun ns n e hn => hr n (h1 ns n e hn)) fun stack => Same.seq fun s => ih s stack
  | user upd k h1 ih => exact Same.seq fun s => ih s stack
  | render n k h1 h2 ih => exact Same.bind (hr n h1) fun e => Same.seq fun s => ih e s stack
  | write data k h1 ih => exact Same.seq fun r => Same.seq fun s => ih r s stack

/-! ### Render -/

theorem renderProg_checked (B : BuiltEnv env) (fuel : Nat) (n : Node) (wf : WF n) :
    Same env (renderProg boom fuel n) (Aitch.renderProg fuel n) := by
  induction fuel generalizing n with
  | zero => exact Same.refl _
  | succ fuel ih =>
    rw [renderProg, Aitch.renderProg]
    have all : ∀ {ns}, WFAll ns → ∀ n ∈ ns, Same env (renderProg boom fuel n) (Aitch.renderProg fuel n) :=
      fun h n hn => ih n ((wfAll_iff _).1 h n hn)
    have built : ∀ n, Built n → Same env (renderProg boom fuel n) (Aitch.renderProg fuel n) := fun n h => ih n h.wf
    cases n with
    | element h ns =>
      exact Same.bind (renderStartTag_checked wf.1 env) fun _ => Same.bind (contentLoop_same _ (all wf.2)) fun _ => Same.refl _
    | voidElement h => exact Same.bind (renderStartTag_checked wf env) fun _ => Same.refl _
    | attr a => exact Same.refl _
    | text vs => exact Same.refl _
    | comment vs => exact Same.refl _
    | fragment vs => exact Same.refl _
    | pi n vs => exact Same.refl _
    | collection ns => exact Same.bind (collectionLoop_same _ (all wf)) fun _ => Same.refl _
    | conditional ns cs fn =>
      refine Same.seq fun b => Same.bind ?_ fun _ => Same.refl _
      cases b with
      | false => exact Same.refl _
      | true => exact conditionalLoop_same _ (all wf)
    | collector f =>
      intro s
      show reach env (ignoreLoop _ (env.collect f s).1 >>= _) _ = reach env (ignoreLoop _ (env.collect f s).1 >>= _) _
      exact Same.bind (ignoreLoop_same _ fun n hn => built n (B.collect f s n hn)) (fun _ => Same.refl _) _
    | imperative f =>
      cases f with
      | none => exact Same.refl _
      | some f =>
        intro s
        exact runImp_checked built (B.imp f s) [] _
    | iterator ns fn => exact renderIterator_same _ (all wf) fn
    | yieldIterator ns f => exact renderYield_same _ (all wf) f
    | document p ns =>
      refine Same.bind (documentLoop_same _ fun n hn => ?_) fun _ => Same.refl _
      cases p with
      | none => exact all wf n hn
      | some p =>
        rcases List.mem_cons.1 hn with rfl | hn
        · exact ih _ wf.1
        · exact all wf.2 n hn

end Aitch.Checked
