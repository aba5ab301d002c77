import Verif.Proofs.Trip
import Verif.Spec.Obs
import Verif.Proofs.Escape
import Verif.Spec.Utf8
/-
Everything written is in the class of texts that the template, the data and the user functions are made of.
-/
set_option linter.unusedSectionVars false

namespace Aitch
open Spec

section
variable {T : Bytes → Prop} {env : Env}

/-- Memory and everything written so far is in the class. -/
def W (T : Bytes → Prop) (s : St) : Prop := MemoryTexts T s.toCtx ∧ ∀ e ∈ s.log, T e.data

/-- `m` keeps `W`. -/
abbrev KW {α} (T : Bytes → Prop) (env : Env) (m : Prog α) : Prop := Trip env (W T) m fun _ => W T

theorem KW.pure {α} (a : α) : KW T env (Pure.pure a : Prog α) := Trip.pure fun _ h => h

theorem KW.bind {α β} {m : Prog α} {f : α → Prog β} (hm : KW T env m) (hf : ∀ a, KW T env (f a)) : KW T env (m >>= f) :=
  Trip.bind hm hf

theorem KW.when {b : Bool} {m : Prog Unit} (h : KW T env m) : KW T env (Prog.when b m) := by
  unfold Prog.when; split
  · exact h
  · exact KW.pure _

theorem KW.order (ks) : KW T env (Do.order ks) := Trip.act fun _ h => h
theorem KW.setErr (e) : KW T env (Do.setErr e) := Trip.act fun _ h => ⟨⟨h.1.1, h.1.2, h.1.3, h.1.4⟩, h.2⟩

/-- Reading memory. -/
theorem KW.ctxBind {α} {f : Ctx → Prog α} {Q : α → St → Prop}
    (hf : ∀ c, MemoryTexts T c → Trip env (W T) (f c) Q) : Trip env (W T) (Do.ctx >>= f) Q := by
  refine Trip.bind (Q := fun c s => W T s ∧ MemoryTexts T c) (Trip.act fun s h => ⟨h, h.1⟩) fun c => ?_
  intro s r s' hs he
  exact hf c hs.2 s r s' hs.1 he

theorem KW.lookBind {α} {f : St → Prog α} {Q : α → St → Prop}
    (hf : ∀ c : St, MemoryTexts T c.toCtx → Trip env (W T) (f c) Q) : Trip env (W T) (Do.look >>= f) Q := by
  refine Trip.bind (Q := fun c s => W T s ∧ MemoryTexts T c.toCtx) (Trip.act fun s h => ⟨h, h.1⟩) fun c => ?_
  intro s r s' hs he
  exact hf c hs.2 s r s' hs.1 he

theorem KW.userBind {α} {upd : St → St} (hu : KeepsTexts T upd) {f : St → Prog α} {Q : α → St → Prop}
    (hf : ∀ c : St, MemoryTexts T c.toCtx → Trip env (W T) (f c) Q) : Trip env (W T) (Do.user upd >>= f) Q := by
  refine Trip.bind (Q := fun c s => W T s ∧ MemoryTexts T c.toCtx)
    (Trip.act fun s h => ⟨⟨hu s h.1, h.2⟩, hu s h.1⟩) fun c => ?_
  intro s r s' hs he
  exact hf c hs.2 s r s' hs.1 he

theorem KW.write {d : Bytes} (hd : T d) : KW T env (Do.write d) := by
  refine Trip.act fun s h => ⟨⟨h.1.1, h.1.2, h.1.3, h.1.4⟩, ?_⟩
  intro e he
  simp only [Action.run, St.wrote, List.mem_append, List.mem_singleton] at he
  rcases he with he | he
  · exact h.2 e he
  · subst he; exact hd

theorem KW.ctxWrite {d : Bytes} (hd : T d) : KW T env (ctxWrite d) := by
  refine KW.ctxBind fun c _ => ?_
  split
  · exact KW.bind (KW.write hd) fun r => KW.setErr _
  · exact KW.pure _

theorem KW.valueWrite {d : Bytes} (hd : T d) : KW T env (valueWrite d) :=
  KW.bind (KW.write hd) fun _ => KW.bind (KW.setErr _) fun _ => KW.pure _

theorem KW.retErr : KW T env retErr := KW.ctxBind fun _ _ => KW.pure _

variable (C : TextClass T) (F : FnsTexts T env)

theorem Spec.TextClass.nil (C : TextClass T) : T [] := C.markup _ (by simp)

include C in
theorem texts_valueToBytes : (v : Any) → AnyTexts T v → T (valueToBytes v)
  | .bool b, _ => by
    unfold valueToBytes
    cases b <;> exact C.markup _ (by simp)
  | .bytes _, h => h
  | .str s, h => C.escape s h
  | .int _ i, _ => C.int i
  | .float _ _, h => h
  | .stringer _ _ _, h => h.1
  | .thunk r, h => texts_valueToBytes r h
  | .nil, _ | .dynFunc _ _, _ | .dynKey _, _ | .value _, _ | .node _, _ | .map _, _ | .anySlice _, _ | .slice _ _, _
  | .strMap _ _ _, _ | .struct _ _, _ | .ptr _, _ | .other _, _ => C.nil

theorem entry_of_lookup {α} {k : Bytes} {v : α} : {l : List (Bytes × α)} → l.lookup k = some v → ∃ p ∈ l, p.2 = v
  | [], h => by cases h
  | (k', v') :: l, h => by
    rw [List.lookup_cons] at h
    split at h
    · cases h; exact ⟨_, List.mem_cons_self .., rfl⟩
    · obtain ⟨p, hp, h⟩ := entry_of_lookup h
      exact ⟨p, List.mem_cons_of_mem _ hp, h⟩

theorem texts_lookup {c : Ctx} (h : MemoryTexts T c) {k : Bytes} {v : Any} (hv : c.lookup k = some v) : AnyTexts T v := by
  unfold Ctx.lookup at hv
  split at hv
  · cases hv
  · obtain ⟨p, hp, rfl⟩ := entry_of_lookup hv
    exact h.maps _ p hp

theorem valuesTexts_iff : {vs : List Value} → (ValuesTexts T vs ↔ ∀ v ∈ vs, ValueTexts T v)
  | [] => by simp [ValuesTexts]
  | v :: vs => by simp [ValuesTexts, valuesTexts_iff (vs := vs)]

theorem valuesTexts_append {vs ws : List Value} : ValuesTexts T (vs ++ ws) ↔ ValuesTexts T vs ∧ ValuesTexts T ws := by
  simp only [valuesTexts_iff, List.mem_append]
  exact ⟨fun h => ⟨fun v hv => h v (.inl hv), fun v hv => h v (.inr hv)⟩, fun h v hv => hv.elim (h.1 v) (h.2 v)⟩

theorem nodesTexts_iff : {ns : List Node} → (NodesTexts T ns ↔ ∀ n ∈ ns, NodeTexts T n)
  | [] => by simp [NodesTexts]
  | n :: ns => by simp [NodesTexts, nodesTexts_iff (ns := ns)]

theorem anysTexts_iff : {ns : List Any} → (AnysTexts T ns ↔ ∀ n ∈ ns, AnyTexts T n)
  | [] => by simp [AnysTexts]
  | n :: ns => by simp [AnysTexts, anysTexts_iff (ns := ns)]

include C F

theorem KW.runDynBind (d : Dyn) : Trip env (W T) (runDyn d) fun b s => W T s ∧ T b := by
  cases d with
  | user f => exact Trip.act fun s h => ⟨⟨F.dynKeeps f s h.1, h.2⟩, F.dyn f s h.1⟩
  | key k =>
    refine KW.ctxBind fun c hc => ?_
    split
    · rename_i v hv
      exact Trip.pure fun _ h => ⟨h, texts_valueToBytes C v (texts_lookup hc hv)⟩
    · exact Trip.pure fun _ h => ⟨h, C.nil⟩
  | cargo => exact KW.ctxBind fun c hc => Trip.pure fun _ h => ⟨h, texts_valueToBytes C _ hc.cargo⟩

mutual
theorem KW.renderValue : (v : Value) → ValueTexts T v → KW T env (renderValue v)
  | .mk _ (some d) _, _ => by
    unfold Aitch.renderValue
    refine Trip.bind (KW.runDynBind C F d) fun b => ?_
    intro s r s' hs he
    exact KW.valueWrite hs.2 s r s' hs.1 he
  | .mk value none [], h => by
    unfold Aitch.renderValue
    exact KW.valueWrite h.1
  | .mk value none (c :: cs), h => by
    unfold Aitch.renderValue
    exact KW.bind (KW.renderValue c h.2.1) fun _ => KW.bind (KW.renderConcats cs _ h.2.2) fun _ => KW.pure _
theorem KW.renderConcats : (vs : List Value) → (l : Nat) → ValuesTexts T vs → KW T env (renderConcats vs l)
  | [], _, _ => by unfold Aitch.renderConcats; exact KW.pure _
  | c :: cs, l, h => by
    unfold Aitch.renderConcats
    exact KW.bind (KW.renderValue c h.1) fun _ => KW.renderConcats cs _ h.2
end

theorem KW.renderValues : (vs : List Value) → ValuesTexts T vs → KW T env (renderValues vs)
  | [], _ => KW.pure _
  | v :: vs, h => KW.bind (KW.renderValue C F v h.1) fun _ => KW.renderValues vs h.2

theorem KW.renderDelimValues {d : Bytes} (hd : T d) : (vs : List Value) → (b : Bool) → ValuesTexts T vs →
    KW T env (renderDelimValues d vs b)
  | [], _, _ => KW.pure _
  | v :: vs, _, h => KW.bind (KW.when (KW.ctxWrite hd)) fun _ => KW.bind (KW.renderValue C F v h.1) fun _ =>
      KW.renderDelimValues hd vs _ h.2

theorem KW.renderDelim {n d : Bytes} {vs : List Value} (hn : T n) (hd : T d) (h : ValuesTexts T vs) :
    KW T env (renderDelim n d vs) :=
  KW.bind (KW.ctxWrite (C.markup _ (by simp))) fun _ => KW.bind (KW.ctxWrite hn) fun _ =>
    KW.bind (KW.ctxWrite (C.markup _ (by simp))) fun _ => KW.bind (KW.renderDelimValues C F hd vs _ h) fun _ =>
      KW.ctxWrite (C.markup _ (by simp))

theorem KW.renderAttr (a : Attr) (h : AttrTexts T a) : KW T env (renderAttr a) := by
  cases a with
  | plain n vs =>
    exact KW.bind (KW.ctxWrite (C.markup _ (by simp))) fun _ => KW.bind (KW.ctxWrite h.1) fun _ =>
      KW.bind (KW.ctxWrite (C.markup _ (by simp))) fun _ => KW.bind (KW.renderValues C F vs h.2) fun _ =>
      KW.ctxWrite (C.markup _ (by simp))
  | bool n => exact KW.bind (KW.ctxWrite (C.markup _ (by simp))) fun _ => KW.ctxWrite h
  | delim n d r => exact KW.ctxBind fun c hc => KW.renderDelim C F h.1 h.2 (hc.delimited r)

theorem KW.runCond (c : Cond) : KW T env (runCond c) := by
  cases c with
  | user f => exact Trip.act fun s h => ⟨F.condKeeps f s h.1, h.2⟩
  | has k => exact KW.ctxBind fun c _ => by split <;> exact KW.pure _
  | hasNot k => exact KW.ctxBind fun c _ => by split <;> exact KW.pure _

theorem KW.evalConds : (cs : List Cond) → KW T env (evalConds cs)
  | [] => KW.pure _
  | c :: cs => KW.bind (KW.runCond C F c) fun b => by
      cases b
      · exact KW.pure _
      · exact KW.evalConds cs

/-- All attributes in a map of evaluated attributes are in the class. -/
def EvTexts (T : Bytes → Prop) (l : List (Bytes × List Attr)) : Prop := ∀ p ∈ l, ∀ a ∈ p.2, AttrTexts T a

omit C F in
theorem evTexts_add {n : Bytes} {a : Attr} (ha : AttrTexts T a) : {l : List (Bytes × List Attr)} → EvTexts T l →
    EvTexts T (addEvaluated n a l)
  | [], _ => by simpa [addEvaluated, EvTexts] using ha
  | (m, as) :: l, h => by
    have h1 : EvTexts T l := fun p hp => h p (List.mem_cons_of_mem _ hp)
    have h2 : ∀ a ∈ as, AttrTexts T a := h (m, as) (List.mem_cons_self ..)
    unfold addEvaluated
    split
    · intro p hp
      rcases List.mem_cons.1 hp with rfl | hp
      · intro b hb
        rcases List.mem_append.1 hb with hb | hb
        · exact h2 b hb
        · rw [List.mem_singleton.1 hb]; exact ha
      · exact h1 p hp
    · intro p hp
      rcases List.mem_cons.1 hp with rfl | hp
      · exact h2
      · exact evTexts_add ha h1 p hp

theorem KW.evaluate : (as : List CondAttr) → (l : List (Bytes × List Attr)) → (∀ a ∈ as, AttrTexts T a.att) →
    EvTexts T l → Trip env (W T) (evaluate as l) fun r s => W T s ∧ EvTexts T r
  | [], l, _, h => Trip.pure fun _ hs => ⟨hs, h⟩
  | a :: as, l, ha, h => Trip.bind (KW.evalConds C F _) fun b =>
      KW.evaluate as _ (fun a h => ha a (List.mem_cons_of_mem _ h)) (by
        split
        · exact evTexts_add (ha a (List.mem_cons_self ..)) h
        · exact h)

omit C F in
theorem texts_values {c : Ctx} (hc : MemoryTexts T c) {a : Attr} (h : AttrTexts T a) :
    ValuesTexts T (a.values c.dl) := by
  cases a with
  | plain n vs => exact h.2
  | bool n => trivial
  | delim n d r => exact hc.delimited r

theorem KW.renderChosen {att last : Attr} {merged : List Attr} (h1 : AttrTexts T att) (h2 : ∀ a ∈ merged, AttrTexts T a)
    (h3 : AttrTexts T last) : KW T env (renderChosen att merged last) := by
  cases att with
  | plain n vs => exact KW.renderAttr C F _ h3
  | bool n => exact KW.renderAttr C F _ h3
  | delim n d r =>
    refine KW.ctxBind fun c hc => KW.renderDelim C F h1.1 h1.2 (valuesTexts_append.2 ⟨hc.delimited r, ?_⟩)
    rw [valuesTexts_iff]
    intro v hv
    obtain ⟨a, ha, hv⟩ := List.mem_flatMap.1 hv
    exact valuesTexts_iff.1 (texts_values hc (h2 a ha)) v hv

omit C F in
theorem evTexts_lookup {ev : List (Bytes × List Attr)} (h : EvTexts T ev) {n : Bytes} {as : List Attr}
    (hl : ev.lookup n = some as) : ∀ a ∈ as, AttrTexts T a := by
  obtain ⟨p, hp, rfl⟩ := entry_of_lookup hl
  exact h p hp

omit C F in
theorem texts_getLast {as : List Attr} (h : ∀ a ∈ as, AttrTexts T a) {d : Attr} (hd : AttrTexts T d) :
    AttrTexts T (as.getLast?.getD d) := by
  cases h1 : as.getLast? with
  | none => exact hd
  | some a => exact h a (List.mem_of_getLast? h1)

theorem KW.renderStatic {h : ElemHead} (hh : HeadTexts T h) {ev : List (Bytes × List Attr)} (he : EvTexts T ev) (n : Bytes) :
    KW T env (renderStatic h ev n) := by
  unfold Aitch.renderStatic
  split
  · exact KW.pure _
  · split
    · exact KW.pure _
    · rename_i att hatt
      have h1 : AttrTexts T att := hh.attributes att (List.mem_of_getElem? hatt)
      split
      · rename_i eAttr hl
        exact KW.renderChosen C F h1 (evTexts_lookup he hl) (texts_getLast (evTexts_lookup he hl) h1)
      · exact KW.renderAttr C F _ h1

theorem KW.renderStatics {h : ElemHead} (hh : HeadTexts T h) {ev : List (Bytes × List Attr)} (he : EvTexts T ev) :
    (ns : List Bytes) → KW T env (renderStatics h ev ns)
  | [] => KW.pure _
  | n :: ns => KW.bind (KW.renderStatic C F hh he n) fun _ => KW.renderStatics hh he ns

theorem KW.renderExtra (h : ElemHead) {ev : List (Bytes × List Attr)} (he : EvTexts T ev) (n : Bytes) :
    KW T env (renderExtra h ev n) := by
  unfold Aitch.renderExtra
  split
  · rename_i first others _ hl
    have h1 := evTexts_lookup he hl
    exact KW.renderChosen C F (h1 _ (List.mem_cons_self ..)) (fun a ha => h1 a (List.mem_cons_of_mem _ ha))
      (texts_getLast h1 (h1 _ (List.mem_cons_self ..)))
  · exact KW.pure _

theorem KW.renderExtras (h : ElemHead) {ev : List (Bytes × List Attr)} (he : EvTexts T ev) :
    (ns : List Bytes) → KW T env (renderExtras h ev ns)
  | [] => KW.pure _
  | n :: ns => KW.bind (KW.renderExtra C F h he n) fun _ => KW.renderExtras h he ns

theorem KW.renderAttrs : (as : List Attr) → (∀ a ∈ as, AttrTexts T a) → KW T env (renderAttrs as)
  | [], _ => KW.pure _
  | a :: as, h => KW.bind (KW.renderAttr C F a (h a (List.mem_cons_self ..))) fun _ =>
      KW.renderAttrs as fun a ha => h a (List.mem_cons_of_mem _ ha)

theorem KW.renderAttributes {h : ElemHead} (hh : HeadTexts T h) : KW T env (renderAttributes h) := by
  unfold Aitch.renderAttributes
  split
  · refine Trip.bind (KW.evaluate C F _ _ hh.conditionals (by intro p hp; cases hp)) fun ev => ?_
    intro s r s' hs he
    revert he
    refine (?_ : KW T env _) s r s' hs.1
    split
    · exact KW.bind (KW.order _) fun _ => KW.bind (KW.renderStatics C F hh hs.2 _) fun _ => KW.bind (KW.order _) fun _ =>
        KW.renderExtras C F h hs.2 _
    · exact KW.renderAttrs C F _ hh.attributes
  · exact KW.renderAttrs C F _ hh.attributes

theorem KW.renderStartTag {h : ElemHead} (hh : HeadTexts T h) : KW T env (renderStartTag h) :=
  KW.bind (KW.ctxWrite (C.markup _ (by simp))) fun _ => KW.bind (KW.ctxWrite hh.name) fun _ =>
    KW.bind (KW.renderAttributes C F hh) fun _ => KW.ctxWrite (C.markup _ (by simp))

omit F in
theorem KW.renderEndTag {n : Bytes} (hn : T n) : KW T env (renderEndTag n) :=
  KW.bind (KW.ctxWrite (C.markup _ (by simp))) fun _ => KW.bind (KW.ctxWrite hn) fun _ => KW.ctxWrite (C.markup _ (by simp))

omit C F in
theorem texts_startDelim {d : Bytes} (hd : T d) : (vs : List Value) → ValuesTexts T vs → (avs : Option (List Value)) →
    (∀ l, avs = some l → ValuesTexts T l) → ∀ l, startDelim d vs avs = some l → ValuesTexts T l
  | [], _, avs, h => h
  | v :: vs, hv, avs, h => by
    unfold startDelim
    refine texts_startDelim hd vs hv.2 _ ?_
    intro l hl
    cases hl
    have h1 : ValuesTexts T (avs.getD []) := by
      cases avs with
      | none => trivial
      | some l => exact h l rfl
    refine valuesTexts_append.2 ⟨?_, hv.1, trivial⟩
    split
    · exact valuesTexts_append.2 ⟨h1, ⟨hd, trivial⟩, trivial⟩
    · exact h1

/-- The attributes collected by `Start` are in the class. -/
def StTexts (T : Bytes → Prop) (l : List (Bytes × Option (List Value))) : Prop :=
  ∀ p ∈ l, T p.1 ∧ ∀ vs, p.2 = some vs → ValuesTexts T vs

omit C F in
theorem texts_startAdd {c : Ctx} (hc : MemoryTexts T c) {a : Attr} (ha : AttrTexts T a) :
    {l : List (Bytes × Option (List Value))} → StTexts T l → StTexts T (startAdd c.dl a l)
  | [], _ => by
    unfold startAdd
    cases a with
    | plain n vs =>
      intro p hp
      rw [List.mem_singleton.1 hp]
      exact ⟨ha.1, fun l hl => by cases hl; exact ha.2⟩
    | bool n =>
      intro p hp
      rw [List.mem_singleton.1 hp]
      exact ⟨ha, fun l hl => by cases hl⟩
    | delim n d r =>
      intro p hp
      rw [List.mem_singleton.1 hp]
      exact ⟨ha.1, texts_startDelim ha.2 _ (hc.delimited r) _ fun l hl => by cases hl; trivial⟩
  | (n, avs) :: l, h => by
    have h1 : StTexts T l := fun p hp => h p (List.mem_cons_of_mem _ hp)
    have h2 := h (n, avs) (List.mem_cons_self ..)
    unfold startAdd
    split
    · cases a with
      | plain m vs =>
        intro p hp
        rcases List.mem_cons.1 hp with rfl | hp
        · exact ⟨h2.1, fun l hl => by cases hl; exact ha.2⟩
        · exact h1 p hp
      | bool m =>
        intro p hp
        rcases List.mem_cons.1 hp with rfl | hp
        · exact ⟨h2.1, fun l hl => by cases hl⟩
        · exact h1 p hp
      | delim m d r =>
        intro p hp
        rcases List.mem_cons.1 hp with rfl | hp
        · exact ⟨h2.1, texts_startDelim ha.2 _ (hc.delimited r) _ h2.2⟩
        · exact h1 p hp
    · intro p hp
      rcases List.mem_cons.1 hp with rfl | hp
      · exact h2
      · exact texts_startAdd hc ha h1 p hp

omit C F in
theorem texts_startCollect {c : Ctx} (hc : MemoryTexts T c) : (as : List (Option Node)) →
    (∀ n, some n ∈ as → NodeTexts T n) → (l : List (Bytes × Option (List Value))) → StTexts T l →
    StTexts T (startCollect c.dl as l)
  | [], _, _, h => h
  | a :: as, ha, l, h => by
    have ha' : ∀ n, some n ∈ as → NodeTexts T n := fun n hn => ha n (List.mem_cons_of_mem _ hn)
    unfold startCollect
    split
    · cases ‹_ :: _ = []›
    · rename_i h1
      cases h1
      exact texts_startCollect hc _ ha' _ (texts_startAdd hc (ha _ (List.mem_cons_self ..)) h)
    · rename_i h1
      cases h1
      exact texts_startCollect hc _ ha' _ h

theorem KW.startWrite : (l : List (Bytes × Option (List Value))) → StTexts T l → KW T env (startWrite l)
  | [], _ => KW.pure _
  | (n, none) :: l, h =>
    KW.bind (KW.ctxWrite (C.markup _ (by simp))) fun _ => KW.bind (KW.ctxWrite (h _ (List.mem_cons_self ..)).1) fun _ =>
      KW.bind (KW.pure _) fun _ => KW.startWrite l fun p hp => h p (List.mem_cons_of_mem _ hp)
  | (n, some vs) :: l, h =>
    KW.bind (KW.ctxWrite (C.markup _ (by simp))) fun _ => KW.bind (KW.ctxWrite (h _ (List.mem_cons_self ..)).1) fun _ =>
      KW.bind (KW.bind (KW.ctxWrite (C.markup _ (by simp))) fun _ =>
        KW.bind (KW.renderValues C F vs ((h _ (List.mem_cons_self ..)).2 vs rfl)) fun _ =>
        KW.ctxWrite (C.markup _ (by simp))) fun _ => KW.startWrite l fun p hp => h p (List.mem_cons_of_mem _ hp)

theorem KW.startTag {n : Bytes} (hn : T n) {as : List (Option Node)} (ha : ∀ n, some n ∈ as → NodeTexts T n) :
    KW T env (startTag n as) :=
  KW.bind (KW.ctxWrite (C.markup _ (by simp))) fun _ => KW.bind (KW.ctxWrite hn) fun _ => KW.ctxBind fun c hc =>
    KW.bind (KW.startWrite C F _ (texts_startCollect hc as ha [] (by intro p hp; cases hp))) fun _ =>
      KW.ctxWrite (C.markup _ (by simp))

variable {rec : Render} (R : ∀ n, NodeTexts T n → KW T env (rec n))
include R

theorem KW.contentLoop : (ns : List Node) → NodesTexts T ns → KW T env (contentLoop rec ns)
  | [], _ => KW.pure _
  | n :: ns, h => KW.bind (R n h.1) fun _ => KW.bind (KW.setErr _) fun _ => KW.contentLoop ns h.2

theorem KW.collectionLoop : (ns : List Node) → NodesTexts T ns → KW T env (collectionLoop rec ns)
  | [], _ => KW.pure _
  | n :: ns, h => by
    unfold Aitch.collectionLoop
    split
    · exact KW.collectionLoop ns h.2
    · refine KW.bind (R n h.1) fun e => KW.bind (KW.setErr _) fun _ => ?_
      cases e with
      | none => exact KW.collectionLoop ns h.2
      | some e => exact KW.pure _

theorem KW.conditionalLoop : (ns : List Node) → NodesTexts T ns → KW T env (conditionalLoop rec ns)
  | [], _ => KW.pure _
  | n :: ns, h => by
    refine KW.bind (R n h.1) fun e => KW.bind (KW.setErr _) fun _ => ?_
    cases e with
    | none => exact KW.conditionalLoop ns h.2
    | some e => exact KW.pure _

theorem KW.ignoreLoop : (ns : List (Option Node)) → (∀ n, some n ∈ ns → NodeTexts T n) → KW T env (ignoreLoop rec ns)
  | [], _ => KW.pure _
  | none :: ns, h => KW.ignoreLoop ns fun n hn => h n (List.mem_cons_of_mem _ hn)
  | some n :: ns, h => by
    unfold Aitch.ignoreLoop
    split
    · exact KW.ignoreLoop ns fun n hn => h n (List.mem_cons_of_mem _ hn)
    · exact KW.bind (R n (h n (List.mem_cons_self ..))) fun _ =>
        KW.ignoreLoop ns fun n hn => h n (List.mem_cons_of_mem _ hn)

theorem KW.documentLoop : (ns : List Node) → NodesTexts T ns → KW T env (documentLoop rec ns)
  | [], _ => KW.pure _
  | n :: ns, h => KW.bind (R n h.1) fun _ => KW.documentLoop ns h.2

omit F R in
theorem KW.endAll : (st : List Bytes) → (∀ n ∈ st, T n) → KW T env (endAll st)
  | [], _ => KW.pure _
  | n :: st, h => KW.bind (KW.renderEndTag C (h n (List.mem_cons_self ..))) fun _ =>
      KW.endAll st fun n hn => h n (List.mem_cons_of_mem _ hn)

theorem KW.runOp (op : ImpOp) (hop : OpTexts T op) (st : List Bytes) (hst : ∀ n ∈ st, T n) :
    Trip env (W T) (runOp rec op st) fun st s => W T s ∧ ∀ n ∈ st, T n := by
  cases op with
  | writeString d => exact Trip.bind (KW.ctxWrite (C.escape d hop)) fun _ => Trip.pure fun _ h => ⟨h, hst⟩
  | writeRaw d => exact Trip.bind (KW.ctxWrite hop) fun _ => Trip.pure fun _ h => ⟨h, hst⟩
  | writeNodes ns => exact Trip.bind (KW.ignoreLoop C F R ns hop) fun _ => Trip.pure fun _ h => ⟨h, hst⟩
  | start n v as =>
    refine Trip.bind (KW.startTag C F hop.1 hop.2) fun _ => Trip.pure fun _ h => ⟨h, ?_⟩
    split
    · exact hst
    · intro m hm
      rcases List.mem_cons.1 hm with rfl | hm
      · exact hop.1
      · exact hst m hm
  | «end» =>
    cases st with
    | nil => exact Trip.pure fun _ h => ⟨h, hst⟩
    | cons n st =>
      exact Trip.bind (KW.renderEndTag C (hst n (List.mem_cons_self ..))) fun _ => Trip.pure fun _ h =>
        ⟨h, fun m hm => hst m (List.mem_cons_of_mem _ hm)⟩
  | endAll => exact Trip.bind (KW.endAll C st hst) fun _ => Trip.pure fun _ h => ⟨h, fun _ hm => by cases hm⟩

theorem KW.runImp {p : ImpProg} (hp : ImpTexts T p) (st : List Bytes) (hst : ∀ n ∈ st, T n) :
    KW T env (runImp rec p st) := by
  induction hp generalizing st with
  | ret => exact KW.pure _
  | call hop _ ih =>
    refine Trip.bind (KW.runOp C F R _ hop st hst) fun st' => ?_
    intro s r s' hs he
    exact KW.lookBind (fun c hc => ih c hc st' hs.2) s r s' hs.1 he
  | user hu _ ih => exact KW.userBind hu fun c hc => ih c hc st hst
  | render hn _ ih => exact Trip.bind (R _ hn) fun e => KW.lookBind fun c hc => ih e c hc st hst
  | write hd _ ih => exact Trip.bind (KW.write hd) fun r => KW.lookBind fun c hc => ih r c hc st hst

omit F R in
theorem texts_beneath : (v : Any) → AnyTexts T v → AnyTexts T v.beneath
  | .stringer _ _ v => fun h => texts_beneath v h.2
  | .nil | .bool _ | .bytes _ | .str _ | .int .. | .float .. | .thunk _ | .dynFunc .. | .dynKey _ | .value _ | .node _
  | .map _ | .anySlice _ | .slice .. | .strMap .. | .struct .. | .ptr _ | .other _ => id

omit F R in
theorem texts_keyItems {c : Ctx} (hc : MemoryTexts T c) (k : Bytes) : AnysTexts T (keyItems k c) := by
  unfold keyItems
  split
  · rename_i hl
    obtain ⟨v, h1, h2⟩ := Option.map_eq_some_iff.1 hl
    have := texts_beneath C v (texts_lookup hc h1)
    rwa [h2] at this
  · rename_i hl
    obtain ⟨v, h1, h2⟩ := Option.map_eq_some_iff.1 hl
    have := texts_beneath C v (texts_lookup hc h1)
    rwa [h2] at this
  · rw [anysTexts_iff]
    intro v hv
    obtain ⟨b, _, rfl⟩ := List.mem_map.1 hv
    trivial
  · trivial

theorem KW.runItems (fn : ItemSrc) : Trip env (W T) (runItems fn) fun its s => W T s ∧ AnysTexts T its := by
  cases fn with
  | user f => exact Trip.act fun s h => ⟨⟨F.itemsKeeps f s h.1, h.2⟩, F.items f s h.1⟩
  | key k => exact KW.ctxBind fun c hc => Trip.pure fun _ h => ⟨h, texts_keyItems C hc k⟩

theorem KW.iterNodes : (ns : List Node) → NodesTexts T ns → KW T env (iterNodes rec ns)
  | [], _ => KW.pure _
  | n :: ns, h => by
    refine KW.bind (R n h.1) fun e => ?_
    cases e with
    | none => exact KW.iterNodes ns h.2
    | some e => exact KW.pure _

omit C F R in
theorem KW.setItem {it : Any} (h : AnyTexts T it) (d) : KW T env (Do.setItem it d) :=
  Trip.act fun _ hs => ⟨⟨h, hs.1.2, hs.1.3, hs.1.4⟩, hs.2⟩

theorem KW.iterItems (ns : List Node) (hn : NodesTexts T ns) (d) : (its : List Any) → AnysTexts T its →
    KW T env (iterItems rec ns d its)
  | [], _ => KW.pure _
  | it :: its, h => by
    refine KW.bind (KW.setItem h.1 _) fun _ => KW.bind (KW.iterNodes C F R ns hn) fun e => ?_
    cases e with
    | none => exact KW.iterItems ns hn d its h.2
    | some e => exact KW.pure _

omit C F R in
theorem KW.enter {f : Frame} (h : AnyTexts T f.cargo) : KW T env (Do.enter f) := by
  refine Trip.act fun s hs => ⟨⟨h, ?_, hs.1.3, hs.1.4⟩, hs.2⟩
  intro g hg
  rcases List.mem_cons.1 hg with rfl | hg
  · exact hs.1.1
  · exact hs.1.2 g hg

omit C F R in
theorem KW.leave : Trip env (W T) Do.leave fun f s => W T s ∧ AnyTexts T f.cargo := by
  refine Trip.act fun s hs => ?_
  simp only [Action.run]
  split
  · exact ⟨hs, hs.1.1⟩
  · rename_i f fs hp
    have h1 : ∀ g ∈ s.parents, AnyTexts T g.cargo := hs.1.2
    rw [hp] at h1
    exact ⟨⟨⟨h1 f (List.mem_cons_self ..), fun g hg => h1 g (List.mem_cons_of_mem _ hg), hs.1.3, hs.1.4⟩, hs.2⟩, hs.1.1⟩

theorem KW.renderIterator (ns : List Node) (hn : NodesTexts T ns) (fn : ItemSrc) :
    KW T env (renderIterator rec ns fn) := by
  refine KW.ctxBind fun c _ => ?_
  split
  · exact KW.pure _
  · refine Trip.bind (KW.runItems C F R fn) fun its => ?_
    intro s r s' hs he
    revert he
    refine (?_ : KW T env _) s r s' hs.1
    split
    · exact KW.pure _
    · refine KW.ctxBind fun c _ => KW.bind (KW.enter trivial) fun _ =>
        KW.bind (KW.iterItems C F R ns hn _ _ hs.2) fun e => Trip.bind (KW.leave.conseq fun _ _ h => h.1) fun _ => ?_
      cases e with
      | none => exact KW.pure _
      | some e => exact KW.bind (KW.setErr _) fun _ => KW.pure _

theorem KW.runYield (ns : List Node) (hn : NodesTexts T ns) {p : YieldProg} (hp : YieldTexts T p) (child : Frame)
    (hc : AnyTexts T child.cargo) : KW T env (runYield rec ns p child) := by
  induction hp generalizing child with
  | done => exact KW.pure _
  | user hu _ ih => exact KW.userBind hu fun c h => ih c h child hc
  | write hd _ ih => exact Trip.bind (KW.write hd) fun r => KW.lookBind fun c h => ih r c h child hc
  | yield hit _ ih =>
    refine KW.bind (KW.enter hc) fun _ => KW.bind (KW.setItem hit _) fun _ => KW.bind (KW.iterNodes C F R ns hn) fun e =>
      Trip.bind KW.leave fun child' => ?_
    intro s r s' hs he
    revert he
    refine (?_ : KW T env _) s r s' hs.1
    refine KW.bind ?_ fun _ => KW.lookBind fun c h => ih c h child' hs.2
    cases e with
    | none => exact KW.pure _
    | some e => exact KW.setErr _

theorem KW.renderYield (ns : List Node) (hn : NodesTexts T ns) (f : FnId) : KW T env (renderYield rec ns f) := by
  refine KW.ctxBind fun c _ => ?_
  split
  · exact KW.pure _
  · refine Trip.bind (Q := fun p s => W T s ∧ YieldTexts T p) (Trip.act fun s h => ⟨h, F.yields f s h.1⟩) fun p => ?_
    intro s r s' hs he
    exact KW.bind (KW.runYield C F R ns hn hs.2 _ (show AnyTexts T Any.nil from trivial)) (fun _ => KW.retErr) s r s' hs.1 he

theorem KW.renderStep (n : Node) (hn : NodeTexts T n) : KW T env (renderStep rec n) := by
  cases n with
  | element h cs =>
    exact KW.bind (KW.renderStartTag C F hn.1) fun _ => KW.bind (KW.contentLoop C F R cs hn.2) fun _ =>
      KW.bind (KW.renderEndTag C hn.1.name) fun _ => KW.retErr
  | voidElement h => exact KW.bind (KW.renderStartTag C F hn) fun _ => KW.retErr
  | attr a => exact KW.bind (KW.renderAttr C F a hn) fun _ => KW.retErr
  | text vs => exact KW.bind (KW.renderValues C F vs hn) fun _ => KW.retErr
  | comment vs =>
    exact KW.bind (KW.ctxWrite (C.markup _ (by simp))) fun _ => KW.bind (KW.renderValues C F vs hn) fun _ =>
      KW.bind (KW.ctxWrite (C.markup _ (by simp))) fun _ => KW.retErr
  | fragment vs => exact KW.bind (KW.renderValues C F vs hn) fun _ => KW.retErr
  | pi n vs =>
    exact KW.bind (KW.ctxWrite (C.markup _ (by simp))) fun _ => KW.bind (KW.ctxWrite hn.1) fun _ =>
      KW.bind (KW.ctxWrite (C.markup _ (by simp))) fun _ => KW.bind (KW.renderValues C F vs hn.2) fun _ =>
      KW.bind (KW.ctxWrite (C.markup _ (by simp))) fun _ => KW.retErr
  | collection ns => exact KW.bind (KW.collectionLoop C F R ns hn) fun _ => KW.retErr
  | conditional ns as fn =>
    exact KW.bind (KW.runCond C F fn) fun _ => KW.bind (KW.when (KW.conditionalLoop C F R ns hn.1)) fun _ => KW.retErr
  | collector f =>
    refine Trip.bind (Q := fun ns s => W T s ∧ ∀ n, some n ∈ ns → NodeTexts T n)
      (Trip.act fun s h => ⟨⟨F.collectKeeps f s h.1, h.2⟩, fun n hn => F.collect f s n h.1 hn⟩) fun ns => ?_
    intro s r s' hs he
    exact KW.bind (KW.ignoreLoop C F R ns hs.2) (fun _ => KW.retErr) s r s' hs.1 he
  | imperative f =>
    cases f with
    | none => exact KW.pure _
    | some f =>
      refine Trip.bind (Q := fun p s => W T s ∧ ImpTexts T p) (Trip.act fun s h => ⟨h, F.imp f s h.1⟩) fun p => ?_
      intro s r s' hs he
      exact KW.runImp C F R hs.2 [] (by intro n hn; cases hn) s r s' hs.1 he
  | iterator ns fn => exact KW.renderIterator C F R ns hn fn
  | yieldIterator ns f => exact KW.renderYield C F R ns hn f
  | document p cs =>
    refine KW.bind (KW.documentLoop C F R _ ?_) fun _ => KW.retErr
    cases p with
    | none => exact hn
    | some p => exact hn

omit R in
theorem KW.renderProg : (fuel : Nat) → (n : Node) → NodeTexts T n → KW T env (renderProg fuel n)
  | 0, _, _ => Trip.stuck
  | fuel + 1, n, hn => KW.renderStep C F (KW.renderProg fuel) n hn

end

/-! ### Constructors -/

section
variable {T : Bytes → Prop} {dl : Nat → List Value}

mutual
theorem texts_nodeValues (hd : ∀ r, ValuesTexts T (dl r)) : (n : Node) → NodeTexts T n → ValuesTexts T (nodeValues dl n)
  | .attr (.plain _ _), h => h.2
  | .attr (.delim _ _ r), _ => hd r
  | .attr (.bool _), _ => trivial
  | .text _, h => h
  | .comment _, h => h
  | .fragment _, h => h
  | .pi _ _, h => h.2
  | .collection ns, h => texts_nodesValues hd ns h
  | .element _ _, _ | .voidElement _, _ | .conditional _ _ _, _ | .collector _, _ | .imperative _, _ | .iterator _ _, _
  | .yieldIterator _ _, _ | .document _ _, _ => trivial
theorem texts_nodesValues (hd : ∀ r, ValuesTexts T (dl r)) : (ns : List Node) → NodesTexts T ns →
    ValuesTexts T (nodesValues dl ns)
  | [], _ => trivial
  | n :: ns, h => valuesTexts_append.2 ⟨texts_nodeValues hd n h.1, texts_nodesValues hd ns h.2⟩
end

theorem texts_newValue (C : TextClass T) (hd : ∀ r, ValuesTexts T (dl r)) (v : Any) (h : AnyTexts T v) :
    ValuesTexts T (newValue dl v) := by
  have h1 := texts_valueToBytes C v h
  cases v with
  | nil => trivial
  | value v => exact ⟨h, trivial⟩
  | dynFunc b f => exact ⟨⟨C.nil, trivial⟩, trivial⟩
  | dynKey k => simp only [newValue]; split <;> exact ⟨⟨C.nil, trivial⟩, trivial⟩
  | node n => exact texts_nodeValues hd n h
  | _ => exact ⟨⟨h1, trivial⟩, trivial⟩

theorem texts_newValues (C : TextClass T) (hd : ∀ r, ValuesTexts T (dl r)) : (vs : List Any) → AnysTexts T vs →
    ValuesTexts T (newValues dl vs)
  | [], _ => trivial
  | v :: vs, h => by
    have h1 := texts_newValue C hd v h.1
    have h2 := texts_newValues C hd vs h.2
    unfold newValues
    split
    · exact h2
    · exact valuesTexts_append.2 ⟨h1, h2⟩

theorem texts_contentsToNodes (C : TextClass T) (hd : ∀ r, ValuesTexts T (dl r)) {vs : List Any} (h : AnysTexts T vs) :
    NodesTexts T (contentsToNodes dl vs) := by
  rw [nodesTexts_iff]
  intro n hn
  unfold contentsToNodes at hn
  obtain ⟨v, hv, rfl⟩ := List.mem_map.1 hn
  have h1 := anysTexts_iff.1 h v hv
  cases v with
  | node n => exact h1
  | _ => exact texts_newValues C hd [_] ⟨h1, trivial⟩

/-- The parts into which contents are split are in the class. -/
def SplitTexts (T : Bytes → Prop) (r : Split) : Prop :=
  (∀ a ∈ r.attrs, AttrTexts T a) ∧ (∀ p ∈ r.condAttrs, AttrTexts T p.1) ∧ ∀ n ∈ r.contents, NodeTexts T n

mutual
theorem texts_splitItem : (n : Node) → NodeTexts T n → (cs : CondSlice) → (hp : CondHeap) →
    SplitTexts T (splitItem cs n hp).1
  | .attr a, h, cs, hp => by
    unfold splitItem
    split
    · exact ⟨by simp, fun p hp => by rw [List.mem_singleton.1 hp]; exact h, by simp⟩
    · exact ⟨fun p hp => by rw [List.mem_singleton.1 hp]; exact h, by simp, by simp⟩
  | .collection ns, h, cs, hp => by
    have h1 := texts_splitItems ns h cs hp
    unfold splitItem
    exact ⟨h1.1, h1.2.1, by simpa using h⟩
  | .conditional ns as fn, h, cs, hp => by
    have h1 := texts_splitItems ns h.1 (condAppend cs fn hp).1 (condAppend cs fn hp).2
    unfold splitItem
    refine ⟨by simp, ?_, by simpa using h⟩
    intro p hp
    rcases List.mem_append.1 hp with hp | hp
    · obtain ⟨a, ha, rfl⟩ := List.mem_map.1 hp
      exact h.2 a ha
    · exact h1.2.1 p hp
  | .element _ _, h, _, _ | .voidElement _, h, _, _ | .text _, h, _, _ | .comment _, h, _, _ | .fragment _, h, _, _
  | .pi _ _, h, _, _ | .collector _, h, _, _ | .imperative _, h, _, _ | .iterator _ _, h, _, _
  | .yieldIterator _ _, h, _, _ | .document _ _, h, _, _ => by
    unfold splitItem
    exact ⟨by simp, by simp, by simpa using h⟩
theorem texts_splitItems : (ns : List Node) → NodesTexts T ns → (cs : CondSlice) → (hp : CondHeap) →
    SplitTexts T (splitItems cs ns hp).1
  | [], _, _, _ => by unfold splitItems; exact ⟨by simp, by simp, by simp⟩
  | n :: ns, h, cs, hp => by
    have h1 := texts_splitItem n h.1 cs hp
    have h2 := texts_splitItems ns h.2 cs (splitItem cs n hp).2
    unfold splitItems
    refine ⟨?_, ?_, ?_⟩ <;> intro x hx <;> rcases List.mem_append.1 hx with hx | hx
    · exact h1.1 x hx
    · exact h2.1 x hx
    · exact h1.2.1 x hx
    · exact h2.2.1 x hx
    · exact h1.2.2 x hx
    · exact h2.2.2 x hx
end

theorem texts_addAttributes : (as : List Attr) → (∀ a ∈ as, AttrTexts T a) → (e : ElemHead) → HeadTexts T e →
    (dl : Nat → List Value) → (∀ r, ValuesTexts T (dl r)) →
    HeadTexts T (addAttributes as e dl).1 ∧ ∀ r, ValuesTexts T ((addAttributes as e dl).2 r)
  | [], _, _, he, _, hd => ⟨he, hd⟩
  | a :: as, ha, e, he, dl, hd => by
    have ha1 := ha a (List.mem_cons_self ..)
    have ha2 : ∀ a ∈ as, AttrTexts T a := fun a h => ha a (List.mem_cons_of_mem _ h)
    have hset : ∀ idx, HeadTexts T { e with attributes := e.attributes.set idx a } := by
      intro idx
      refine ⟨he.1, ?_, he.3⟩
      intro b hb
      rcases List.mem_or_eq_of_mem_set hb with hb | rfl
      · exact he.2 b hb
      · exact ha1
    have hadd : HeadTexts T { e with attIndices := e.attIndices ++ [(a.name, e.attributes.length)],
                                     attributes := e.attributes ++ [a] } := by
      refine ⟨he.1, ?_, he.3⟩
      intro b hb
      rcases List.mem_append.1 hb with hb | hb
      · exact he.2 b hb
      · rw [List.mem_singleton.1 hb]; exact ha1
    have ih := texts_addAttributes as ha2
    have hupd : ∀ r r', ∀ q, ValuesTexts T (upd dl r (dl r ++ dl r') q) := by
      intro r r' q
      unfold upd
      split
      · exact valuesTexts_append.2 ⟨hd _, hd _⟩
      · exact hd q
    cases a with
    | delim n d r =>
      unfold addAttributes
      split
      · split
        · rename_i h1 h2
          cases h2
          exact ih e he _ (hupd _ _)
        · exact ih _ (hset _) dl hd
      · exact ih _ hadd dl hd
    | plain n vs =>
      unfold addAttributes
      split
      · split
        · rename_i h2; cases h2
        · exact ih _ (hset _) dl hd
      · exact ih _ hadd dl hd
    | bool n =>
      unfold addAttributes
      split
      · split
        · rename_i h2; cases h2
        · exact ih _ (hset _) dl hd
      · exact ih _ hadd dl hd

theorem texts_head (C : TextClass T) {name : Bytes} (hn : T name) {contents : List Any} (hc : AnysTexts T contents) {h : Heap}
    (hh : HeapTexts T h) :
    (∀ r, HeadTexts T (addAttributes (attributesAndContents (contentsToNodes h.dl contents)).1
        ⟨name, [], [], (attributesAndContents (contentsToNodes h.dl contents)).2.1⟩ h.dl).1 ∧
      ValuesTexts T ((addAttributes (attributesAndContents (contentsToNodes h.dl contents)).1
        ⟨name, [], [], (attributesAndContents (contentsToNodes h.dl contents)).2.1⟩ h.dl).2 r)) ∧
    NodesTexts T (attributesAndContents (contentsToNodes h.dl contents)).2.2 := by
  have h1 := texts_splitItems _ (texts_contentsToNodes C hh hc) ⟨0, 0, 0⟩ ⟨fun _ => [], 1⟩
  have h2 : HeadTexts T ⟨name, [], [], (attributesAndContents (contentsToNodes h.dl contents)).2.1⟩ := by
    refine ⟨hn, by simp, ?_⟩
    intro a ha
    unfold attributesAndContents at ha
    obtain ⟨p, hp, rfl⟩ := List.mem_map.1 ha
    exact h1.2.1 p hp
  have h3 := texts_addAttributes (attributesAndContents (contentsToNodes h.dl contents)).1 h1.1 _ h2 h.dl hh
  exact ⟨fun r => ⟨h3.1, h3.2 r⟩, nodesTexts_iff.2 h1.2.2⟩

theorem texts_newElement (C : TextClass T) {name : Bytes} (hn : T name) {contents : List Any} (hc : AnysTexts T contents)
    {h : Heap} (hh : HeapTexts T h) :
    NodeTexts T (NewElement name contents h).1 ∧ HeapTexts T (NewElement name contents h).2 := by
  obtain ⟨h1, h2⟩ := texts_head C hn hc hh
  exact ⟨⟨(h1 0).1, h2⟩, fun r => (h1 r).2⟩

theorem texts_newVoidElement (C : TextClass T) {name : Bytes} (hn : T name) {contents : List Any}
    (hc : AnysTexts T contents) {h : Heap} (hh : HeapTexts T h) :
    NodeTexts T (NewVoidElement name contents h).1 ∧ HeapTexts T (NewVoidElement name contents h).2 := by
  obtain ⟨h1, h2⟩ := texts_head C hn hc hh
  exact ⟨(h1 0).1, fun r => (h1 r).2⟩

theorem texts_condSplit : (nodes : List (Option Node)) → (∀ n, some n ∈ nodes → NodeTexts T n) → {ns : List Node} →
    {as : List Attr} → condSplit nodes = .val (ns, as) → NodesTexts T ns ∧ ∀ a ∈ as, AttrTexts T a
  | [], _, _, _, h => by cases h; exact ⟨trivial, by simp⟩
  | none :: _, _, _, _, h => by cases h
  | some n :: nodes, hn, ns, as, h => by
    have hn' : ∀ n, some n ∈ nodes → NodeTexts T n := fun n h => hn n (List.mem_cons_of_mem _ h)
    have h0 := hn n (List.mem_cons_self ..)
    unfold condSplit at h
    cases h1 : condSplit nodes with
    | panic => rw [h1] at h; cases h
    | val p =>
      obtain ⟨ns', as'⟩ := p
      obtain ⟨h2, h3⟩ := texts_condSplit nodes hn' h1
      rw [h1] at h
      cases n with
      | attr a =>
        cases h
        refine ⟨h2, ?_⟩
        intro b hb
        rcases List.mem_cons.1 hb with rfl | hb
        · exact h0
        · exact h3 b hb
      | _ => cases h; exact ⟨⟨h0, h2⟩, h3⟩

theorem texts_mkConditional {fn : Cond} {nodes : List (Option Node)} (hn : ∀ n, some n ∈ nodes → NodeTexts T n) {n : Node}
    (h : mkConditional fn nodes = .val n) : NodeTexts T n := by
  unfold mkConditional at h
  split at h
  · cases h
  · rename_i h1
    cases h
    exact texts_condSplit nodes hn h1

theorem texts_collection {nodes : List (Option Node)} (hn : ∀ n, some n ∈ nodes → NodeTexts T n) :
    NodeTexts T (Collection nodes) := by
  refine nodesTexts_iff.2 fun n h => ?_
  obtain ⟨m, hm, h⟩ := List.mem_filterMap.1 h
  cases h
  exact hn n hm

theorem texts_iterSplit : (nodes : List (Option Node)) → (∀ n, some n ∈ nodes → NodeTexts T n) → {ns : List Node} →
    iterSplit nodes = .val ns → NodesTexts T ns
  | [], _, _, h => by cases h; trivial
  | none :: _, _, _, h => by cases h
  | some n :: nodes, hn, ns, h => by
    have hn' : ∀ n, some n ∈ nodes → NodeTexts T n := fun n h => hn n (List.mem_cons_of_mem _ h)
    have h0 := hn n (List.mem_cons_self ..)
    unfold iterSplit at h
    cases h1 : iterSplit nodes with
    | panic => rw [h1] at h; cases h
    | val p =>
      have h2 := texts_iterSplit nodes hn' h1
      rw [h1] at h
      simp only at h
      split at h
      · cases h; exact h2
      · cases h; exact ⟨h0, h2⟩

theorem texts_document (C : TextClass T) (L : ∀ m ∈ [b%"lang", b%"head", b%"body", b%"html", b%"DOCTYPE"], T m)
    {lang : Any} {head body : List Any} {h : Heap} (hl : AnyTexts T lang) (hh : AnysTexts T head) (hb : AnysTexts T body)
    (hp : HeapTexts T h) :
    NodeTexts T (Document lang head body h).1 ∧ HeapTexts T (Document lang head body h).2 := by
  have h1 : AnyTexts T (langArg h.dl lang) := by
    have : NodeTexts T (Lang h.dl [lang]) := ⟨L _ (by simp), texts_newValues C hp _ ⟨hl, trivial⟩⟩
    cases lang with
    | nil => trivial
    | _ => exact this
  have h2 : AnyTexts T (headArg head h).1 ∧ HeapTexts T (headArg head h).2 := by
    cases head with
    | nil => exact ⟨trivial, hp⟩
    | cons x xs => exact texts_newElement C (L _ (by simp)) hh hp
  have h3 := texts_newElement C (L b%"body" (by simp)) hb h2.2
  have h4 := texts_newElement C (L b%"html" (by simp)) (contents := [langArg h.dl lang, (headArg head h).1,
    .node (Body body (headArg head h).2).1]) ⟨h1, h2.1, h3.1, trivial⟩ h3.2
  exact ⟨⟨⟨L _ (by simp), texts_newValues C h3.2 _ ⟨L _ (by simp), trivial⟩⟩, h4.1, trivial⟩, h4.2⟩

theorem texts_constructs (C : TextClass T) (L : ∀ m ∈ [b%"lang", b%"head", b%"body", b%"html", b%"DOCTYPE"], T m)
    {n : Node} {h h' : Heap} (hc : Constructs T h n h') (hh : HeapTexts T h) : NodeTexts T n ∧ HeapTexts T h' := by
  cases hc with
  | newElement h1 h2 => exact texts_newElement C h1 h2 hh
  | newVoidElement h1 h2 => exact texts_newVoidElement C h1 h2 hh
  | newAttribute h1 h2 => exact ⟨⟨h1, texts_newValues C hh _ h2⟩, hh⟩
  | newBooleanAttribute h1 => exact ⟨h1, hh⟩
  | newDelimitedAttribute h1 h2 h3 =>
    refine ⟨⟨h1, h2⟩, fun r => ?_⟩
    simp only [NewDelimitedAttribute, upd]
    split
    · exact texts_newValues C hh _ h3
    · exact hh r
  | text h1 => exact ⟨texts_newValues C hh _ h1, hh⟩
  | comment h1 => exact ⟨texts_newValues C hh _ h1, hh⟩
  | fragment h1 => exact ⟨texts_newValues C hh _ h1, hh⟩
  | pi h1 h2 => exact ⟨⟨h1, texts_newValues C hh _ h2⟩, hh⟩
  | collection h1 => exact ⟨texts_collection h1, hh⟩
  | @contentCollect f => cases f <;> exact ⟨trivial, hh⟩
  | @conditional fn _ _ _ h1 h2 =>
    cases fn with
    | none => cases h2; exact ⟨texts_collection h1, hh⟩
    | some f => exact ⟨texts_mkConditional h1 h2, hh⟩
  | when h1 h2 =>
    refine ⟨?_, hh⟩
    unfold When at h2
    split at h2
    · exact texts_mkConditional h1 h2
    · split at h2 <;> exact texts_mkConditional h1 h2
  | @iterate fn _ _ _ h1 h2 =>
    cases fn with
    | none => cases h2
    | some f =>
      unfold Iterate at h2
      simp only at h2
      split at h2
      · cases h2
      · rename_i h3; cases h2; exact ⟨texts_iterSplit _ h1 h3, hh⟩
  | iterateKey h1 h2 =>
    unfold IterateKey at h2
    split at h2
    · cases h2
    · rename_i h3; cases h2; exact ⟨texts_iterSplit _ h1 h3, hh⟩
  | @iterateYield fn _ _ _ h1 h2 =>
    cases fn with
    | none => cases h2
    | some f =>
      unfold IterateYield at h2
      simp only at h2
      split at h2
      · cases h2
      · rename_i h3; cases h2; exact ⟨texts_iterSplit _ h1 h3, hh⟩
  | imperative => exact ⟨trivial, hh⟩
  | document h1 h2 h3 => exact texts_document C L h1 h2 h3 hh

end

/-! ### UTF-8 -/

theorem utf8_nil : Utf8 [] := ⟨[], rfl⟩

theorem utf8_append {v w : Bytes} (hv : Utf8 v) (hw : Utf8 w) : Utf8 (v ++ w) := by
  obtain ⟨cs, rfl⟩ := hv
  obtain ⟨ds, rfl⟩ := hw
  exact ⟨cs ++ ds, by simp⟩

theorem utf8_ascii_one : ∀ i : Fin 128, [UInt8.ofNat i.val] = String.utf8EncodeChar (Char.ofNat i.val) := by decide +kernel

theorem utf8_of_ascii : (w : Bytes) → Ascii w → Utf8 w
  | [], _ => utf8_nil
  | c :: w, h => by
    have h1 : c.toNat < 128 := UInt8.lt_iff_toNat_lt.1 (h c (List.mem_cons_self ..))
    refine utf8_append (v := [c]) ⟨[Char.ofNat c.toNat], ?_⟩
      (utf8_of_ascii w fun d hd => h d (List.mem_cons_of_mem _ hd))
    simpa using utf8_ascii_one ⟨c.toNat, h1⟩

/-- The bytes of a character beyond ASCII are all beyond ASCII. -/
theorem encode_high {c : Char} (h : ¬ c.toNat < 128) : ∀ b ∈ String.utf8EncodeChar c, 128 ≤ b.toNat := by
  intro b hb
  unfold String.utf8EncodeChar at hb
  have h1 : c.val.toNat = c.toNat := rfl
  simp only [h1] at hb
  split at hb
  · omega
  · split at hb
    · simp only [List.mem_cons, List.not_mem_nil, or_false] at hb
      rcases hb with rfl | rfl <;> simp only [UInt8.toNat_ofNat'] <;> omega
    · split at hb
      · simp only [List.mem_cons, List.not_mem_nil, or_false] at hb
        rcases hb with rfl | rfl | rfl <;> simp only [UInt8.toNat_ofNat'] <;> omega
      · simp only [List.mem_cons, List.not_mem_nil, or_false] at hb
        rcases hb with rfl | rfl | rfl | rfl <;> simp only [UInt8.toNat_ofNat'] <;> omega

theorem escByte_high {b : UInt8} (h : 128 ≤ b.toNat) : escByte b = [b] := by
  have : ∀ i : Fin 256, 128 ≤ i.val → escByte (UInt8.ofNat i.val) = [UInt8.ofNat i.val] := by decide +kernel
  have h1 := this ⟨b.toNat, b.toNat_lt⟩ h
  simpa using h1

theorem escape_low : ∀ i : Fin 128, (String.utf8EncodeChar (Char.ofNat i.val)).flatMap escByte =
    (escapedChar (Char.ofNat i.val)).flatMap String.utf8EncodeChar := by decide +kernel

theorem escape_char (c : Char) :
    (String.utf8EncodeChar c).flatMap escByte = (escapedChar c).flatMap String.utf8EncodeChar := by
  by_cases h : c.toNat < 128
  · have := escape_low ⟨c.toNat, h⟩
    simpa using this
  · have h1 : escapedChar c = [c] := by
      have : ∀ d : Char, d.toNat < 128 → c ≠ d := fun d hd he => h (he ▸ hd)
      simp [escapedChar, this '"' (by decide), this '\'' (by decide), this '&' (by decide), this '<' (by decide),
        this '>' (by decide), this '\x00' (by decide)]
    rw [h1]
    have h2 : ∀ w : Bytes, (∀ b ∈ w, 128 ≤ b.toNat) → w.flatMap escByte = w := by
      intro w
      induction w with
      | nil => intro _; rfl
      | cons b w ih =>
        intro hw
        rw [List.flatMap_cons, escByte_high (hw b (List.mem_cons_self ..)), ih fun b h => hw b (List.mem_cons_of_mem _ h)]
        rfl
    rw [h2 _ (encode_high h)]
    simp

theorem escape_chars (cs : List Char) :
    htmlEscapeString (cs.flatMap String.utf8EncodeChar) = (cs.flatMap escapedChar).flatMap String.utf8EncodeChar := by
  rw [htmlEscapeString_eq]
  induction cs with
  | nil => rfl
  | cons c cs ih => simp only [List.flatMap_cons, List.flatMap_append, ih, escape_char]

theorem ascii_natDec (n : Nat) : Ascii (natDec n) := by
  intro c hc
  have h := (canonNat_natDec n).1.2.1 c hc
  exact UInt8.lt_of_le_of_lt h.2 (by decide)

theorem ascii_intDec (i : Int) : Ascii (intDec i) := by
  cases i with
  | ofNat n => exact ascii_natDec n
  | negSucc n =>
    intro c hc
    rcases List.mem_cons.1 hc with rfl | hc
    · decide
    · exact ascii_natDec _ c hc

/-- The library's own markup is ASCII. -/
theorem markup_ascii : ∀ m ∈ [b%"<", b%">", b%"</", b%" ", b%"=\"", b%"\"", b%"<!--", b%"-->", b%"<!", b%">\n", b%"true",
    b%"false", []], Ascii m := by
  unfold Ascii
  decide

theorem document_ascii : ∀ m ∈ [b%"lang", b%"head", b%"body", b%"html", b%"DOCTYPE"], Ascii m := by
  unfold Ascii
  decide

theorem utf8_class : TextClass Utf8 where
  markup m hm := utf8_of_ascii m (markup_ascii m hm)
  int i := utf8_of_ascii _ (ascii_intDec i)
  escape s hs := by
    obtain ⟨cs, rfl⟩ := hs
    exact ⟨_, escape_chars cs⟩

theorem escByte_ascii : ∀ i : Fin 256, i.val < 128 → ∀ b ∈ escByte (UInt8.ofNat i.val), b < 128 := by decide +kernel

theorem ascii_class : TextClass Ascii where
  markup := markup_ascii
  int := ascii_intDec
  escape s hs := by
    rw [htmlEscapeString_eq]
    intro c hc
    obtain ⟨b, hb, hc⟩ := List.mem_flatMap.1 hc
    have h1 : b.toNat < 128 := UInt8.lt_iff_toNat_lt.1 (hs b hb)
    refine escByte_ascii ⟨b.toNat, b.toNat_lt⟩ h1 c ?_
    simpa using hc

/-- A healthy writer takes all of every write. -/
theorem exec_full {α} {env : Env} (H : Healthy env) {m : Prog α} {s s' : St} {r : α}
    (h : exec env m s = some (r, s')) (hs : ∀ e ∈ s.log, e.n = e.data.length) : ∀ e ∈ s'.log, e.n = e.data.length := by
  induction m generalizing s with
  | pure a => cases h; exact hs
  | stuck => cases h
  | step a k ih =>
    refine ih _ h ?_
    cases a with
    | write d =>
      intro e he
      simp only [Action.run, St.wrote, List.mem_append, List.mem_singleton] at he
      rcases he with he | rfl
      · exact hs e he
      · simp [H s.log d]
    | leave => simp only [Action.run]; split <;> exact hs
    | _ => exact hs

theorem utf8_accepted : (l : List WEvent) → (∀ e ∈ l, e.n = e.data.length) → (∀ e ∈ l, Utf8 e.data) → Utf8 (accepted l)
  | [], _, _ => utf8_nil
  | e :: l, h1, h2 => by
    have h3 := utf8_accepted l (fun e h => h1 e (List.mem_cons_of_mem _ h)) fun e h => h2 e (List.mem_cons_of_mem _ h)
    have h4 : accepted (e :: l) = e.data ++ accepted l := by
      simp [accepted, h1 e (List.mem_cons_self ..)]
    rw [h4]
    exact utf8_append (h2 e (List.mem_cons_self ..)) h3

end Aitch
