import Verif.Proofs.Utf8
import Verif.Proofs.StreamFinite
import Verif.Proofs.StreamTemplate
import Verif.Spec.StreamUtf8
/-
Everything written is in the class of texts that the template, the data and the user functions are made of, when functions
write and render.
-/
set_option linter.unusedSectionVars false

namespace Aitch.Stream
open Spec Spec.Stream

/-- `Trip` for code in which the calls of functions run their bodies. -/
def Tri {α} (env : Env) (B : Bodies) (rr : Render) (I : St → Prop) (m : Prog α) (Q : α → St → Prop) : Prop :=
  Trip env I (inlined B rr m) Q

section
variable {env : Env} {B : Bodies} {rr : Render} {α β : Type} {I : St → Prop} {Q : α → St → Prop}

theorem Tri.pure {a : α} (h : ∀ s, I s → Q a s) : Tri env B rr I (Pure.pure a) Q := Trip.pure h

theorem Tri.bind {m : Prog α} {f : α → Prog β} {R : β → St → Prop} (hm : Tri env B rr I m Q)
    (hf : ∀ a, Tri env B rr (Q a) (f a) R) : Tri env B rr I (m >>= f) R := by
  unfold Tri
  rw [inlined_bind]
  exact Trip.bind hm hf

theorem Tri.conseq {m : Prog α} {Q' : α → St → Prop} (h : Tri env B rr I m Q) (hq : ∀ r s, Q r s → Q' r s) :
    Tri env B rr I m Q' := Trip.conseq h hq

theorem Tri.act {a : Action} {Q : a.Resp → St → Prop} (h : ∀ s, I s → Q (a.run env s).1 (a.run env s).2)
    (hi : inlined B rr (.step a .pure) = .step a .pure := by rfl) : Tri env B rr I (.step a .pure) Q := by
  unfold Tri
  rw [hi]
  exact Trip.act h

end

section
variable {T : Bytes → Prop} {env : Env} {B : Bodies} {rr : Render}

/-- `m` keeps `W`. -/
abbrev SW {α} (T : Bytes → Prop) (env : Env) (B : Bodies) (rr : Render) (m : Prog α) : Prop :=
  Tri env B rr (W T) m fun _ => W T

theorem trip_body {α : Type} {P : α → Prop} {b : FnProg α} (hb : BodyTexts T P b)
    (hr : ∀ n, NodeTexts T n → Trip env (W T) (rr n) fun _ => W T) :
    Trip env (W T) (b.run rr) fun a s => W T s ∧ P a := by
  induction hb with
  | ret h => exact Trip.pure fun _ hs => ⟨hs, h⟩
  | user hu _ ih => exact KW.userBind hu fun c hc => ih c hc
  | write hd _ ih => exact Trip.bind (KW.write hd) fun r => KW.lookBind fun c hc => ih r c hc
  | render hn _ ih => exact Trip.bind (hr _ hn) fun e => KW.lookBind fun c hc => ih e c hc

/-- A call of a function. -/
theorem Tri.call {α : Type} {P : α → Prop} {m : Prog α} {body : St → FnProg α}
    (hb : ∀ s : St, MemoryTexts T s.toCtx → BodyTexts T P (body s))
    (hr : ∀ n, NodeTexts T n → Trip env (W T) (rr n) fun _ => W T)
    (h : inlined B rr m = Do.look >>= fun s => (body s).run rr >>= Pure.pure) :
    Tri env B rr (W T) m fun a s => W T s ∧ P a := by
  intro s r s' hs he
  rw [h] at he
  exact KW.lookBind (Q := fun a s => W T s ∧ P a) (fun c hc => Trip.bind (trip_body (hb c hc) hr) fun _ => Trip.pure fun _ h => h)
    s r s' hs he

theorem SW.pure {α} (a : α) : SW T env B rr (Pure.pure a : Prog α) := Tri.pure fun _ h => h

theorem SW.bind {α β} {m : Prog α} {f : α → Prog β} (hm : SW T env B rr m) (hf : ∀ a, SW T env B rr (f a)) : SW T env B rr (m >>= f) :=
  Tri.bind hm hf

theorem SW.when {b : Bool} {m : Prog Unit} (h : SW T env B rr m) : SW T env B rr (Prog.when b m) := by
  unfold Prog.when; split
  · exact h
  · exact SW.pure _

theorem SW.order (ks) : SW T env B rr (Do.order ks) := Tri.act fun _ h => h
theorem SW.setErr (e) : SW T env B rr (Do.setErr e) := Tri.act fun _ h => ⟨⟨h.1.1, h.1.2, h.1.3, h.1.4⟩, h.2⟩

/-- Reading memory. -/
theorem SW.ctxBind {α} {f : Ctx → Prog α} {Q : α → St → Prop}
    (hf : ∀ c, MemoryTexts T c → Tri env B rr (W T) (f c) Q) : Tri env B rr (W T) (Do.ctx >>= f) Q := by
  refine Tri.bind (Q := fun c s => W T s ∧ MemoryTexts T c) (Tri.act fun s h => ⟨h, h.1⟩) fun c => ?_
  intro s r s' hs he
  exact hf c hs.2 s r s' hs.1 he

theorem SW.lookBind {α} {f : St → Prog α} {Q : α → St → Prop}
    (hf : ∀ c : St, MemoryTexts T c.toCtx → Tri env B rr (W T) (f c) Q) : Tri env B rr (W T) (Do.look >>= f) Q := by
  refine Tri.bind (Q := fun c s => W T s ∧ MemoryTexts T c.toCtx) (Tri.act fun s h => ⟨h, h.1⟩) fun c => ?_
  intro s r s' hs he
  exact hf c hs.2 s r s' hs.1 he

theorem SW.userBind {α} {upd : St → St} (hu : KeepsTexts T upd) {f : St → Prog α} {Q : α → St → Prop}
    (hf : ∀ c : St, MemoryTexts T c.toCtx → Tri env B rr (W T) (f c) Q) : Tri env B rr (W T) (Do.user upd >>= f) Q := by
  refine Tri.bind (Q := fun c s => W T s ∧ MemoryTexts T c.toCtx)
    (Tri.act fun s h => ⟨⟨hu s h.1, h.2⟩, hu s h.1⟩) fun c => ?_
  intro s r s' hs he
  exact hf c hs.2 s r s' hs.1 he

theorem SW.write {d : Bytes} (hd : T d) : SW T env B rr (Do.write d) := by
  refine Tri.act fun s h => ⟨⟨h.1.1, h.1.2, h.1.3, h.1.4⟩, ?_⟩
  intro e he
  simp only [Action.run, St.wrote, List.mem_append, List.mem_singleton] at he
  rcases he with he | he
  · exact h.2 e he
  · subst he; exact hd

theorem SW.ctxWrite {d : Bytes} (hd : T d) : SW T env B rr (ctxWrite d) := by
  refine SW.ctxBind fun c _ => ?_
  split
  · exact SW.bind (SW.write hd) fun r => SW.setErr _
  · exact SW.pure _

theorem SW.valueWrite {d : Bytes} (hd : T d) : SW T env B rr (valueWrite d) :=
  SW.bind (SW.write hd) fun _ => SW.bind (SW.setErr _) fun _ => SW.pure _

theorem SW.retErr : SW T env B rr retErr := SW.ctxBind fun _ _ => SW.pure _


variable (C : TextClass T) (F : BodiesTexts T env B ∧ ∀ n, NodeTexts T n → Trip env (W T) (rr n) fun _ => W T)
include C F

theorem SW.runDynBind (d : Dyn) : Tri env B rr (W T) (runDyn d) fun b s => W T s ∧ T b := by
  cases d with
  | user f => exact Tri.call (F.1.dyn f) F.2 rfl
  | key k =>
    refine SW.ctxBind fun c hc => ?_
    split
    · rename_i v hv
      exact Tri.pure fun _ h => ⟨h, texts_valueToBytes C v (texts_lookup hc hv)⟩
    · exact Tri.pure fun _ h => ⟨h, C.nil⟩
  | cargo => exact SW.ctxBind fun c hc => Tri.pure fun _ h => ⟨h, texts_valueToBytes C _ hc.cargo⟩

mutual
theorem SW.renderValue : (v : Value) → ValueTexts T v → SW T env B rr (renderValue v)
  | .mk _ (some d) _, _ => by
    unfold Aitch.renderValue
    refine Tri.bind (SW.runDynBind C F d) fun b => ?_
    intro s r s' hs he
    exact SW.valueWrite hs.2 s r s' hs.1 he
  | .mk value none [], h => by
    unfold Aitch.renderValue
    exact SW.valueWrite h.1
  | .mk value none (c :: cs), h => by
    unfold Aitch.renderValue
    exact SW.bind (SW.renderValue c h.2.1) fun _ => SW.bind (SW.renderConcats cs _ h.2.2) fun _ => SW.pure _
theorem SW.renderConcats : (vs : List Value) → (l : Nat) → ValuesTexts T vs → SW T env B rr (renderConcats vs l)
  | [], _, _ => by unfold Aitch.renderConcats; exact SW.pure _
  | c :: cs, l, h => by
    unfold Aitch.renderConcats
    exact SW.bind (SW.renderValue c h.1) fun _ => SW.renderConcats cs _ h.2
end

theorem SW.renderValues : (vs : List Value) → ValuesTexts T vs → SW T env B rr (renderValues vs)
  | [], _ => SW.pure _
  | v :: vs, h => SW.bind (SW.renderValue C F v h.1) fun _ => SW.renderValues vs h.2

theorem SW.renderDelimValues {d : Bytes} (hd : T d) : (vs : List Value) → (b : Bool) → ValuesTexts T vs →
    SW T env B rr (renderDelimValues d vs b)
  | [], _, _ => SW.pure _
  | v :: vs, _, h => SW.bind (SW.when (SW.ctxWrite hd)) fun _ => SW.bind (SW.renderValue C F v h.1) fun _ =>
      SW.renderDelimValues hd vs _ h.2

theorem SW.renderDelim {n d : Bytes} {vs : List Value} (hn : T n) (hd : T d) (h : ValuesTexts T vs) :
    SW T env B rr (renderDelim n d vs) :=
  SW.bind (SW.ctxWrite (C.markup _ (by simp))) fun _ => SW.bind (SW.ctxWrite hn) fun _ =>
    SW.bind (SW.ctxWrite (C.markup _ (by simp))) fun _ => SW.bind (SW.renderDelimValues C F hd vs _ h) fun _ =>
      SW.ctxWrite (C.markup _ (by simp))

theorem SW.renderAttr (a : Attr) (h : AttrTexts T a) : SW T env B rr (renderAttr a) := by
  cases a with
  | plain n vs =>
    exact SW.bind (SW.ctxWrite (C.markup _ (by simp))) fun _ => SW.bind (SW.ctxWrite h.1) fun _ =>
      SW.bind (SW.ctxWrite (C.markup _ (by simp))) fun _ => SW.bind (SW.renderValues C F vs h.2) fun _ =>
      SW.ctxWrite (C.markup _ (by simp))
  | bool n => exact SW.bind (SW.ctxWrite (C.markup _ (by simp))) fun _ => SW.ctxWrite h
  | delim n d r => exact SW.ctxBind fun c hc => SW.renderDelim C F h.1 h.2 (hc.delimited r)

theorem SW.runCond (c : Cond) : SW T env B rr (runCond c) := by
  cases c with
  | user f => exact (Tri.call (m := Do.cond f) (F.1.cond f) F.2 rfl).conseq fun _ _ h => h.1
  | has k => exact SW.ctxBind fun c _ => by split <;> exact SW.pure _
  | hasNot k => exact SW.ctxBind fun c _ => by split <;> exact SW.pure _

theorem SW.evalConds : (cs : List Cond) → SW T env B rr (evalConds cs)
  | [] => SW.pure _
  | c :: cs => SW.bind (SW.runCond C F c) fun b => by
      cases b
      · exact SW.pure _
      · exact SW.evalConds cs

theorem SW.evaluate : (as : List CondAttr) → (l : List (Bytes × List Attr)) → (∀ a ∈ as, AttrTexts T a.att) →
    EvTexts T l → Tri env B rr (W T) (evaluate as l) fun r s => W T s ∧ EvTexts T r
  | [], l, _, h => Tri.pure fun _ hs => ⟨hs, h⟩
  | a :: as, l, ha, h => Tri.bind (SW.evalConds C F _) fun b =>
      SW.evaluate as _ (fun a h => ha a (List.mem_cons_of_mem _ h)) (by
        split
        · exact evTexts_add (ha a (List.mem_cons_self ..)) h
        · exact h)


theorem SW.renderChosen {att last : Attr} {merged : List Attr} (h1 : AttrTexts T att) (h2 : ∀ a ∈ merged, AttrTexts T a)
    (h3 : AttrTexts T last) : SW T env B rr (renderChosen att merged last) := by
  cases att with
  | plain n vs => exact SW.renderAttr C F _ h3
  | bool n => exact SW.renderAttr C F _ h3
  | delim n d r =>
    refine SW.ctxBind fun c hc => SW.renderDelim C F h1.1 h1.2 (valuesTexts_append.2 ⟨hc.delimited r, ?_⟩)
    rw [valuesTexts_iff]
    intro v hv
    obtain ⟨a, ha, hv⟩ := List.mem_flatMap.1 hv
    exact valuesTexts_iff.1 (texts_values hc (h2 a ha)) v hv


theorem SW.renderStatic {h : ElemHead} (hh : HeadTexts T h) {ev : List (Bytes × List Attr)} (he : EvTexts T ev) (n : Bytes) :
    SW T env B rr (renderStatic h ev n) := by
  unfold Aitch.renderStatic
  split
  · exact SW.pure _
  · split
    · exact SW.pure _
    · rename_i att hatt
      have h1 : AttrTexts T att := hh.attributes att (List.mem_of_getElem? hatt)
      split
      · rename_i eAttr hl
        exact SW.renderChosen C F h1 (evTexts_lookup he hl) (texts_getLast (evTexts_lookup he hl) h1)
      · exact SW.renderAttr C F _ h1

theorem SW.renderStatics {h : ElemHead} (hh : HeadTexts T h) {ev : List (Bytes × List Attr)} (he : EvTexts T ev) :
    (ns : List Bytes) → SW T env B rr (renderStatics h ev ns)
  | [] => SW.pure _
  | n :: ns => SW.bind (SW.renderStatic C F hh he n) fun _ => SW.renderStatics hh he ns

theorem SW.renderExtra (h : ElemHead) {ev : List (Bytes × List Attr)} (he : EvTexts T ev) (n : Bytes) :
    SW T env B rr (renderExtra h ev n) := by
  unfold Aitch.renderExtra
  split
  · rename_i first others _ hl
    have h1 := evTexts_lookup he hl
    exact SW.renderChosen C F (h1 _ (List.mem_cons_self ..)) (fun a ha => h1 a (List.mem_cons_of_mem _ ha))
      (texts_getLast h1 (h1 _ (List.mem_cons_self ..)))
  · exact SW.pure _

theorem SW.renderExtras (h : ElemHead) {ev : List (Bytes × List Attr)} (he : EvTexts T ev) :
    (ns : List Bytes) → SW T env B rr (renderExtras h ev ns)
  | [] => SW.pure _
  | n :: ns => SW.bind (SW.renderExtra C F h he n) fun _ => SW.renderExtras h he ns

theorem SW.renderAttrs : (as : List Attr) → (∀ a ∈ as, AttrTexts T a) → SW T env B rr (renderAttrs as)
  | [], _ => SW.pure _
  | a :: as, h => SW.bind (SW.renderAttr C F a (h a (List.mem_cons_self ..))) fun _ =>
      SW.renderAttrs as fun a ha => h a (List.mem_cons_of_mem _ ha)

theorem SW.renderAttributes {h : ElemHead} (hh : HeadTexts T h) : SW T env B rr (renderAttributes h) := by
  unfold Aitch.renderAttributes
  split
  · refine Tri.bind (SW.evaluate C F _ _ hh.conditionals (by intro p hp; cases hp)) fun ev => ?_
    intro s r s' hs he
    revert he
    refine (?_ : SW T env B rr _) s r s' hs.1
    split
    · exact SW.bind (SW.order _) fun _ => SW.bind (SW.renderStatics C F hh hs.2 _) fun _ => SW.bind (SW.order _) fun _ =>
        SW.renderExtras C F h hs.2 _
    · exact SW.renderAttrs C F _ hh.attributes
  · exact SW.renderAttrs C F _ hh.attributes

theorem SW.renderStartTag {h : ElemHead} (hh : HeadTexts T h) : SW T env B rr (renderStartTag h) :=
  SW.bind (SW.ctxWrite (C.markup _ (by simp))) fun _ => SW.bind (SW.ctxWrite hh.name) fun _ =>
    SW.bind (SW.renderAttributes C F hh) fun _ => SW.ctxWrite (C.markup _ (by simp))

omit F in
theorem SW.renderEndTag {n : Bytes} (hn : T n) : SW T env B rr (renderEndTag n) :=
  SW.bind (SW.ctxWrite (C.markup _ (by simp))) fun _ => SW.bind (SW.ctxWrite hn) fun _ => SW.ctxWrite (C.markup _ (by simp))


theorem SW.startWrite : (l : List (Bytes × Option (List Value))) → StTexts T l → SW T env B rr (startWrite l)
  | [], _ => SW.pure _
  | (n, none) :: l, h =>
    SW.bind (SW.ctxWrite (C.markup _ (by simp))) fun _ => SW.bind (SW.ctxWrite (h _ (List.mem_cons_self ..)).1) fun _ =>
      SW.bind (SW.pure _) fun _ => SW.startWrite l fun p hp => h p (List.mem_cons_of_mem _ hp)
  | (n, some vs) :: l, h =>
    SW.bind (SW.ctxWrite (C.markup _ (by simp))) fun _ => SW.bind (SW.ctxWrite (h _ (List.mem_cons_self ..)).1) fun _ =>
      SW.bind (SW.bind (SW.ctxWrite (C.markup _ (by simp))) fun _ =>
        SW.bind (SW.renderValues C F vs ((h _ (List.mem_cons_self ..)).2 vs rfl)) fun _ =>
        SW.ctxWrite (C.markup _ (by simp))) fun _ => SW.startWrite l fun p hp => h p (List.mem_cons_of_mem _ hp)

theorem SW.startTag {n : Bytes} (hn : T n) {as : List (Option Node)} (ha : ∀ n, some n ∈ as → NodeTexts T n) :
    SW T env B rr (startTag n as) :=
  SW.bind (SW.ctxWrite (C.markup _ (by simp))) fun _ => SW.bind (SW.ctxWrite hn) fun _ => SW.ctxBind fun c hc =>
    SW.bind (SW.startWrite C F _ (texts_startCollect hc as ha [] (by intro p hp; cases hp))) fun _ =>
      SW.ctxWrite (C.markup _ (by simp))

variable {rec : Render} (R : ∀ n, NodeTexts T n → SW T env B rr (rec n))
include R

theorem SW.contentLoop : (ns : List Node) → NodesTexts T ns → SW T env B rr (contentLoop rec ns)
  | [], _ => SW.pure _
  | n :: ns, h => SW.bind (R n h.1) fun _ => SW.bind (SW.setErr _) fun _ => SW.contentLoop ns h.2

theorem SW.collectionLoop : (ns : List Node) → NodesTexts T ns → SW T env B rr (collectionLoop rec ns)
  | [], _ => SW.pure _
  | n :: ns, h => by
    unfold Aitch.collectionLoop
    split
    · exact SW.collectionLoop ns h.2
    · refine SW.bind (R n h.1) fun e => SW.bind (SW.setErr _) fun _ => ?_
      cases e with
      | none => exact SW.collectionLoop ns h.2
      | some e => exact SW.pure _

theorem SW.conditionalLoop : (ns : List Node) → NodesTexts T ns → SW T env B rr (conditionalLoop rec ns)
  | [], _ => SW.pure _
  | n :: ns, h => by
    refine SW.bind (R n h.1) fun e => SW.bind (SW.setErr _) fun _ => ?_
    cases e with
    | none => exact SW.conditionalLoop ns h.2
    | some e => exact SW.pure _

theorem SW.ignoreLoop : (ns : List (Option Node)) → (∀ n, some n ∈ ns → NodeTexts T n) → SW T env B rr (ignoreLoop rec ns)
  | [], _ => SW.pure _
  | none :: ns, h => SW.ignoreLoop ns fun n hn => h n (List.mem_cons_of_mem _ hn)
  | some n :: ns, h => by
    unfold Aitch.ignoreLoop
    split
    · exact SW.ignoreLoop ns fun n hn => h n (List.mem_cons_of_mem _ hn)
    · exact SW.bind (R n (h n (List.mem_cons_self ..))) fun _ =>
        SW.ignoreLoop ns fun n hn => h n (List.mem_cons_of_mem _ hn)

theorem SW.documentLoop : (ns : List Node) → NodesTexts T ns → SW T env B rr (documentLoop rec ns)
  | [], _ => SW.pure _
  | n :: ns, h => SW.bind (R n h.1) fun _ => SW.documentLoop ns h.2

omit F R in
theorem SW.endAll : (st : List Bytes) → (∀ n ∈ st, T n) → SW T env B rr (endAll st)
  | [], _ => SW.pure _
  | n :: st, h => SW.bind (SW.renderEndTag C (h n (List.mem_cons_self ..))) fun _ =>
      SW.endAll st fun n hn => h n (List.mem_cons_of_mem _ hn)

theorem SW.runOp (op : ImpOp) (hop : OpTexts T op) (st : List Bytes) (hst : ∀ n ∈ st, T n) :
    Tri env B rr (W T) (runOp rec op st) fun st s => W T s ∧ ∀ n ∈ st, T n := by
  cases op with
  | writeString d => exact Tri.bind (SW.ctxWrite (C.escape d hop)) fun _ => Tri.pure fun _ h => ⟨h, hst⟩
  | writeRaw d => exact Tri.bind (SW.ctxWrite hop) fun _ => Tri.pure fun _ h => ⟨h, hst⟩
  | writeNodes ns => exact Tri.bind (SW.ignoreLoop C F R ns hop) fun _ => Tri.pure fun _ h => ⟨h, hst⟩
  | start n v as =>
    refine Tri.bind (SW.startTag C F hop.1 hop.2) fun _ => Tri.pure fun _ h => ⟨h, ?_⟩
    split
    · exact hst
    · intro m hm
      rcases List.mem_cons.1 hm with rfl | hm
      · exact hop.1
      · exact hst m hm
  | «end» =>
    cases st with
    | nil => exact Tri.pure fun _ h => ⟨h, hst⟩
    | cons n st =>
      exact Tri.bind (SW.renderEndTag C (hst n (List.mem_cons_self ..))) fun _ => Tri.pure fun _ h =>
        ⟨h, fun m hm => hst m (List.mem_cons_of_mem _ hm)⟩
  | endAll => exact Tri.bind (SW.endAll C st hst) fun _ => Tri.pure fun _ h => ⟨h, fun _ hm => by cases hm⟩

theorem SW.runImp {p : ImpProg} (hp : ImpTexts T p) (st : List Bytes) (hst : ∀ n ∈ st, T n) :
    SW T env B rr (runImp rec p st) := by
  induction hp generalizing st with
  | ret => exact SW.pure _
  | call hop _ ih =>
    refine Tri.bind (SW.runOp C F R _ hop st hst) fun st' => ?_
    intro s r s' hs he
    exact SW.lookBind (fun c hc => ih c hc st' hs.2) s r s' hs.1 he
  | user hu _ ih => exact SW.userBind hu fun c hc => ih c hc st hst
  | render hn _ ih => exact Tri.bind (R _ hn) fun e => SW.lookBind fun c hc => ih e c hc st hst
  | write hd _ ih => exact Tri.bind (SW.write hd) fun r => SW.lookBind fun c hc => ih r c hc st hst


theorem SW.runItems (fn : ItemSrc) : Tri env B rr (W T) (runItems fn) fun its s => W T s ∧ AnysTexts T its := by
  cases fn with
  | user f => exact Tri.call (F.1.items f) F.2 rfl
  | key k => exact SW.ctxBind fun c hc => Tri.pure fun _ h => ⟨h, texts_keyItems C hc k⟩

theorem SW.iterNodes : (ns : List Node) → NodesTexts T ns → SW T env B rr (iterNodes rec ns)
  | [], _ => SW.pure _
  | n :: ns, h => by
    refine SW.bind (R n h.1) fun e => ?_
    cases e with
    | none => exact SW.iterNodes ns h.2
    | some e => exact SW.pure _

omit C F R in
theorem SW.setItem {it : Any} (h : AnyTexts T it) (d) : SW T env B rr (Do.setItem it d) :=
  Tri.act fun _ hs => ⟨⟨h, hs.1.2, hs.1.3, hs.1.4⟩, hs.2⟩

theorem SW.iterItems (ns : List Node) (hn : NodesTexts T ns) (d) : (its : List Any) → AnysTexts T its →
    SW T env B rr (iterItems rec ns d its)
  | [], _ => SW.pure _
  | it :: its, h => by
    refine SW.bind (SW.setItem h.1 _) fun _ => SW.bind (SW.iterNodes C F R ns hn) fun e => ?_
    cases e with
    | none => exact SW.iterItems ns hn d its h.2
    | some e => exact SW.pure _

omit C F R in
theorem SW.enter {f : Frame} (h : AnyTexts T f.cargo) : SW T env B rr (Do.enter f) := by
  refine Tri.act fun s hs => ⟨⟨h, ?_, hs.1.3, hs.1.4⟩, hs.2⟩
  intro g hg
  rcases List.mem_cons.1 hg with rfl | hg
  · exact hs.1.1
  · exact hs.1.2 g hg

omit C F R in
theorem SW.leave : Tri env B rr (W T) Do.leave fun f s => W T s ∧ AnyTexts T f.cargo := by
  refine Tri.act fun s hs => ?_
  simp only [Action.run]
  split
  · exact ⟨hs, hs.1.1⟩
  · rename_i f fs hp
    have h1 : ∀ g ∈ s.parents, AnyTexts T g.cargo := hs.1.2
    rw [hp] at h1
    exact ⟨⟨⟨h1 f (List.mem_cons_self ..), fun g hg => h1 g (List.mem_cons_of_mem _ hg), hs.1.3, hs.1.4⟩, hs.2⟩, hs.1.1⟩

theorem SW.renderIterator (ns : List Node) (hn : NodesTexts T ns) (fn : ItemSrc) :
    SW T env B rr (renderIterator rec ns fn) := by
  refine SW.ctxBind fun c _ => ?_
  split
  · exact SW.pure _
  · refine Tri.bind (SW.runItems C F R fn) fun its => ?_
    intro s r s' hs he
    revert he
    refine (?_ : SW T env B rr _) s r s' hs.1
    split
    · exact SW.pure _
    · refine SW.ctxBind fun c _ => SW.bind (SW.enter trivial) fun _ =>
        SW.bind (SW.iterItems C F R ns hn _ _ hs.2) fun e => Tri.bind (SW.leave.conseq fun _ _ h => h.1) fun _ => ?_
      cases e with
      | none => exact SW.pure _
      | some e => exact SW.bind (SW.setErr _) fun _ => SW.pure _

theorem SW.runYield (ns : List Node) (hn : NodesTexts T ns) {p : YieldBody} (hp : YieldBodyTexts T p) (child : Frame)
    (hc : AnyTexts T child.cargo) : SW T env B rr (runYield rec ns p child) := by
  induction hp generalizing child with
  | done => exact SW.pure _
  | user hu _ ih => exact SW.userBind hu fun c h => ih c h child hc
  | write hd _ ih => exact Tri.bind (SW.write hd) fun r => SW.lookBind fun c h => ih r c h child hc
  | render hn _ ih => exact Tri.bind (R _ hn) fun e => SW.lookBind fun c h => ih e c h child hc
  | yield hit _ ih =>
    refine SW.bind (SW.enter hc) fun _ => SW.bind (SW.setItem hit _) fun _ => SW.bind (SW.iterNodes C F R ns hn) fun e =>
      Tri.bind SW.leave fun child' => ?_
    intro s r s' hs he
    revert he
    refine (?_ : SW T env B rr _) s r s' hs.1
    refine SW.bind ?_ fun _ => SW.lookBind fun c h => ih c h child' hs.2
    cases e with
    | none => exact SW.pure _
    | some e => exact SW.setErr _

theorem SW.renderYield (ns : List Node) (hn : NodesTexts T ns) (f : FnId) : SW T env B rr (renderYield B rec ns f) := by
  refine SW.ctxBind fun c _ => ?_
  split
  · exact SW.pure _
  · exact SW.lookBind fun c hc => SW.bind (SW.runYield C F R ns hn (F.1.yields f c hc) _ (show AnyTexts T Any.nil from trivial))
      fun _ => SW.retErr

theorem SW.step (n : Node) (hn : NodeTexts T n) : SW T env B rr (step B rec n) := by
  cases n with
  | element h cs =>
    exact SW.bind (SW.renderStartTag C F hn.1) fun _ => SW.bind (SW.contentLoop C F R cs hn.2) fun _ =>
      SW.bind (SW.renderEndTag C hn.1.name) fun _ => SW.retErr
  | voidElement h => exact SW.bind (SW.renderStartTag C F hn) fun _ => SW.retErr
  | attr a => exact SW.bind (SW.renderAttr C F a hn) fun _ => SW.retErr
  | text vs => exact SW.bind (SW.renderValues C F vs hn) fun _ => SW.retErr
  | comment vs =>
    exact SW.bind (SW.ctxWrite (C.markup _ (by simp))) fun _ => SW.bind (SW.renderValues C F vs hn) fun _ =>
      SW.bind (SW.ctxWrite (C.markup _ (by simp))) fun _ => SW.retErr
  | fragment vs => exact SW.bind (SW.renderValues C F vs hn) fun _ => SW.retErr
  | pi n vs =>
    exact SW.bind (SW.ctxWrite (C.markup _ (by simp))) fun _ => SW.bind (SW.ctxWrite hn.1) fun _ =>
      SW.bind (SW.ctxWrite (C.markup _ (by simp))) fun _ => SW.bind (SW.renderValues C F vs hn.2) fun _ =>
      SW.bind (SW.ctxWrite (C.markup _ (by simp))) fun _ => SW.retErr
  | collection ns => exact SW.bind (SW.collectionLoop C F R ns hn) fun _ => SW.retErr
  | conditional ns as fn =>
    exact SW.bind (SW.runCond C F fn) fun _ => SW.bind (SW.when (SW.conditionalLoop C F R ns hn.1)) fun _ => SW.retErr
  | collector f =>
    refine Tri.bind (Q := fun ns s => W T s ∧ ∀ n, some n ∈ ns → NodeTexts T n)
      (Tri.call (m := Do.collect f) (F.1.collect f) F.2 rfl) fun ns => ?_
    intro s r s' hs he
    exact SW.bind (SW.ignoreLoop C F R ns hs.2) (fun _ => SW.retErr) s r s' hs.1 he
  | imperative f =>
    cases f with
    | none => exact SW.pure _
    | some f =>
      refine Tri.bind (Q := fun p s => W T s ∧ ImpTexts T p) (Tri.act fun s h => ⟨h, F.1.imp f s h.1⟩) fun p => ?_
      intro s r s' hs he
      exact SW.runImp C F R hs.2 [] (by intro n hn; cases hn) s r s' hs.1 he
  | iterator ns fn => exact SW.renderIterator C F R ns hn fn
  | yieldIterator ns f => exact SW.renderYield C F R ns hn f
  | document p cs =>
    refine SW.bind (SW.documentLoop C F R _ ?_) fun _ => SW.retErr
    cases p with
    | none => exact hn
    | some p => exact hn

omit R F in
theorem SW.nested (F : BodiesTexts T env B ∧ ∀ n, NodeTexts T n → Trip env (W T) (rr n) fun _ => W T) :
    (fuel : Nat) → (n : Node) → NodeTexts T n → SW T env B rr (nested B fuel n)
  | 0, _, _ => Trip.stuck
  | fuel + 1, n, hn => SW.step C F (SW.nested F fuel) n hn

end

theorem trip_renderWith {T : Bytes → Prop} {env : Env} {B : Bodies} (C : TextClass T) (F : BodiesTexts T env B) : (fuel : Nat) →
    (n : Node) → NodeTexts T n → Trip env (W T) (renderWith B fuel n) fun _ => W T
  | 0, _, _ => Trip.stuck
  | fuel + 1, n, hn => SW.nested C ⟨F, trip_renderWith C F fuel⟩ (fuel + 1) n hn

/-- Templates. -/
theorem parts_texts {T : Bytes → Prop} {env : Env} {B : Bodies} (C : TextClass T) (F : BodiesTexts T env B)
    (L : ∀ m ∈ [b%"ZgotmplZ", b%"\"\"", b%"&#34;&#34;"], T m) {t : List Part} (ht : ∀ p ∈ t, PartTexts T p) {s s' : St}
    {e : Option Err} (hs : W T s) (h : PartsRun env B t s e s') : W T s' := by
  have node : ∀ {n : Node} {s s' : St} {e : Option Err}, NodeTexts T n → W T s → Ends env B n s e s' → W T s' := by
    rintro n s s' e hn hs ⟨fuel, h⟩
    exact trip_renderWith C F fuel n hn s e s' hs h
  have text : ∀ {x : Bytes} {s s' : St} {e : Option Err}, T x → W T s → Wrote env x s e s' → W T s' := by
    rintro x s s' e hx hs ⟨rfl, rfl⟩
    exact KW.write hx s _ _ hs rfl
  have left : ∀ {n : Node} {p : Place} {w : Bytes}, Spec.Leaves n p w → T w := by
    intro n p w h
    rw [h]
    cases p with
    | tag => cases n <;> first | exact C.nil | exact L _ (.head _)
    | unquoted => exact L _ (.head _)
    | script => exact L _ (.tail _ (.head _))
    | handler => exact L _ (.tail _ (.tail _ (.head _)))
    | _ => exact C.nil
  induction h with
  | done => exact hs
  | text hw _ ih => exact ih (fun p hp => ht p (List.mem_cons_of_mem _ hp)) (text (ht _ (List.mem_cons_self ..)) hs hw)
  | textFails hw => exact text (ht _ (List.mem_cons_self ..)) hs hw
  | node h hl hw _ ih =>
    exact ih (fun p hp => ht p (List.mem_cons_of_mem _ hp)) (text (left hl) (node (ht _ (List.mem_cons_self ..)) hs h) hw)
  | nodeFails h => exact node (ht _ (List.mem_cons_self ..)) hs h
  | restFails h hl hw => exact text (left hl) (node (ht _ (List.mem_cons_self ..)) hs h) hw

end Aitch.Stream
