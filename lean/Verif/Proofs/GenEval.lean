import Verif.Proofs.GenTables
import Verif.Proofs.GeneratorLex
import Verif.Proofs.Element
import Verif.Proofs.Leaf
/-
Running the generated code.
-/
namespace Aitch

open Spec

/-- Memory `h'` keeps what was in `h`. -/
def Ext (h h' : Heap) : Prop := h.next ≤ h'.next ∧ ∀ r, r < h.next → h'.dl r = h.dl r

theorem Ext.refl (h : Heap) : Ext h h := ⟨Nat.le_refl _, fun _ _ => rfl⟩

theorem Ext.trans {h h' h'' : Heap} (a : Ext h h') (b : Ext h' h'') : Ext h h'' :=
  ⟨Nat.le_trans a.1 b.1, fun r hr => (b.2 r (Nat.lt_of_lt_of_le hr a.1)).trans (a.2 r hr)⟩

/-- Memory `dl` agrees with what is in `h`. -/
def MemAgree (dl : Nat → List Value) (h : Heap) : Prop := ∀ r, r < h.next → dl r = h.dl r

theorem MemAgree.of_ext {dl : Nat → List Value} {h h' : Heap} (a : MemAgree dl h') (b : Ext h h') : MemAgree dl h :=
  fun r hr => (a r (Nat.lt_of_lt_of_le hr b.1)).trans (b.2 r hr)

/-- No user functions. -/
abbrev noUse : Action → Prop := fun _ => False

/-! ### Elements with distinct attributes -/

theorem lookup_snoc_none {l : List (Bytes × Nat)} {k k' : Bytes} {v : Nat} (h : l.lookup k = none) (hk : k ≠ k') :
    (l ++ [(k', v)]).lookup k = none := by
  induction l with
  | nil => rw [List.nil_append, List.lookup_cons]; simp [beq_false_of_ne hk]
  | cons e l ih =>
    obtain ⟨j, w⟩ := e
    rw [List.cons_append, List.lookup_cons]
    rw [List.lookup_cons] at h
    by_cases hj : k = j
    · subst hj; simp at h
    · simp only [beq_false_of_ne hj] at h ⊢; exact ih h

theorem addAttributes_distinct (as : List Attr) (e : ElemHead) (dl : Nat → List Value)
    (hn : (as.map Attr.name).Nodup) (hl : ∀ a ∈ as, e.attIndices.lookup a.name = none) :
    ∃ e', addAttributes as e dl = (e', dl) ∧ e'.name = e.name ∧ e'.attributes = e.attributes ++ as ∧
      e'.conditionals = e.conditionals := by
  induction as generalizing e with
  | nil => exact ⟨e, rfl, rfl, by simp, rfl⟩
  | cons a as ih =>
    rw [List.map_cons, List.nodup_cons] at hn
    simp only [addAttributes, hl a (.head _)]
    obtain ⟨e', h1, h2, h3, h4⟩ := ih
      { e with attIndices := e.attIndices ++ [(a.name, e.attributes.length)], attributes := e.attributes ++ [a] } hn.2
      (fun b hb => lookup_snoc_none (hl b (.tail _ hb)) fun hab => hn.1 (hab ▸ List.mem_map_of_mem hb))
    exact ⟨e', h1, h2, by rw [h3]; simp, h4⟩

theorem declaredAll_append (cs : List Cond) (ns ms : List Node) :
    declaredAll cs (ns ++ ms) = declaredAll cs ns ++ declaredAll cs ms := by
  induction ns with
  | nil => rfl
  | cons n ns ih => simp [declaredAll, ih]

theorem declared_leaf (cs : List Cond) {n : Node} (h : carries n = false) : declared cs n = [] := by
  cases n <;> first | rfl | simp [carries] at h

theorem separate_leaf (k : Nat) {n : Node} (h : carries n = false) : Separate k n := by
  cases n <;> trivial

theorem declaredAll_leaves (cs : List Cond) {ns : List Node} (h : ∀ n ∈ ns, carries n = false) :
    declaredAll cs ns = [] := by
  induction ns with
  | nil => rfl
  | cons n ns ih => simp [declaredAll, declared_leaf cs (h n (.head _)), ih fun m hm => h m (.tail _ hm)]

theorem separateAll_leaves (k : Nat) {ns : List Node} (h : ∀ n ∈ ns, carries n = false) : SeparateAll k ns := by
  induction ns with
  | nil => trivial
  | cons n ns ih => exact ⟨separate_leaf k (h n (.head _)), ih fun m hm => h m (.tail _ hm)⟩

theorem declaredAll_attrs (as : List Attr) : declaredAll [] (as.map .attr) = as.map fun a => (a, []) := by
  induction as with
  | nil => rfl
  | cons a as ih => simp [declaredAll, declared, ih]

theorem separateAll_attrs (k : Nat) (as : List Attr) (ns : List Node) (h : SeparateAll k ns) :
    SeparateAll k (as.map .attr ++ ns) := by
  induction as with
  | nil => exact h
  | cons a as ih => exact ⟨trivial, ih⟩

/-- Attributes and nodes as arguments. -/
def argsOf (as : List Attr) (ns : List Node) : List Any := as.map (fun a => .node (.attr a)) ++ ns.map .node

theorem argsOf_nodes (dl : Nat → List Value) (as : List Attr) (ns : List Node) :
    (argsOf as ns).map (asNode dl) = as.map .attr ++ ns := by
  simp [argsOf, List.map_map, Function.comp_def, asNode]

theorem newElement_distinct (name : Bytes) {as : List Attr} {ns : List Node} (hn : (as.map Attr.name).Nodup)
    (hl : ∀ n ∈ ns, carries n = false) (h : Heap) :
    ∃ e, NewElement name (argsOf as ns) h = (.element e ns, h) ∧ NewVoidElement name (argsOf as ns) h = (.voidElement e, h) ∧
      e.name = name ∧ e.attributes = as ∧ e.conditionals = [] ∧ WFHead e := by
  have hd : declaredAll [] (as.map .attr ++ ns) = as.map fun a => (a, []) := by
    rw [declaredAll_append, declaredAll_attrs, declaredAll_leaves [] hl, List.append_nil]
  have hs : staticAttrs (as.map .attr ++ ns) = as := by
    unfold staticAttrs; rw [hd]
    simp [List.filter_map, Function.comp_def]
  have hc : (attributesAndContents (as.map .attr ++ ns)).2.1 = [] := by
    rw [attributesAndContents_conds (separateAll_attrs 0 as ns (separateAll_leaves 0 hl))]
    unfold condAttrs; rw [hd]
    simp [List.filter_map, Function.comp_def]
  have hna : nonAttrs (as.map .attr ++ ns) = ns := by
    unfold nonAttrs
    rw [List.filter_append]
    have h1 : (as.map Node.attr).filter (fun n => !n.isAttr) = [] := by
      rw [List.filter_eq_nil_iff]
      intro n hn
      obtain ⟨a, _, rfl⟩ := List.mem_map.1 hn
      simp [Node.isAttr, Node.type]
    have h2 : ns.filter (fun n => !n.isAttr) = ns := by
      rw [List.filter_eq_self]
      intro n hn
      have := hl n hn
      cases n <;> first | rfl | simp [carries] at this
    rw [h1, h2, List.nil_append]
  obtain ⟨e, dl, h1, h2⟩ := newElement_eq name (argsOf as ns) h
  obtain ⟨e2, dl2, h3, h4⟩ := newVoidElement_eq name (argsOf as ns) h
  rw [argsOf_nodes, hs, hc] at h2 h4
  rw [argsOf_nodes, hna] at h1
  obtain ⟨e', k1, k2, k3, k4⟩ := addAttributes_distinct as ⟨name, [], [], []⟩ h.dl hn (fun _ _ => rfl)
  have hm := (addAttributes_merged as name [] h.dl).1
  rw [k1] at h2 h4 hm
  cases h2; cases h4
  exact ⟨e, h1, h3, k2, by simpa using k3, k4, hm.wf⟩

/-! ### Results -/

/-- Evaluating to nodes `ns`, from memory `h` to `h'`, that write exactly `w`. -/
structure Res (h h' : Heap) (ns : List Node) (w : Bytes) : Prop where
  ext : Ext h h'
  leaf : ∀ n ∈ ns, carries n = false
  wf : ∀ n ∈ ns, WF n
  uses : ∀ dl, MemAgree dl h' → ∀ n ∈ ns, CallbackFree dl n
  out : ∀ P c, MemAgree c.dl h' → ∀ w', OutAll P c ns w' ↔ w' = w

theorem Res.nil (h : Heap) : Res h h [] [] :=
  ⟨.refl h, by simp, by simp, by simp, fun P c _ w' => ⟨fun h => by cases h; rfl, fun h => by subst h; exact .nil⟩⟩

theorem Res.append {h h' h'' : Heap} {ns ms : List Node} {w v : Bytes} (a : Res h h' ns w) (b : Res h' h'' ms v) :
    Res h h'' (ns ++ ms) (w ++ v) where
  ext := a.ext.trans b.ext
  leaf n hn := by
    rcases List.mem_append.1 hn with hn | hn
    · exact a.leaf n hn
    · exact b.leaf n hn
  wf n hn := by
    rcases List.mem_append.1 hn with hn | hn
    · exact a.wf n hn
    · exact b.wf n hn
  uses dl hd n hn := by
    rcases List.mem_append.1 hn with hn | hn
    · exact a.uses dl (hd.of_ext b.ext) n hn
    · exact b.uses dl hd n hn
  out P c hc w' := by
    rw [outAll_append]
    constructor
    · rintro ⟨w1, w2, h1, h2, rfl⟩
      rw [(a.out P c (hc.of_ext b.ext) w1).1 h1, (b.out P c hc w2).1 h2]
    · rintro rfl
      exact ⟨w, v, (a.out P c (hc.of_ext b.ext) w).2 rfl, (b.out P c hc v).2 rfl, rfl⟩

theorem Res.one {h : Heap} {n : Node} {w : Bytes} (hl : carries n = false) (hw : WF n)
    (hu : ∀ dl, MemAgree dl h → CallbackFree dl n)
    (ho : ∀ P c, MemAgree c.dl h → ∀ w', Out P c n w' ↔ w' = w) : Res h h [n] w where
  ext := .refl h
  leaf := by simpa using hl
  wf := by simpa using hw
  uses dl hd := by simpa using hu dl hd
  out P c hc w' := by rw [outAll_one]; exact ho P c hc w'

theorem evalAll_append (strict : Bool) {es es' : List Expr} {h h' h'' : Heap} {vs vs' : List Any}
    (h1 : evalAll strict es h = some (vs, h')) (h2 : evalAll strict es' h' = some (vs', h'')) :
    evalAll strict (es ++ es') h = some (vs ++ vs', h'') := by
  induction es generalizing h vs with
  | nil => cases h1; exact h2
  | cons e es ih =>
    simp only [List.cons_append, evalAll] at h1 ⊢
    cases he : eval strict e h with
    | none => simp [he] at h1
    | some r =>
      simp only [he] at h1 ⊢
      cases hes : evalAll strict es r.2 with
      | none => simp [hes] at h1
      | some q =>
        simp only [hes, Option.some.injEq, Prod.mk.injEq] at h1
        obtain ⟨rfl, rfl⟩ := h1
        rw [ih hes]; rfl

theorem evalAll_one (strict : Bool) {e : Expr} {h h' : Heap} {v : Any} (he : eval strict e h = some (v, h')) :
    evalAll strict [e] h = some ([v], h') := by
  simp [evalAll, he]

/-! ### Packages -/

/-- The tables of a package fit its functions. -/
structure PkgOK (p : GenPkg) : Prop where
  elems : ∀ r ∈ p.elems, isElemFn r.1 (resolve (p.pre ++ r.2)) = true
  attrs : ∀ r ∈ p.attrs, r.1 ≠ b%"aria-" → r.1 ≠ b%"data-" →
    isAttrFn r.1 (p.bools.contains r.1) (resolve (p.pre ++ r.2)) = true
  bools : ∀ b ∈ p.bools, p.attrs.lookup b ≠ none
  text : ∃ f, resolve (p.pre ++ b%"Text") = some f ∧
    ∀ strict args h, f.call strict args h = some (.node (Text h.dl args), h)
  comment : ∃ f, resolve (p.pre ++ b%"Comment") = some f ∧
    ∀ strict args h, f.call strict args h = some (.node (Comment h.dl args), h)
  elemKeys : ∀ r ∈ p.elems, Quotable r.1
  attrKeys : ∀ r ∈ p.attrs, Quotable r.1

instance (s : Bytes) : Decidable (Quotable s) := by unfold Quotable; infer_instance

theorem ok_html : PkgOK htmlPkg where
  elems := htmlElems_ok
  attrs := htmlAttrs_ok
  bools := by decide +kernel
  text := ⟨.htmlText, by decide +kernel, fun _ _ _ => rfl⟩
  comment := ⟨.htmlComment, by decide +kernel, fun _ _ _ => rfl⟩
  elemKeys := by decide +kernel
  attrKeys := by decide +kernel

theorem ok_svg : PkgOK svgPkg where
  elems := svgElems_ok
  attrs r hr _ _ := svgAttrs_ok r hr
  bools := by decide
  text := ⟨.svgText, by decide +kernel, fun _ _ _ => rfl⟩
  comment := ⟨.svgComment, by decide +kernel, fun _ _ _ => rfl⟩
  elemKeys := by decide +kernel
  attrKeys := by decide +kernel

theorem quotable_valid {n : Bytes} (h : ValidName n) : Quotable n := by
  obtain ⟨c, cs, rfl, h1, h2⟩ := h
  have k : ∀ d ∈ nameChars, d ≠ c%'"' ∧ d ≠ c%'\\' ∧ d ≠ 10 := by decide
  intro d hd
  rcases List.mem_cons.1 hd with rfl | hd
  · exact k _ (List.mem_append_left _ h1)
  · exact k d (h2 d hd)

section
variable {p : GenPkg} (K : PkgOK p) (strict : Bool)
include K

theorem usable_attr_quotable {n : Bytes} (h : UsableName p.attrs n) : Quotable n := by
  cases hl : p.attrs.lookup n with
  | none => exact quotable_valid (h.2 hl)
  | some f => exact K.attrKeys _ (mem_of_lookup hl)

theorem usable_elem_quotable {n : Bytes} (h : UsableName p.elems n) : Quotable n := by
  cases hl : p.elems.lookup n with
  | none => exact quotable_valid (h.2 hl)
  | some f => exact K.elemKeys _ (mem_of_lookup hl)

set_option linter.unusedSectionVars false in
mutual
theorem usable_quotable : (d : Doc) → d.Usable p → d.QuotableNames
  | .text _, _ => trivial
  | .comment _, _ => trivial
  | .doctype _, _ => trivial
  | .elem _ _ cs, h =>
    ⟨usable_elem_quotable K h.1, fun a ha => usable_attr_quotable K (h.2.1.2 a ha).1, usableAll_quotable cs h.2.2⟩
  | .selfClosing _ _, h => ⟨usable_elem_quotable K h.1, fun a ha => usable_attr_quotable K (h.2.2 a ha).1⟩
  | .void _ _, h => ⟨usable_elem_quotable K h.1, fun a ha => usable_attr_quotable K (h.2.2 a ha).1⟩
theorem usableAll_quotable : (ds : List Doc) → UsableAll p ds → QuotableNamesAll ds
  | [], _ => trivial
  | d :: ds, h => ⟨usable_quotable d h.1, usableAll_quotable ds h.2⟩
end

/-- An attribute that was built, from memory `h` to `h'`, for the attribute `a` of the input. -/
structure AttrRes (p : GenPkg) (h h' : Heap) (a : Bytes × Bytes) (at' : Attr) : Prop where
  ext : Ext h h'
  name : at'.name = a.1
  uses : ∀ dl, MemAgree dl h' → AttrUses noUse (fun r => ValuesUse noUse (dl r)) at'
  shows : ∀ P c, MemAgree c.dl h' → (shown P c at').bytes = attrHtml p a

theorem eval_attr (h : Heap) (a : Bytes × Bytes) (hu : UsableName p.attrs a.1) (h1 : a.1 ≠ b%"aria-") (h2 : a.1 ≠ b%"data-") :
    ∃ at' h', eval strict (attrExpr p a) h = some (.node (.attr at'), h') ∧ AttrRes p h h' a at' := by
  have hval : ∀ (P : Fns) (c : Ctx) (dl : Nat → List Value), valuesBytes P c (newValues dl [.str a.2]) = escaped a.2 := by
    intro P c dl
    have := valuesBytes_strs P c dl [a.2]
    simpa using this
  have huse : ∀ dl, ValuesUse noUse (newValues dl [.str a.2]) := fun dl => valuesUse_plain (by simp [Plain])
  unfold attrExpr
  rw [hu.1]
  cases hl : p.attrs.lookup a.1 with
  | none =>
    have hnb : a.1 ∉ p.bools := fun hb => K.bools _ hb hl
    have hm := (htmlTagMatch_iff a.1).2 (hu.2 hl)
    refine ⟨.plain a.1 (newValues h.dl [.str a.2]), h, ?_, .refl h, rfl, fun dl _ => huse _, fun P c hc => ?_⟩
    · have hr : resolve b%"aitch.Attribute" = some .aitchAttribute := by decide
      simp only [eval, evalAll, hr, LibFn.call, Attribute, hm, ↓reduceIte]; rfl
    · simp only [shown, Shown.bytes, hval, attrHtml, if_neg hnb]
  | some f =>
    have hf := K.attrs _ (mem_of_lookup hl) h1 h2
    unfold isAttrFn at hf
    split at hf
    · rename_i g hr
      simp only [Bool.and_eq_true, beq_iff_eq] at hf
      obtain ⟨hg, hb⟩ := hf
      by_cases hbool : a.1 ∈ p.bools
      · have hc : p.bools.contains a.1 = true := by rw [List.contains_iff_mem]; exact hbool
        rw [hc] at hb
        have hk : g.kind = .bool := by simpa using hb
        refine ⟨.bool a.1, h, ?_, .refl h, rfl, fun dl _ => trivial, fun P c _ => ?_⟩
        · simp only [hc, ↓reduceIte, eval, evalAll, hr, LibFn.call, hk, ne_eq, not_true_eq_false, and_false,
            AttrFn.call, NewBooleanAttribute, hg]
        · simp only [shown, Shown.bytes, attrHtml, if_pos hbool]
      · have hc : p.bools.contains a.1 = false := by
          rw [← Bool.not_eq_true, List.contains_iff_mem]; exact hbool
        rw [hc] at hb
        have hk : g.kind ≠ .bool := by simpa using hb
        cases hkk : g.kind with
        | bool => exact absurd hkk hk
        | plain =>
          refine ⟨.plain a.1 (newValues h.dl [.str a.2]), h, ?_, .refl h, rfl, fun dl _ => huse _, fun P c _ => ?_⟩
          · simp [hbool, eval, evalAll, hr, LibFn.call, hkk, AttrFn.call, NewAttribute, hg]
          · simp only [shown, Shown.bytes, hval, attrHtml, if_neg hbool]
        | delim d =>
          refine ⟨.delim a.1 d h.next, ⟨upd h.dl h.next (newValues h.dl [.str a.2]), h.next + 1⟩, ?_, ?_, rfl, ?_, ?_⟩
          · simp [hbool, eval, evalAll, hr, LibFn.call, hkk, AttrFn.call, NewDelimitedAttribute, hg]
          · refine ⟨Nat.le_succ _, fun r hr => ?_⟩
            simp [upd, Nat.ne_of_lt hr]
          · intro dl hd
            have := hd h.next (Nat.lt_succ_self _)
            simp only [AttrUses, this, upd, ↓reduceIte]
            exact huse _
          · intro P c hc
            have := hc h.next (Nat.lt_succ_self _)
            simp only [shown, Shown.bytes, this, upd, ↓reduceIte, attrHtml, if_neg hbool]
            have hv := hval P c h.dl
            cases hn : newValues h.dl [.str a.2] with
            | nil => rw [hn] at hv; simp [valuesBytes] at hv; simp [delimJoin, ← hv]
            | cons v vs =>
              have : vs = [] := by
                have := congrArg List.length hn
                simp [newValue, newValues] at this
                exact this
              subst this
              rw [hn] at hv; simp [valuesBytes] at hv
              simp [delimJoin, hv]
    · simp at hf

/-- Attributes that were built, from memory `h` to `h'`. -/
structure AttrsRes (p : GenPkg) (h h' : Heap) (as : List (Bytes × Bytes)) (ats : List Attr) : Prop where
  ext : Ext h h'
  names : ats.map Attr.name = as.map (·.1)
  uses : ∀ dl, MemAgree dl h' → ∀ a ∈ ats, AttrUses noUse (fun r => ValuesUse noUse (dl r)) a
  shows : ∀ P c, MemAgree c.dl h' → (ats.map (shown P c)).flatMap Shown.bytes = as.flatMap (attrHtml p)

theorem eval_attrs (h : Heap) (as : List (Bytes × Bytes))
    (hu : ∀ a ∈ as, UsableName p.attrs a.1 ∧ a.1 ≠ b%"aria-" ∧ a.1 ≠ b%"data-") :
    ∃ ats h', evalAll strict (as.map (attrExpr p)) h = some (ats.map fun a => .node (.attr a), h') ∧
      AttrsRes p h h' as ats := by
  induction as generalizing h with
  | nil => exact ⟨[], h, rfl, .refl h, rfl, by simp, by simp⟩
  | cons a as ih =>
    obtain ⟨u1, u2, u3⟩ := hu a (.head _)
    obtain ⟨at', h1, e1, r1⟩ := eval_attr K strict h a u1 u2 u3
    obtain ⟨ats, h2, e2, r2⟩ := ih h1 fun b hb => hu b (.tail _ hb)
    refine ⟨at' :: ats, h2, ?_, r1.ext.trans r2.ext, ?_, ?_, ?_⟩
    · simp only [List.map_cons, evalAll, e1, e2]
    · simp [r1.name, r2.names]
    · intro dl hd x hx
      rcases List.mem_cons.1 hx with rfl | hx
      · exact r1.uses dl (hd.of_ext r2.ext)
      · exact r2.uses dl hd x hx
    · intro P c hc
      simp only [List.map_cons, List.flatMap_cons]
      rw [r1.shows P c (hc.of_ext r2.ext), r2.shows P c hc]

theorem eval_elem (name : Bytes) (hn : UsableName p.elems name) (as : List (Bytes × Bytes)) (ha : UsableAttrs p as)
    (h : Heap) {es : List Expr} {content : Bytes}
    (hc : ∀ h, ∃ ns h', evalAll strict es h = some (ns.map .node, h') ∧ Res h h' ns content) :
    ∃ n h', eval strict (elemExpr p name (as.map (attrExpr p) ++ es)) h = some (.node n, h') ∧
      Res h h' [n] (elemHtml p name as content) := by
  obtain ⟨ats, h1, e1, r1⟩ := eval_attrs K strict h as ha.2
  obtain ⟨ns, h2, e2, r2⟩ := hc h1
  have e3 := evalAll_append strict e1 e2
  obtain ⟨e, n1, n2, n3, n4, n5, n6⟩ := newElement_distinct name (as := ats) (ns := ns) (by rw [r1.names]; exact ha.1) r2.leaf h2
  have hTag : ∀ P c, MemAgree c.dl h2 → ∀ l, TagShows P c e l ↔ l = ats.map (shown P c) := by
    intro P c _ l
    simp [TagShows, n5, active, n4]
  have hTagB : ∀ P c, MemAgree c.dl h2 → tagBytes e.name (ats.map (shown P c)) =
      b%"<" ++ name ++ as.flatMap (attrHtml p) ++ b%">" := by
    intro P c hc
    unfold tagBytes
    rw [n3, r1.shows P c (hc.of_ext r2.ext)]
  have hHead : ∀ dl, MemAgree dl h2 → HeadUses noUse (fun r => ValuesUse noUse (dl r)) e := by
    intro dl hd
    refine ⟨?_, ?_⟩
    · rw [n4]; exact r1.uses dl (hd.of_ext r2.ext)
    · rw [n5]; simp
  have hV : name ∈ htmlVoidNames → Res h h2 [.voidElement e] (elemHtml p name as content) := by
    intro hv
    have hr : Res h2 h2 [.voidElement e] (elemHtml p name as content) := by
      refine Res.one rfl n6 (fun dl hd => hHead dl hd) fun P c hc w' => ?_
      constructor
      · intro ho
        cases ho with
        | voidElement ht =>
          rw [(hTag P c hc _).1 ht, hTagB P c hc]
          simp [elemHtml, hv]
      · rintro rfl
        have := Out.voidElement (P := P) (c := c) ((hTag P c hc _).2 rfl)
        rw [hTagB P c hc] at this
        simpa [elemHtml, hv] using this
    exact { hr with ext := (r1.ext.trans r2.ext).trans hr.ext }
  have hE : name ∉ htmlVoidNames → Res h h2 [.element e ns] (elemHtml p name as content) := by
    intro hv
    have hr : Res h2 h2 [.element e ns] (elemHtml p name as content) := by
      refine Res.one rfl ⟨n6, (wfAll_iff ns).2 r2.wf⟩ (fun dl hd => ⟨hHead dl hd, (nodesUse_iff ns).2 (r2.uses dl hd)⟩)
        fun P c hc w' => ?_
      constructor
      · intro ho
        cases ho with
        | element ht hw =>
          rw [(hTag P c hc _).1 ht, hTagB P c hc, (r2.out P c hc _).1 hw]
          simp [elemHtml, hv, endBytes, n3]
      · rintro rfl
        have := Out.element (P := P) (c := c) ((hTag P c hc _).2 rfl) ((r2.out P c hc _).2 rfl)
        rw [hTagB P c hc] at this
        simpa [elemHtml, hv, endBytes, n3] using this
    exact { hr with ext := (r1.ext.trans r2.ext).trans hr.ext }
  have hargs : ats.map (fun a => Any.node (.attr a)) ++ ns.map .node = argsOf ats ns := rfl
  rw [hargs] at e3
  unfold elemExpr
  rw [hn.1]
  cases hl : p.elems.lookup name with
  | some f =>
    have hf := K.elems _ (mem_of_lookup hl)
    unfold isElemFn at hf
    split at hf
    · rename_i g hr
      simp only [Bool.and_eq_true, beq_iff_eq] at hf
      obtain ⟨hg, hb⟩ := hf
      by_cases hv : name ∈ htmlVoidNames
      · have hcv : htmlVoidNames.contains name = true := by rw [List.contains_iff_mem]; exact hv
        rw [hcv] at hb
        refine ⟨_, _, ?_, hV hv⟩
        simp only [eval, e3, hr, LibFn.call, ElemFn.call, hb, ↓reduceIte, hg, n2]
      · have hcv : htmlVoidNames.contains name = false := by
          rw [← Bool.not_eq_true, List.contains_iff_mem]; exact hv
        rw [hcv] at hb
        refine ⟨_, _, ?_, hE hv⟩
        simp [eval, e3, hr, LibFn.call, ElemFn.call, hb, hg, n1]
    · simp at hf
  | none =>
    have hm := (htmlTagMatch_iff name).2 (hn.2 hl)
    have hr : resolve b%"aitch.Element" = some .aitchElement := by decide
    by_cases hv : name ∈ htmlVoidNames
    · have hcv : voidElementNames.contains name = true := by rw [List.contains_iff_mem]; exact hv
      refine ⟨_, _, ?_, hV hv⟩
      simp only [eval, evalAll, e3, hr, LibFn.call, Element, hm, ↓reduceIte, hcv, n2, nodeResult]
    · have hcv : ¬ name ∈ voidElementNames := hv
      refine ⟨_, _, ?_, hE hv⟩
      simp [eval, evalAll, e3, hr, LibFn.call, Element, hm, hcv, n1, nodeResult]

set_option linter.unusedSectionVars false in
mutual
theorem eval_doc : (d : Doc) → d.Usable p → (h : Heap) →
    ∃ ns h', evalAll strict (d.code p) h = some (ns.map .node, h') ∧ Res h h' ns (d.html p)
  | .text d, _, h => by
    unfold Doc.code Doc.html
    have hval : ∀ (P : Fns) (c : Ctx), valuesBytes P c (newValues h.dl [.str d]) = escaped d := by
      intro P c
      have := valuesBytes_strs P c h.dl [d]
      simpa using this
    split
    · exact ⟨[], h, rfl, .nil h⟩
    · refine ⟨[.text (newValues h.dl [.str d])], h, ?_, ?_⟩
      · obtain ⟨f, hf, hc⟩ := K.text
        simp [evalAll, eval, hf, hc, Text]
      · refine Res.one rfl trivial (fun dl _ => valuesUse_plain (by simp [Plain])) fun P c _ w' => ?_
        constructor
        · intro ho; cases ho; exact hval P c
        · rintro rfl; have := Out.text (P := P) (c := c) (vs := newValues h.dl [.str d]); rwa [hval] at this
  | .comment d, _, h => by
    have hval : ∀ (P : Fns) (c : Ctx), valuesBytes P c (newValues h.dl [.str d]) = escaped d := by
      intro P c
      have := valuesBytes_strs P c h.dl [d]
      simpa using this
    refine ⟨[.comment (newValues h.dl [.str d])], h, ?_, ?_⟩
    · obtain ⟨f, hf, hc⟩ := K.comment
      simp [Doc.code, evalAll, eval, hf, hc, Comment]
    · refine Res.one rfl trivial (fun dl _ => valuesUse_plain (by simp [Plain])) fun P c _ w' => ?_
      constructor
      · intro ho; cases ho; rw [hval P c]; rfl
      · rintro rfl; have := Out.comment (P := P) (c := c) (vs := newValues h.dl [.str d]); rwa [hval] at this
  | .doctype d, _, h => by
    have hval : ∀ (P : Fns) (c : Ctx), valuesBytes P c (newValues h.dl [.str d]) = escaped d := by
      intro P c
      have := valuesBytes_strs P c h.dl [d]
      simpa using this
    unfold Doc.code Doc.html
    split
    · have hr : resolve b%"html.PI" = some .htmlPI := by decide
      refine ⟨[.pi b%"DOCTYPE" (newValues h.dl [.str d])], h, ?_, ?_⟩
      · simp [evalAll, eval, hr, LibFn.call, htmlPI, PI]
      · refine Res.one rfl trivial (fun dl _ => valuesUse_plain (by simp [Plain])) fun P c _ w' => ?_
        constructor
        · intro ho; cases ho; rw [hval P c]; rfl
        · rintro rfl
          have := Out.pi (P := P) (c := c) (name := b%"DOCTYPE") (vs := newValues h.dl [.str d]); rwa [hval] at this
    · exact ⟨[], h, rfl, .nil h⟩
  | .elem name as cs, hu, h => by
    obtain ⟨n, h', e, r⟩ := eval_elem K strict name hu.1 as hu.2.1 h fun h => eval_docs cs hu.2.2 h
    exact ⟨[n], h', evalAll_one strict e, r⟩
  | .selfClosing name as, hu, h => by
    obtain ⟨n, h', e, r⟩ := eval_elem K strict name hu.1 as hu.2 h (es := []) (content := [])
      fun h => ⟨[], h, rfl, .nil h⟩
    rw [List.append_nil] at e
    exact ⟨[n], h', evalAll_one strict e, r⟩
  | .void name as, hu, h => by
    obtain ⟨n, h', e, r⟩ := eval_elem K strict name hu.1 as hu.2 h (es := []) (content := [])
      fun h => ⟨[], h, rfl, .nil h⟩
    rw [List.append_nil] at e
    exact ⟨[n], h', evalAll_one strict e, r⟩
theorem eval_docs : (ds : List Doc) → UsableAll p ds → (h : Heap) →
    ∃ ns h', evalAll strict (codeAll p ds) h = some (ns.map .node, h') ∧ Res h h' ns (htmlAll p ds)
  | [], _, h => ⟨[], h, rfl, .nil h⟩
  | d :: ds, hu, h => by
    obtain ⟨ns, h1, e1, r1⟩ := eval_doc d hu.1 h
    obtain ⟨ms, h2, e2, r2⟩ := eval_docs ds hu.2 h1
    refine ⟨ns ++ ms, h2, ?_, r1.append r2⟩
    rw [List.map_append]
    exact evalAll_append strict e1 e2
end

theorem eval_program (ds : List Doc) (hu : UsableAll p ds) (h : Heap) :
    ∃ n h', eval strict (.call b%"aitch.Collection" (codeAll p ds)) h = some (.node n, h') ∧ Ext h h' ∧ WF n ∧
      (∀ dl, MemAgree dl h' → CallbackFree dl n) ∧
      ∀ P c, MemAgree c.dl h' → ∀ w', Out P c n w' ↔ w' = htmlAll p ds := by
  obtain ⟨ns, h', e, r⟩ := eval_docs K strict ds hu h
  have hr : resolve b%"aitch.Collection" = some .aitchCollection := by decide
  have hn : asNodes (ns.map .node) = some (ns.map some) := by
    clear e r
    induction ns with
    | nil => rfl
    | cons n ns ih => simp [asNodes, ih]
  refine ⟨.collection ns, h', ?_, r.ext, (wfAll_iff ns).2 r.wf, fun dl hd => (nodesUse_iff ns).2 (r.uses dl hd), ?_⟩
  · simp [eval, e, hr, LibFn.call, hn, Collection, List.filterMap_map, Function.comp_def]
  · intro P c hc w'
    have hf : ns.filter (fun n => !n.isAttr) = ns := by
      rw [List.filter_eq_self]
      intro n hn
      have := r.leaf n hn
      cases n <;> first | rfl | simp [carries] at this
    rw [← r.out P c hc w']
    constructor
    · intro ho
      cases ho with
      | collection hw => rwa [hf] at hw
    · intro ho
      exact .collection (by rwa [hf])

end

end Aitch
