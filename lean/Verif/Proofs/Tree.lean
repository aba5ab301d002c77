import Verif.Spec.Tree
import Verif.Proofs.Nesting
import Verif.Proofs.Start
import Verif.Proofs.GenEval
import Verif.Props.Start
import Verif.Props.Elements
import Verif.Proofs.Laws
/-
Declared pieces and the calls for them write the same.
-/
namespace Aitch
open Spec

/-- Attributes with different names leave the memory alone. -/
theorem addAttributes_dl (as : List Attr) : ∀ (e : ElemHead) (dl : Nat → List Value), (as.map Attr.name).Nodup →
    (∀ a ∈ as, e.attIndices.lookup a.name = none) → (addAttributes as e dl).2 = dl := by
  induction as with
  | nil => intro e dl _ _; rfl
  | cons a as ih =>
    intro e dl hn hl
    simp only [List.map_cons, List.nodup_cons] at hn
    rw [addAttributes, hl a (by simp)]
    refine ih _ dl hn.2 fun b hb => ?_
    simp only [List.lookup_append, hl b (by simp [hb]), Option.none_or, List.lookup_cons, List.lookup_nil]
    have : (b.name == a.name) = false := by
      simp only [beq_eq_false_iff_ne, ne_eq]
      intro e
      exact hn.1 (List.mem_map.2 ⟨b, hb, e⟩)
    rw [this]

theorem attrs_static (dl : Nat → List Value) (as : List Attr) :
    (as.map fun a => Any.node (.attr a)).map (asNode dl) = as.map Node.attr := by
  simp [Function.comp_def, asNode]

theorem declaredAll_nil {ns : List Node} (h : ∀ n ∈ ns, declared [] n = []) : declaredAll [] ns = [] := by
  induction ns with
  | nil => rfl
  | cons n ns ih => rw [declaredAll, h n (by simp), ih fun m hm => h m (by simp [hm])]; rfl

theorem staticAttrs_only (as : List Attr) {ns : List Node} (h : ∀ n ∈ ns, declared [] n = []) :
    staticAttrs (as.map Node.attr ++ ns) = as ∧ condAttrs (as.map Node.attr ++ ns) = [] := by
  have e : declaredAll [] (as.map Node.attr) = as.map fun a => (a, []) := by
    have := Props.attrs_declared as
    simpa using this
  unfold staticAttrs condAttrs
  rw [declaredAll_append, declaredAll_nil h, List.append_nil, e]
  simp [List.filter_map, Function.comp_def]

/-- Only the attributes matter for the tag. -/
theorem void_attrs (name : Bytes) (as : List Attr) (cs : List Any) (h : Heap)
    (hc : ∀ n ∈ cs.map (asNode h.dl), declared [] n = []) :
    NewVoidElement name ((as.map fun a => .node (.attr a)) ++ cs) h =
      NewVoidElement name (as.map fun a => .node (.attr a)) h := by
  have key : ∀ cs : List Any, (∀ n ∈ cs.map (asNode h.dl), declared [] n = []) →
      NewVoidElement name ((as.map fun a => .node (.attr a)) ++ cs) h =
        (.voidElement (addAttributes as ⟨name, [], [], []⟩ h.dl).1, ⟨(addAttributes as ⟨name, [], [], []⟩ h.dl).2, h.next⟩) := by
    intro cs hc
    have e1 : contentsToNodes h.dl ((as.map fun a => Any.node (.attr a)) ++ cs) =
        as.map Node.attr ++ cs.map (asNode h.dl) := by
      rw [← attrs_static h.dl, ← List.map_append]
      unfold contentsToNodes
      refine List.map_congr_left fun a _ => ?_
      cases a <;> rfl
    obtain ⟨s1, s2⟩ := staticAttrs_only as hc
    obtain ⟨h1, h2, -⟩ := attributesAndContents_shape (as.map Node.attr ++ cs.map (asNode h.dl))
    rw [s1] at h1
    rw [s2] at h2
    have h2 : (attributesAndContents (as.map Node.attr ++ cs.map (asNode h.dl))).2.1 = [] := by simpa using h2
    unfold NewVoidElement
    rw [e1]
    revert h1 h2
    generalize attributesAndContents (as.map Node.attr ++ cs.map (asNode h.dl)) = x
    obtain ⟨x1, x2, x3⟩ := x
    rintro rfl rfl
    rfl
  rw [key cs hc]
  have := key [] (by simp)
  rw [List.append_nil] at this
  exact this.symm

/-- Building an element from attributes with different names leaves the memory alone. -/
theorem void_memory (name : Bytes) (as : List Attr) (cs : List Any) (h : Heap) (hn : (as.map Attr.name).Nodup)
    (hc : ∀ n ∈ cs.map (asNode h.dl), declared [] n = []) :
    (NewVoidElement name ((as.map fun a => .node (.attr a)) ++ cs) h).2 = h := by
  obtain ⟨e, dl, h1, h2⟩ := newVoidElement_eq name ((as.map fun a => .node (.attr a)) ++ cs) h
  rw [h1]
  have e1 := attrs_static h.dl as
  rw [List.map_append, e1, (staticAttrs_only as hc).1] at h2
  have := addAttributes_dl as ⟨name, [], [], (attributesAndContents (as.map Node.attr ++ cs.map (asNode h.dl))).2.1⟩
    h.dl hn (by simp)
  rw [h2] at this
  simp only at this
  subst this
  rfl

theorem asNode_declared (h : Heap) (P : Fns) (c : Ctx) (t : Tree) (hf : t.Fit P c) :
    declared [] (asNode h.dl (t.declare h)) = [] ∧ (asNode h.dl (t.declare h)).isAttr = false := by
  cases t with
  | text s => exact ⟨rfl, rfl⟩
  | raw s => exact ⟨rfl, rfl⟩
  | node n => exact ⟨hf.2.2, hf.2.1⟩
  | void n as => exact ⟨rfl, rfl⟩
  | element n as ts => exact ⟨rfl, rfl⟩

theorem declareAll_declared (h : Heap) (P : Fns) (c : Ctx) : (ts : List Tree) → FitAll P c ts →
    ∀ n ∈ (declareAll h ts).map (asNode h.dl), declared [] n = [] ∧ n.isAttr = false
  | [], _ => by simp [declareAll]
  | t :: ts, hf => by
    intro n hn
    simp only [declareAll, List.map_cons, List.mem_cons] at hn
    rcases hn with rfl | hn
    · exact asNode_declared h P c t hf.1
    · exact declareAll_declared h P c ts hf.2 n hn

mutual
theorem declare_built (h : Heap) (P : Fns) (c : Ctx) : (t : Tree) → t.Fit P c → ∀ n, t.declare h = .node n → Built n
  | .text s, _ => by intro n hn; simp [Tree.declare] at hn
  | .raw s, _ => by intro n hn; simp [Tree.declare] at hn
  | .node m, hf => by
    intro n hn
    simp only [Tree.declare, Any.node.injEq] at hn
    exact hn ▸ hf.1
  | .void name as, hf => by
    intro n hn
    simp only [Tree.declare, Any.node.injEq] at hn
    subst hn
    refine .newVoidElement _ _ _ fun m hm => ?_
    obtain ⟨x, hx, hxm⟩ := List.mem_filterMap.1 hm
    obtain ⟨a, ha, rfl⟩ := List.mem_map.1 hx
    simp only [Option.some.injEq] at hxm
    exact hxm ▸ hf.built a ha
  | .element name as ts, hf => by
    intro n hn
    simp only [Tree.declare, Any.node.injEq] at hn
    subst hn
    refine .newElement _ _ _ fun m hm => ?_
    obtain ⟨x, hx, hxm⟩ := List.mem_filterMap.1 hm
    rcases List.mem_append.1 hx with hx | hx
    · obtain ⟨a, ha, rfl⟩ := List.mem_map.1 hx
      simp only [Option.some.injEq] at hxm
      exact hxm ▸ hf.1.built a ha
    · refine declareAll_built h P c ts hf.2 m ?_
      exact List.mem_filterMap.2 ⟨x, hx, hxm⟩
theorem declareAll_built (h : Heap) (P : Fns) (c : Ctx) : (ts : List Tree) → FitAll P c ts →
    ∀ n ∈ nodesIn (declareAll h ts), Built n
  | [], _ => by simp [declareAll, nodesIn]
  | t :: ts, hf => by
    intro n hn
    obtain ⟨x, hx, hxn⟩ := List.mem_filterMap.1 hn
    simp only [declareAll, List.mem_cons] at hx
    rcases hx with rfl | hx
    · refine declare_built h P c t hf.1 n ?_
      revert hxn
      cases t.declare h <;> simp
    · exact declareAll_built h P c ts hf.2 n (List.mem_filterMap.2 ⟨x, hx, hxn⟩)
end

mutual
theorem openAfter_calls : (t : Tree) → ∀ st, openAfter t.calls st = st
  | .text s, st => rfl
  | .raw s, st => rfl
  | .node n, st => rfl
  | .void name as, st => rfl
  | .element name as ts, st => by
    simp only [Tree.calls, List.cons_append, openAfter]
    rw [openAfter_append, openAfter_callsAll ts]
    rfl
theorem openAfter_callsAll : (ts : List Tree) → ∀ st, openAfter (callsAll ts) st = st
  | [], st => rfl
  | t :: ts, st => by
    simp only [callsAll]
    rw [openAfter_append, openAfter_calls t, openAfter_callsAll ts]
end

theorem startAttrs_attrs (as : List Attr) : startAttrs (as.map fun a => some (.attr a)) = as := by
  unfold startAttrs attrsIn
  rw [List.filterMap_map, List.filterMap_filterMap]
  simp

theorem named_nodup {as : List Attr} (hn : (as.map Attr.name).Nodup) {a : Attr} (ha : a ∈ as) : named a.name as = [a] := by
  induction as with
  | nil => simp at ha
  | cons b as ih =>
    simp only [List.map_cons, List.nodup_cons] at hn
    unfold named at *
    rw [List.filter_cons]
    rcases List.mem_cons.1 ha with rfl | ha
    · simp only [decide_true, if_true, List.cons.injEq, true_and, List.filter_eq_nil_iff]
      intro b hb e
      simp only [decide_eq_true_eq] at e
      exact hn.1 (List.mem_map.2 ⟨b, hb, e⟩)
    · have : b.name ≠ a.name := by
        intro e
        exact hn.1 (List.mem_map.2 ⟨a, ha, e.symm⟩)
      simp only [this, decide_false, Bool.false_eq_true, if_false]
      exact ih hn.2 ha

/-- Fitting attributes agree in the sense of C26. -/
theorem fit_plainly {P : Fns} {c : Ctx} {as : List Attr} (hf : FitAttrs P c as) :
    ∀ n ∈ as.map Attr.name, Plainly P c (named n as) := by
  intro n hn
  obtain ⟨a, ha, rfl⟩ := List.mem_map.1 hn
  rw [named_nodup hf.names ha]
  cases hd : isDelim a with
  | false => exact .inl ⟨a, rfl, hd⟩
  | true =>
    refine .inr ⟨delimiterOf a, by simp [hd], ?_⟩
    have e : valuesOf c.dl [a] = a.values c.dl := by simp [valuesOf]
    rw [e]
    exact hf.filled a ha hd

theorem void_start {P : Fns} (F : BuiltFns P) {c : Ctx} (he : c.frame.err = none) {h : Heap} (hdl : c.dl = h.dl)
    (name : Bytes) {as : List Attr} (hf : FitAttrs P c as) :
    RendersExactly P c (NewVoidElement name (as.map fun a => .node (.attr a)) h).1 (tagBytes name (startShows P c as)) := by
  refine Props.attrs_tag F c he name as as h hf.built hf.unshared ?_ ?_ (fit_plainly hf)
  · intro r _
    have := void_memory name as [] h hf.names (by simp)
    rw [List.append_nil] at this
    rw [this, hdl]
  · have key : ∀ as : List Attr, Each (Alike h.dl c.dl) as as := by
      intro as
      induction as with
      | nil => exact .nil
      | cons a as ih =>
        refine .cons ?_ ih
        cases a with
        | plain n vs => exact .plain _ _
        | bool n => exact .bool _
        | delim n d r => exact .delim _ _ _ _ (by rw [hdl])
    exact key as

set_option linter.unusedSectionVars false

section
variable {P : Fns} (F : BuiltFns P) {c : Ctx} (he : c.frame.err = none) {h : Heap} (hdl : c.dl = h.dl)
include F he hdl

mutual
/-- A piece: the calls write what the declared piece writes. -/
theorem calls_out : (t : Tree) → t.Fit P c → ∀ st w,
    OutOps P c t.calls st w ↔ Out P c (asNode h.dl (t.declare h)) w
  | .text s, _, st, w => by
    simp only [Tree.calls, Tree.declare, asNode]
    constructor
    · intro h
      cases h with
      | writeString h =>
        cases h
        refine out_text.2 ?_
        simp [newValues, newValue, valuesBytes, valueBytes, valueToBytes]
    · intro h
      have := out_text.1 h
      subst this
      have := OutOps.writeString (P := P) (c := c) (d := s) (stack := st) .nil
      simpa [newValues, newValue, valuesBytes, valueBytes, valueToBytes] using this
  | .raw s, _, st, w => by
    simp only [Tree.calls, Tree.declare, asNode]
    constructor
    · intro h
      cases h with
      | writeRaw h =>
        cases h
        refine out_text.2 ?_
        simp [newValues, newValue, valuesBytes, valueBytes, valueToBytes]
    · intro h
      have := out_text.1 h
      subst this
      have := OutOps.writeRaw (P := P) (c := c) (d := s) (stack := st) .nil
      simpa [newValues, newValue, valuesBytes, valueBytes, valueToBytes] using this
  | .node n, hf, st, w => by
    have e : contentNodes [some n] = [n] := contentNodes_some hf.2.1 []
    simp only [Tree.calls, Tree.declare, asNode]
    constructor
    · intro h
      cases h with
      | writeNodes ha h =>
        cases h
        rw [e, outAll_one] at ha
        simpa using ha
    · intro h
      have := OutOps.writeNodes (P := P) (c := c) (ns := [some n]) (stack := st) (by rw [e, outAll_one]; exact h) .nil
      simpa using this
  | .void name as, hf, st, w => by
    simp only [Tree.calls, Tree.declare, asNode]
    rw [← (declare_built h P c (.void name as) hf _ rfl).renders_iff F he, (void_start F he hdl name hf w)]
    have e := startCollect_shows P c (as.map fun a => some (Node.attr a))
    rw [startAttrs_attrs] at e
    constructor
    · intro h
      cases h with
      | startVoid h => cases h; rw [e]; simp
    · rintro rfl
      rw [← e]
      have := OutOps.startVoid (P := P) (c := c) (n := name) (attrs := as.map fun a => some (Node.attr a)) (stack := st) .nil
      simpa using this
  | .element name as ts, hf, st, w => by
    simp only [Tree.calls, Tree.declare, asNode]
    have hd := declareAll_declared h P c ts hf.2
    have hb : ∀ n ∈ nodesIn ((as.map fun a => Any.node (.attr a)) ++ declareAll h ts), Built n := by
      intro n hn
      obtain ⟨x, hx, hxm⟩ := List.mem_filterMap.1 hn
      rcases List.mem_append.1 hx with hx | hx
      · obtain ⟨a, ha, rfl⟩ := List.mem_map.1 hx
        simp only [Option.some.injEq] at hxm
        exact hxm ▸ hf.1.built a ha
      · exact declareAll_built h P c ts hf.2 n (List.mem_filterMap.2 ⟨x, hx, hxm⟩)
    have hk : nonAttrs (((as.map fun a => Any.node (.attr a)) ++ declareAll h ts).map (asNode h.dl)) =
        (declareAll h ts).map (asNode h.dl) := by
      rw [List.map_append, attrs_static, nonAttrs, List.filter_append]
      have e1 : (as.map Node.attr).filter (fun n => !n.isAttr) = [] := by
        rw [List.filter_eq_nil_iff]
        intro n hn
        obtain ⟨a, -, rfl⟩ := List.mem_map.1 hn
        simp [Node.isAttr, Node.type]
      rw [e1, List.nil_append, List.filter_eq_self]
      intro n hn
      rw [(hd n hn).2]
      rfl
    have hn := fun w => callsAll_out ts hf.2 (name :: st) w
    rw [← (declare_built h P c (.element name as ts) hf _ rfl).renders_iff F he, Props.C06_element F c he name _ h hb w,
      hk, void_attrs name as _ h fun n hn => (hd n hn).1]
    have e := startCollect_shows P c (as.map fun a => some (Node.attr a))
    rw [startAttrs_attrs] at e
    have hall : ∀ n ∈ (declareAll h ts).map (asNode h.dl), Built n :=
      built_asNode (declareAll_built h P c ts hf.2) h.dl
    constructor
    · intro h'
      cases h' with
      | start h' =>
        obtain ⟨w₁, w₂, h1, h2, rfl⟩ := outOps_append.1 h'
        rw [openAfter_callsAll] at h2
        obtain ⟨ws, h3, h4⟩ := (rendersAll_iff F he hall).2 ((hn w₁).1 h1)
        refine ⟨_, ws, (void_start F he hdl name hf.1 _).2 rfl, h3, ?_⟩
        cases h2 with
        | endSome h2 =>
          cases h2
          rw [e, h4]
          simp [endBytes]
    · rintro ⟨tag, ws, h1, h2, rfl⟩
      rw [(void_start F he hdl name hf.1 _).1 h1, ← e]
      have h3 := (hn _).2 ((rendersAll_iff F he hall).1 ⟨ws, h2, rfl⟩)
      have h4 : OutOps P c (callsAll ts ++ [.end]) (name :: st) (ws.flatten ++ endBytes name) := by
        refine outOps_append.2 ⟨_, _, h3, ?_, rfl⟩
        rw [openAfter_callsAll]
        have := OutOps.endSome (P := P) (c := c) (n := name) (stack := st) .nil
        simpa using this
      have := OutOps.start (P := P) (c := c) (n := name) (attrs := as.map fun a => some (Node.attr a)) (stack := st) h4
      simpa [endBytes] using this
/-- A list of pieces. -/
theorem callsAll_out : (ts : List Tree) → FitAll P c ts → ∀ st w,
    OutOps P c (callsAll ts) st w ↔ OutAll P c ((declareAll h ts).map (asNode h.dl)) w
  | [], _, st, w => by
    simp only [callsAll, declareAll, List.map_nil]
    constructor
    · intro h; cases h; exact .nil
    · intro h; cases h; exact .nil
  | t :: ts, hf, st, w => by
    simp only [callsAll, declareAll, List.map_cons]
    have h1 := fun w => calls_out t hf.1 st w
    have h2 := fun w => callsAll_out ts hf.2 st w
    rw [outOps_append]
    constructor
    · rintro ⟨w₁, w₂, g1, g2, rfl⟩
      rw [openAfter_calls] at g2
      exact .cons ((h1 _).1 g1) ((h2 _).1 g2)
    · intro g
      cases g with
      | cons g1 g2 =>
        refine ⟨_, _, (h1 _).2 g1, ?_, rfl⟩
        rw [openAfter_calls]
        exact (h2 _).2 g2
end

end

/-! ### Every list of calls that leaves nothing open -/

theorem callsAll_append (ts us : List Tree) : callsAll (ts ++ us) = callsAll ts ++ callsAll us := by
  induction ts with
  | nil => rfl
  | cons t ts ih => simp [callsAll, ih]

theorem fitAll_append {P : Fns} {c : Ctx} {ts us : List Tree} : FitAll P c (ts ++ us) ↔ FitAll P c ts ∧ FitAll P c us := by
  induction ts with
  | nil => simp [FitAll]
  | cons t ts ih => simp [FitAll, ih, and_assoc]

/-- The elements being written: name, attributes, and the pieces before it in the element around it. -/
abbrev Frames := List (Bytes × List Attr × List Tree)

/-- The calls made so far, `cur` being the pieces in the innermost open element. -/
def callsSoFar : Frames → List Tree → List ImpOp
  | [], cur => callsAll cur
  | (n, as, before) :: fs, cur =>
    callsSoFar fs before ++ .start n false (as.map fun a => some (.attr a)) :: callsAll cur

/-- The open elements. -/
def Frames.names (fs : Frames) : List Bytes := fs.map (·.1)

def FitFrames (P : Fns) (c : Ctx) (fs : Frames) : Prop := ∀ f ∈ fs, FitAttrs P c f.2.1 ∧ FitAll P c f.2.2

theorem openAfter_soFar (fs : Frames) (cur : List Tree) : openAfter (callsSoFar fs cur) [] = fs.names := by
  induction fs generalizing cur with
  | nil => exact openAfter_callsAll cur []
  | cons f fs ih =>
    obtain ⟨n, as, before⟩ := f
    rw [callsSoFar, openAfter_append, ih]
    simp [openAfter, openAfter_callsAll, Frames.names]

theorem soFar_append (fs : Frames) (cur ts : List Tree) :
    callsSoFar fs (cur ++ ts) = callsSoFar fs cur ++ callsAll ts := by
  cases fs with
  | nil => exact callsAll_append _ _
  | cons f fs => simp [callsSoFar, callsAll_append]

theorem soFar_end (n : Bytes) (as : List Attr) (before : List Tree) (fs : Frames) (cur : List Tree) :
    callsSoFar ((n, as, before) :: fs) cur ++ [.end] = callsSoFar fs (before ++ [.element n as cur]) := by
  simp [callsSoFar, soFar_append, callsAll, Tree.calls]

/-- All open elements closed. -/
def closeAll : Frames → List Tree → List Tree
  | [], cur => cur
  | (n, as, before) :: fs, cur => closeAll fs (before ++ [.element n as cur])

theorem closeAll_calls (fs : Frames) (cur : List Tree) :
    callsSoFar fs cur ++ List.replicate fs.length .end = callsAll (closeAll fs cur) := by
  induction fs generalizing cur with
  | nil => simp [callsSoFar, closeAll]
  | cons f fs ih =>
    obtain ⟨n, as, before⟩ := f
    rw [List.length_cons, List.replicate_succ, closeAll, ← ih, ← soFar_end n as before fs cur]
    simp

theorem closeAll_fit {P : Fns} {c : Ctx} : (fs : Frames) → (cur : List Tree) → FitFrames P c fs → FitAll P c cur →
    FitAll P c (closeAll fs cur)
  | [], _, _, hc => hc
  | (n, as, before) :: fs, cur, hf, hc => by
    have h1 := hf _ (List.mem_cons_self)
    refine closeAll_fit fs _ (fun f hf' => hf f (List.mem_cons_of_mem _ hf')) ?_
    rw [fitAll_append]
    exact ⟨h1.2, ⟨h1.1, hc⟩, trivial⟩

/-- `EndAll` is as many `End`s as elements are open. -/
theorem endAll_ends {P : Fns} {c : Ctx} (st : List Bytes) (w : Bytes) :
    OutOps P c [.endAll] st w ↔ OutOps P c (List.replicate st.length .end) st w := by
  induction st generalizing w with
  | nil =>
    constructor
    · intro h; cases h with | endAll h => cases h; exact .nil
    · intro h; cases h; exact OutOps.endAll (P := P) (c := c) (stack := []) .nil
  | cons n st ih =>
    rw [List.length_cons, List.replicate_succ]
    constructor
    · intro h
      cases h with
      | endAll h =>
        cases h
        have := OutOps.endAll (P := P) (c := c) (stack := st) .nil
        have := OutOps.endSome (n := n) ((ih _).1 this)
        simpa using this
    · intro h
      cases h with
      | endSome h =>
        have := (ih _).2 h
        cases this with
        | endAll h' =>
          cases h'
          have := OutOps.endAll (P := P) (c := c) (stack := n :: st) .nil
          simpa using this

theorem openAfter_ends (st : List Bytes) : openAfter (List.replicate st.length .end) st = [] := by
  induction st with
  | nil => rfl
  | cons n st ih => exact ih

/-- Calls in the middle replaced by calls that write the same. -/
theorem outOps_replace {P : Fns} {c : Ctx} {pre as bs post : List ImpOp} {st : List Bytes}
    (h : ∀ w, OutOps P c as (openAfter pre st) w ↔ OutOps P c bs (openAfter pre st) w)
    (ho : openAfter as (openAfter pre st) = openAfter bs (openAfter pre st)) (w : Bytes) :
    OutOps P c (pre ++ (as ++ post)) st w ↔ OutOps P c (pre ++ (bs ++ post)) st w := by
  rw [outOps_append, outOps_append]
  simp only [outOps_append (ops := as), outOps_append (ops := bs), h, ho]

theorem outOps_writeNodes {P : Fns} {c : Ctx} {ns : List (Option Node)} {st : List Bytes} {w : Bytes} :
    OutOps P c [.writeNodes ns] st w ↔ OutAll P c (contentNodes ns) w := by
  constructor
  · intro h
    cases h with
    | writeNodes ha h => cases h; simpa using ha
  · intro h
    have := OutOps.writeNodes (P := P) (c := c) (ns := ns) (stack := st) h .nil
    simpa using this

theorem writeNodes_each {P : Fns} {c : Ctx} (st : List Bytes) (ns : List Node) (hn : ∀ n ∈ ns, n.isAttr = false) (w : Bytes) :
    OutOps P c (callsAll (ns.map .node)) st w ↔ OutAll P c ns w := by
  induction ns generalizing w with
  | nil =>
    constructor
    · intro h; cases h; exact .nil
    · intro h; cases h; exact .nil
  | cons n ns ih =>
    have e : contentNodes [some n] = [n] := contentNodes_some (hn n (by simp)) []
    have ih := fun w => ih (fun m hm => hn m (by simp [hm])) w
    simp only [List.map_cons, callsAll, Tree.calls, outOps_append, outOps_writeNodes, e, outAll_one]
    have ho : openAfter [ImpOp.writeNodes [some n]] st = st := rfl
    rw [ho]
    constructor
    · rintro ⟨a, b, h1, h2, rfl⟩; exact .cons h1 ((ih _).1 h2)
    · intro h
      cases h with
      | cons h1 h2 => exact ⟨_, _, h1, (ih _).2 h2, rfl⟩

theorem outOps_start {P : Fns} {c : Ctx} {n : Bytes} {v : Bool} {attrs : List (Option Node)} {st : List Bytes} {w : Bytes} :
    OutOps P c [.start n v attrs] st w ↔ w = tagBytes n (startShows P c (startAttrs attrs)) := by
  rw [← startCollect_shows]
  cases v with
  | true =>
    constructor
    · intro h; cases h with | startVoid h => cases h; simp
    · rintro rfl
      have := OutOps.startVoid (P := P) (c := c) (n := n) (attrs := attrs) (stack := st) .nil
      simpa using this
  | false =>
    constructor
    · intro h; cases h with | start h => cases h; simp
    · rintro rfl
      have := OutOps.start (P := P) (c := c) (n := n) (attrs := attrs) (stack := st) .nil
      simpa using this

theorem calls_pieces {P : Fns} {c : Ctx} (ops : List ImpOp) : ∀ (fs : Frames) (cur : List Tree),
    FitFrames P c fs → FitAll P c cur →
    (∀ n v attrs, .start n v attrs ∈ ops → FitAttrs P c (startAttrs attrs)) →
    (∀ ns n, .writeNodes ns ∈ ops → n ∈ contentNodes ns → Built n ∧ declared [] n = []) →
    openAfter ops fs.names = [] →
    ∃ ts, FitAll P c ts ∧ ∀ w, OutOps P c (callsSoFar fs cur ++ ops) [] w ↔ OutOps P c (callsAll ts) [] w := by
  induction ops with
  | nil =>
    intro fs cur hf hc _ _ ho
    have : fs = [] := by simpa [openAfter, Frames.names] using ho
    subst this
    exact ⟨cur, hc, fun w => by simp [callsSoFar]⟩
  | cons op ops ih =>
    intro fs cur hf hc hs hw ho
    have hs' : ∀ n v attrs, .start n v attrs ∈ ops → FitAttrs P c (startAttrs attrs) :=
      fun n v attrs h => hs n v attrs (List.mem_cons_of_mem _ h)
    have hw' : ∀ ns n, .writeNodes ns ∈ ops → n ∈ contentNodes ns → Built n ∧ declared [] n = [] :=
      fun ns n h => hw ns n (List.mem_cons_of_mem _ h)
    have ih := fun fs cur hf hc ho => ih fs cur hf hc hs' hw' ho
    cases op with
    | writeString d =>
      obtain ⟨ts, h1, h2⟩ := ih fs (cur ++ [.text d]) hf (by rw [fitAll_append]; exact ⟨hc, trivial, trivial⟩) ho
      refine ⟨ts, h1, fun w => ?_⟩
      rw [← h2, soFar_append]
      simp [callsAll, Tree.calls]
    | writeRaw d =>
      obtain ⟨ts, h1, h2⟩ := ih fs (cur ++ [.raw d]) hf (by rw [fitAll_append]; exact ⟨hc, trivial, trivial⟩) ho
      refine ⟨ts, h1, fun w => ?_⟩
      rw [← h2, soFar_append]
      simp [callsAll, Tree.calls]
    | writeNodes ns =>
      have ha : ∀ n ∈ contentNodes ns, n.isAttr = false := by
        intro n hn
        simpa [contentNodes] using (List.mem_filter.1 hn).2
      have hfit : FitAll P c ((contentNodes ns).map .node) := by
        have := fun n hn => hw ns n (List.mem_cons_self) hn
        revert this ha
        generalize contentNodes ns = ms
        intro ha hm
        induction ms with
        | nil => trivial
        | cons m ms ih =>
          have h := hm m (by simp)
          exact ⟨⟨h.1, ha m (by simp), h.2⟩, ih (fun n hn => ha n (by simp [hn])) fun n hn => hm n (by simp [hn])⟩
      obtain ⟨ts, h1, h2⟩ := ih fs (cur ++ (contentNodes ns).map .node) hf (fitAll_append.2 ⟨hc, hfit⟩) ho
      refine ⟨ts, h1, fun w => ?_⟩
      rw [← h2, soFar_append, List.append_assoc]
      refine outOps_replace (as := [.writeNodes ns]) (fun w => ?_) ?_ w
      · rw [writeNodes_each _ _ ha, outOps_writeNodes]
      · rw [openAfter_callsAll]; rfl
    | start n v attrs =>
      have hfit := hs n v attrs (List.mem_cons_self)
      cases v with
      | true =>
        obtain ⟨ts, h1, h2⟩ := ih fs (cur ++ [.void n (startAttrs attrs)]) hf (by rw [fitAll_append]; exact ⟨hc, hfit, trivial⟩) ho
        refine ⟨ts, h1, fun w => ?_⟩
        rw [← h2, soFar_append, List.append_assoc]
        refine outOps_replace (as := [.start n true attrs])
          (bs := [.start n true ((startAttrs attrs).map fun a => some (.attr a))]) (fun w => ?_) rfl w
        rw [outOps_start, outOps_start, startAttrs_attrs]
      | false =>
        obtain ⟨ts, h1, h2⟩ := ih ((n, startAttrs attrs, cur) :: fs) [] (by
          intro f hf'
          rcases List.mem_cons.1 hf' with rfl | hf'
          · exact ⟨hfit, hc⟩
          · exact hf f hf') trivial ho
        refine ⟨ts, h1, fun w => ?_⟩
        rw [← h2]
        simp only [callsSoFar, callsAll, List.append_assoc]
        refine outOps_replace (as := [.start n false attrs])
          (bs := [.start n false ((startAttrs attrs).map fun a => some (.attr a))]) (fun w => ?_) rfl w
        rw [outOps_start, outOps_start, startAttrs_attrs]
    | «end» =>
      cases fs with
      | nil =>
        obtain ⟨ts, h1, h2⟩ := ih [] cur hf hc ho
        refine ⟨ts, h1, fun w => ?_⟩
        rw [← h2]
        have := outOps_replace (P := P) (c := c) (pre := callsSoFar [] cur) (as := [.end]) (bs := []) (post := ops)
          (st := []) (by
            intro w
            rw [openAfter_soFar]
            constructor
            · intro h; cases h with | endNone h => cases h; exact .nil
            · intro h; cases h; exact .endNone .nil) (by rw [openAfter_soFar]; rfl) w
        exact this
      | cons f fs =>
        obtain ⟨n, as, before⟩ := f
        have hf1 := hf _ (List.mem_cons_self)
        obtain ⟨ts, h1, h2⟩ := ih fs (before ++ [.element n as cur]) (fun f h => hf f (List.mem_cons_of_mem _ h))
          (by rw [fitAll_append]; exact ⟨hf1.2, ⟨hf1.1, hc⟩, trivial⟩) ho
        refine ⟨ts, h1, fun w => ?_⟩
        rw [← h2, ← soFar_end]
        simp
    | endAll =>
      obtain ⟨ts, h1, h2⟩ := ih [] (closeAll fs cur) (by intro f hf'; cases hf') (closeAll_fit fs cur hf hc) ho
      refine ⟨ts, h1, fun w => ?_⟩
      have e : callsSoFar [] (closeAll fs cur) = callsAll (closeAll fs cur) := rfl
      have hl : fs.length = fs.names.length := by simp [Frames.names]
      rw [← h2, e, ← closeAll_calls, List.append_assoc]
      refine outOps_replace (as := [.endAll]) (fun w => ?_) ?_ w
      · rw [openAfter_soFar, endAll_ends, hl]
      · rw [openAfter_soFar, hl, openAfter_ends]; rfl

end Aitch
