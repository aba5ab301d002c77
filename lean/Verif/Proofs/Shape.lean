import Verif.Proofs.Bare
import Verif.Spec.Shape
import Verif.Proofs.Clean
/-
Data of the same shape give pages of the same structure.
-/
namespace Aitch

open Spec Markup

/-! ### Shapes -/

theorem shapes_eq (xs : List Any) : shapes xs = xs.map shape := by
  induction xs with
  | nil => rfl
  | cons x xs ih => rw [shapes, ih]; rfl

theorem shape_lookup {c c' : Ctx} (h : SameShapes c c') (k : Bytes) : (c.lookup k).map shape = (c'.lookup k).map shape := by
  have hd : c.frame.data = c'.frame.data := congrArg (·.2.1) h.frame
  unfold Ctx.lookup
  rw [hd]
  cases c'.frame.data with
  | none => rfl
  | some m => exact h.maps m k

/-- What a condition on a key sees. -/
def flagOff : Shape → Bool
  | .flag false => true
  | _ => false

theorem shape_off (v : Any) : flagOff (shape v) = match v with
    | .bool false => true
    | _ => false := by
  cases v with
  | bool b => cases b <;> rfl
  | _ => rfl

theorem shape_has (c : Ctx) (P : Fns) (k : Bytes) : holds P c (.has k) =
    match (c.lookup k).map shape with
    | none => false
    | some s => !flagOff s := by
  simp only [holds]
  cases c.lookup k with
  | none => rfl
  | some v =>
    simp only [Option.map_some, shape_off]
    cases v with
    | bool b => cases b <;> rfl
    | _ => rfl

theorem shape_hasNot (c : Ctx) (P : Fns) (k : Bytes) : holds P c (.hasNot k) =
    match (c.lookup k).map shape with
    | none => true
    | some s => flagOff s := by
  simp only [holds]
  cases c.lookup k with
  | none => rfl
  | some v =>
    simp only [Option.map_some, shape_off]
    cases v with
    | bool b => cases b <;> rfl
    | _ => rfl

theorem shape_holds {P : Fns} (H : ShapeFns P) {c c' : Ctx} (h : SameShapes c c') (d : Cond) : holds P c d = holds P c' d := by
  cases d with
  | user f => exact H.cond f c c' h
  | has k => rw [shape_has, shape_has, shape_lookup h]
  | hasNot k => rw [shape_hasNot, shape_hasNot, shape_lookup h]

/-- The shapes of the items in something of this shape. -/
def itemShapes : Shape → List Shape
  | .list ss => ss
  | .bytes n => List.replicate n .leaf
  | .named s => itemShapes s
  | _ => []

theorem itemShapes_beneath : (v : Any) → itemShapes (shape v) = itemShapes (shape v.beneath)
  | .stringer _ _ v => itemShapes_beneath v
  | .nil | .bool _ | .bytes _ | .str _ | .int .. | .float .. | .thunk _ | .dynFunc .. | .dynKey _ | .value _ | .node _
  | .map _ | .anySlice _ | .slice .. | .strMap .. | .struct .. | .ptr _ | .other _ => rfl

theorem shape_keyItems (c : Ctx) (k : Bytes) : shapes (keyItems k c) =
    match (c.lookup k).map shape with
    | none => []
    | some s => itemShapes s := by
  unfold keyItems
  cases c.lookup k with
  | none => rfl
  | some v =>
    rw [Option.map_some, Option.map_some]
    change _ = itemShapes (shape v)
    rw [itemShapes_beneath]
    have hb := beneath_ne v
    generalize v.beneath = v at hb
    cases v with
    | stringer ty out x => exact absurd rfl (hb ty out x)
    | bytes bs =>
      clear hb
      simp only [shape, itemShapes]
      induction bs with
      | nil => rfl
      | cons b bs ih => rw [List.map_cons, shapes, ih]; rfl
    | _ => rfl

theorem shape_items {P : Fns} (H : ShapeFns P) {c c' : Ctx} (h : SameShapes c c') (fn : ItemSrc) :
    shapes (srcItems P c fn) = shapes (srcItems P c' fn) := by
  cases fn with
  | user f => exact H.items f c c' h
  | key k => rw [srcItems, srcItems, shape_keyItems, shape_keyItems, shape_lookup h]

theorem shape_itemData {d : Option MapId} {v v' : Any} (h : shape v = shape v') : itemData d v = itemData d v' := by
  have key : ∀ v, itemData d v = match shape v with
      | .map m => some m
      | _ => d := by
    intro v
    cases v <;> rfl
  rw [key, key, h]

theorem shape_child {c c' : Ctx} (h : SameShapes c c') {v v' : Any} (hv : shape v = shape v') {d d' : Option MapId}
    (hd : d = d') : SameShapes (childCtx c v d) (childCtx c' v' d') := by
  subst hd
  refine ⟨?_, ?_, h.maps, h.dl, h.dlNext, h.world⟩
  · show (_, _, _) = (_, _, _)
    rw [show (childCtx c v d).frame = ⟨none, d, v⟩ from rfl, show (childCtx c' v' d).frame = ⟨none, d, v'⟩ from rfl, hv]
  · show frameShape c.frame :: _ = frameShape c'.frame :: _
    rw [h.frame]
    exact congrArg _ h.parents

theorem shape_active {P : Fns} (H : ShapeFns P) {c c' : Ctx} (h : SameShapes c c') (cas : List CondAttr) :
    active P c cas = active P c' cas := by
  unfold active
  congr 2
  funext ca
  congr 1
  funext d
  exact shape_holds H h d

/-! ### Tokens -/

/-- `SameTags`, on tokens. -/
inductive SameToks : List Tok → List Tok → Prop
  | nil : SameToks [] []
  | charLeft {x l l'} : SameToks l l' → SameToks (.char x :: l) l'
  | charRight {x l l'} : SameToks l l' → SameToks l (.char x :: l')
  | start {n as as' sc l l'} : (as.map (·.1)).Perm (as'.map (·.1)) → SameToks l l' →
      SameToks (.start n as sc :: l) (.start n as' sc :: l')
  | close {n l l'} : SameToks l l' → SameToks (.close n :: l) (.close n :: l')
  | comment {d d' l l'} : SameToks l l' → SameToks (.comment d :: l) (.comment d' :: l')
  | doctype {d d' l l'} : SameToks l l' → SameToks (.doctype d :: l) (.doctype d' :: l')

theorem SameToks.append {a a' b b' : List Tok} (h : SameToks a a') (g : SameToks b b') : SameToks (a ++ b) (a' ++ b') := by
  induction h with
  | nil => exact g
  | charLeft _ ih => exact .charLeft ih
  | charRight _ ih => exact .charRight ih
  | start hp _ ih => exact .start hp ih
  | close _ ih => exact .close ih
  | comment _ ih => exact .comment ih
  | doctype _ ih => exact .doctype ih

theorem sameToks_chars (s s' : Bytes) : SameToks (s.map .char) (s'.map .char) := by
  induction s with
  | nil =>
    induction s' with
    | nil => exact .nil
    | cons x s' ih => exact .charRight ih
  | cons x s ih => exact .charLeft ih

theorem sameTags_drop {s : Bytes} {l l' : List Item} (h : SameTags (.text s :: l) l') : SameTags l l' := by
  generalize hm : Item.text s :: l = m at h
  induction h with
  | textLeft h _ => cases hm; exact h
  | textRight h ih => exact .textRight (ih hm)
  | _ => cases hm

theorem sameTags_drop' {s : Bytes} {l l' : List Item} (h : SameTags l (.text s :: l')) : SameTags l l' := by
  generalize hm : Item.text s :: l' = m at h
  induction h with
  | textRight h _ => cases hm; exact h
  | textLeft h ih => exact .textLeft (ih hm)
  | _ => cases hm

theorem sameTags_addText {s : Bytes} {l l' : List Item} (h : SameTags l l') : SameTags (addText s l) l' := by
  unfold addText
  split
  · exact h
  · exact .textLeft (sameTags_drop h)
  · exact .textLeft h

theorem sameTags_addText' {s : Bytes} {l l' : List Item} (h : SameTags l l') : SameTags l (addText s l') := by
  unfold addText
  split
  · exact h
  · exact .textRight (sameTags_drop' h)
  · exact .textRight h

theorem sameTags_items {k k' : List Tok} (h : SameToks k k') : SameTags (items k) (items k') := by
  induction h with
  | nil => exact .nil
  | charLeft _ ih => exact sameTags_addText ih
  | charRight _ ih => exact sameTags_addText' ih
  | start hp _ ih => exact .start hp ih
  | close _ ih => exact .close ih
  | comment _ ih => exact .comment ih
  | doctype _ ih => exact .doctype ih

/-! ### Two pages -/

/-- Both are the bytes of proper trees, only texts if `text`, and readers see the same structure. -/
def Two (text : Bool) (w w' : Bytes) : Prop :=
  ∃ ts ts', w = writeAll ts ∧ w' = writeAll ts' ∧ (ProperAll ts ∧ ProperAll ts') ∧
    (text = true → ∀ t ∈ ts ++ ts', t.IsText) ∧ ∀ raw, SameToks (toksAll raw ts) (toksAll raw ts')

theorem toksAll_append (raw : Bool) (a b : List Tree) : toksAll raw (a ++ b) = toksAll raw a ++ toksAll raw b := by
  induction a with
  | nil => rfl
  | cons t a ih => simp [toksAll, ih]

theorem Two.nil {text : Bool} : Two text [] [] := ⟨[], [], rfl, rfl, ⟨trivial, trivial⟩, by simp, fun _ => .nil⟩

theorem Two.append {text : Bool} {a a' b b' : Bytes} : Two text a a' → Two text b b' → Two text (a ++ b) (a' ++ b')
  | ⟨s, s', h1, h2, h3, h4, h5⟩, ⟨t, t', g1, g2, g3, g4, g5⟩ =>
    ⟨s ++ t, s' ++ t', by rw [writeAll_append, h1, g1], by rw [writeAll_append, h2, g2],
      ⟨properAll_append h3.1 g3.1, properAll_append h3.2 g3.2⟩, fun e x hx => by
        simp only [List.mem_append] at hx h4 g4
        rcases hx with (hx | hx) | (hx | hx)
        · exact h4 e x (.inl hx)
        · exact g4 e x (.inl hx)
        · exact h4 e x (.inr hx)
        · exact g4 e x (.inr hx), fun raw => by
      rw [toksAll_append, toksAll_append]; exact (h5 raw).append (g5 raw)⟩

theorem Two.text {text : Bool} {w w' : Bytes} : Esc w → Esc w' → Two text w w'
  | ⟨s, hs⟩, ⟨s', hs'⟩ => ⟨[.text s], [.text s'], by simp [writeAll, write, hs], by simp [writeAll, write, hs'],
    ⟨⟨trivial, trivial⟩, ⟨trivial, trivial⟩⟩, by simp [Tree.IsText], fun raw => by
      simp only [toksAll, toks, List.append_nil]
      exact sameToks_chars _ _⟩

theorem Two.one {t t' : Tree} (h1 : Proper t) (h2 : Proper t') (h : ∀ raw, SameToks (toks raw t) (toks raw t')) :
    Two false (write t) (write t') :=
  ⟨[t], [t'], by simp [writeAll], by simp [writeAll], ⟨⟨h1, trivial⟩, ⟨h2, trivial⟩⟩, by simp, fun raw => by
    simpa only [toksAll, List.append_nil] using h raw⟩

/-- Two tags with the same attributes. -/
theorem sameToks_startTok {name : Bytes} {l l' : List (Bytes × Option Bytes)} (h : (l.map (·.1)).Perm (l'.map (·.1)))
    {k k' : List Tok} (hk : SameToks k k') : SameToks (startTok name l :: k) (startTok name l' :: k') := by
  refine .start ?_ hk
  have key : ∀ l : List (Bytes × Option Bytes), (l.map fun a => (lower a.1, seen (a.2.getD []))).map (·.1) =
      (l.map (·.1)).map lower := by
    intro l
    rw [List.map_map, List.map_map]; rfl
  rw [key, key]
  exact h.map lower

theorem Two.element {A B : List Bytes} {P : Fns} {ρ : Rule P} (N : GoodNames A B) {name : Bytes} {l l' : List Shown} {text : Bool} {w w' : Bytes}
    (hn : name ∈ A) (hl : ∀ x ∈ l, ShownClean B .html ρ x) (hd : (l.map (·.1)).Nodup) (hl' : ∀ x ∈ l', ShownClean B .html ρ x)
    (hd' : (l'.map (·.1)).Nodup) (hp : (l.map (·.1)).Perm (l'.map (·.1))) (ht : text = true ↔ lower name ∈ textNames)
    (hw : Two text w w') :
    Two false (tagBytes name l ++ w ++ endBytes name) (tagBytes name l' ++ w' ++ endBytes name) := by
  obtain ⟨attrs, h1, _, h3, h4, _⟩ := shown_attrs' N hl hd
  obtain ⟨attrs', h1', _, h3', h4', _⟩ := shown_attrs' N hl' hd'
  obtain ⟨ts, ts', rfl, rfl, g2, g3, g4⟩ := hw
  have e : tagBytes name l ++ writeAll ts ++ endBytes name = write (.element name attrs ts) := by
    simp [write, h3, endBytes]
  have e' : tagBytes name l' ++ writeAll ts' ++ endBytes name = write (.element name attrs' ts') := by
    simp [write, h3', endBytes]
  rw [e, e']
  have hA := N.elements _ hn
  refine .one ⟨hA.1, hA.2, h1, ?_⟩ ⟨hA.1, hA.2, h1', ?_⟩ fun raw => ?_
  · by_cases h : lower name ∈ textNames
    · exact .inl ⟨h, fun t hm => g3 (ht.2 h) t (List.mem_append_left _ hm)⟩
    · exact .inr ⟨h, g2.1⟩
  · by_cases h : lower name ∈ textNames
    · exact .inl ⟨h, fun t hm => g3 (ht.2 h) t (List.mem_append_right _ hm)⟩
    · exact .inr ⟨h, g2.2⟩
  · simp only [toks]
    exact (sameToks_startTok (by rw [h4, h4']; exact hp) (g4 _)).append (.close .nil)

theorem Two.void {A B : List Bytes} {P : Fns} {ρ : Rule P} (N : GoodNames A B) {name : Bytes} {l l' : List Shown}
    (hn : name ∈ A) (hl : ∀ x ∈ l, ShownClean B .html ρ x) (hd : (l.map (·.1)).Nodup) (hl' : ∀ x ∈ l', ShownClean B .html ρ x)
    (hd' : (l'.map (·.1)).Nodup) (hp : (l.map (·.1)).Perm (l'.map (·.1))) (ht : lower name ∉ textNames) :
    Two false (tagBytes name l) (tagBytes name l') := by
  obtain ⟨attrs, h1, _, h3, h4, _⟩ := shown_attrs' N hl hd
  obtain ⟨attrs', h1', _, h3', h4', _⟩ := shown_attrs' N hl' hd'
  have e : tagBytes name l = write (.void name attrs) := by simp [write, h3]
  have e' : tagBytes name l' = write (.void name attrs') := by simp [write, h3']
  rw [e, e']
  have hA := N.elements _ hn
  refine .one ⟨hA.1, hA.2, h1, ht⟩ ⟨hA.1, hA.2, h1', ht⟩ fun raw => ?_
  simp only [toks]
  exact sameToks_startTok (by rw [h4, h4']; exact hp) .nil

/-- Both end the same open elements, with trees after each end tag. -/
inductive Closes2 : (stack : List Bytes) → Bytes → Bytes → Prop
  | nil : Closes2 [] [] []
  | cons {n st w w' v v'} : Two false w w' → Closes2 st v v' → Closes2 (n :: st) (endBytes n ++ w ++ v) (endBytes n ++ w' ++ v')

theorem shows_perm {P : Fns} (H : ShapeFns P) {c c' : Ctx} (hs : SameShapes c c') {h : ElemHead} (wf : WFHead h)
    {l l' : List Shown} (ht : TagShows P c h l) (ht' : TagShows P c' h l') : (l.map (·.1)).Perm (l'.map (·.1)) := by
  have h1 := tagShows_names wf ht
  have h2 := tagShows_names wf ht'
  rw [← shape_active H hs] at h2
  exact (List.perm_ext_iff_of_nodup h1.1 h2.1).2 fun n => by rw [h1.2, h2.2]

theorem start_names (P : Fns) (c : Ctx) (as : List Attr) : (startShows P c as).map (·.1) = distinct (as.map Attr.name) := by
  unfold startShows
  rw [List.map_map]
  exact List.map_id' _

section
variable {P : Fns} {A B : List Bytes} {ρ : Rule P} (N : GoodNames A B) (S : SafeFns P) (H : ShapeFns P)
include N S H

omit N in
theorem two_tag {c c' : Ctx} (hs : SameShapes c c') (hc : SafeCtx c) (hc' : SafeCtx c') {h : ElemHead} (hh : HeadClean A B .html ρ h)
    {l l' : List Shown} (ht : TagShows P c h l) (ht' : TagShows P c' h l') :
    ((∀ x ∈ l, ShownClean B .html ρ x) ∧ (l.map (·.1)).Nodup) ∧ ((∀ x ∈ l', ShownClean B .html ρ x) ∧ (l'.map (·.1)).Nodup) ∧
    (l.map (·.1)).Perm (l'.map (·.1)) :=
  ⟨⟨tagShows_clean S hc hh ht, (tagShows_names hh.wf ht).1⟩, ⟨tagShows_clean S hc' hh ht', (tagShows_names hh.wf ht').1⟩,
    shows_perm H hs hh.wf ht ht'⟩

set_option linter.unusedSectionVars false in
mutual
theorem out_two : {c : Ctx} → {n : Node} → {w : Bytes} → Out P c n w → ∀ c' w', Out P c' n w' → SameShapes c c' →
    SafeCtx c → SafeCtx c' → n.isAttr = false → ∀ {text}, Clean P A B .html ρ text n → Two text w w'
  | _, _, _, .element ht ha, c', w', ho', hs, hc, hc', _, _, hn => by
    have ih := outAll_two ha
    cases ho' with
    | element ht' ha' =>
    cases hn with
    | element text hh hx h1 h2 =>
      have hg := two_tag S H hs hc hc' hh ht ht'
      exact .element N hh.name hg.1.1 hg.1.2 hg.2.1.1 hg.2.1.2 hg.2.2 hx (ih _ _ ha' hs hc hc' h1 h2)
  | _, _, _, .voidElement ht, c', w', ho', hs, hc, hc', _, _, hn => by
    cases ho' with
    | voidElement ht' =>
    cases hn with
    | voidElement _ hh hx =>
      have hg := two_tag S H hs hc hc' hh ht ht'
      exact .void N hh.name hg.1.1 hg.1.2 hg.2.1.1 hg.2.1.2 hg.2.2 hx
  | _, _, _, .attr, _, _, _, _, _, _, h, _, _ => by simp [Node.isAttr, Node.type] at h
  | _, _, _, .text, c', w', ho', _, hc, hc', _, _, hn => by
    cases ho'
    cases hn with | text h => exact .text (esc_values S hc _ h) (esc_values S hc' _ h)
  | _, _, _, .fragment, c', w', ho', _, hc, hc', _, _, hn => by
    cases ho'
    cases hn with | fragment h => exact .text (esc_values S hc _ h) (esc_values S hc' _ h)
  | _, _, _, .comment, c', w', ho', _, hc, hc', _, _, hn => by
    cases ho'
    cases hn with
    | comment _ h =>
      obtain ⟨s, hs⟩ := esc_values S hc _ h
      obtain ⟨s', hs'⟩ := esc_values S hc' _ h
      rw [hs, hs']
      exact .one (t := .comment s) (t' := .comment s') trivial trivial fun _ => .comment .nil
  | _, _, _, .pi, c', w', ho', _, hc, hc', _, _, hn => by
    cases ho'
    cases hn with
    | docType _ h =>
      obtain ⟨s, hs⟩ := esc_values S hc _ h
      obtain ⟨s', hs'⟩ := esc_values S hc' _ h
      rw [hs, hs']
      exact .one (t := .doctype s) (t' := .doctype s') trivial trivial fun _ => .doctype (.charLeft (.charRight .nil))
  | _, _, _, .collection (ns := ns) ha, c', w', ho', hs, hc, hc', _, _, hn => by
    have ih := outAll_two ha
    cases ho' with
    | collection ha' =>
    cases hn with
    | collection h =>
      exact ih _ _ ha' hs hc hc' (fun n hn => by simpa using (List.mem_filter.1 hn).2)
        (fun n hn => h n (List.mem_filter.1 hn).1)
  | _, _, _, .conditionalOn h ha, c', w', ho', hs, hc, hc', _, _, hn => by
    have ih := outAll_two ha
    cases ho' with
    | conditionalOn _ ha' =>
      cases hn with
      | conditional h1 h2 _ => exact ih _ _ ha' hs hc hc' h1 h2
    | conditionalOff h' => rw [shape_holds H hs, h'] at h; cases h
  | _, _, _, .conditionalOff h, c', w', ho', hs, _, _, _, _, _ => by
    cases ho' with
    | conditionalOn h' => rw [shape_holds H hs, h'] at h; cases h
    | conditionalOff h' => exact .nil
  | c, _, _, .collector (f := f) ha, c', w', ho', hs, hc, hc', _, _, hn => by
    have ih := outAll_two ha
    cases ho' with
    | collector ha' =>
    cases hn with
    | collector h =>
      exact ih _ _ (by rw [H.collect f c c' hs]; exact ha') hs hc hc'
        (fun n hn => by simpa using (List.mem_filter.1 hn).2)
        (fun n hn => h c n (by simpa using (List.mem_filter.1 hn).1))
  | _, _, _, .imperativeNil, c', w', ho', _, _, _, _, _, _ => by cases ho'; exact .nil
  | c, _, _, .imperative (f := f) ho, c', w', ho', hs, hc, hc', _, _, hn => by
    have ih := outOps_two ho
    cases ho' with
    | imperative ho' =>
    cases hn with
    | imperative h1 h2 h3 h4 h5 =>
      obtain ⟨a, b, a', b', rfl, rfl, ha, hb⟩ := ih _ _ _ ho' (H.imp f c c' hs) hs hc hc' (h1 c) (h1 c') (h2 c) (h3 c)
        (h4 c) (h5 c)
      cases hb
      simpa using ha
  | _, _, _, .iterator (fn := fn) hi, c', w', ho', hs, hc, hc', _, _, hn => by
    have ih := outItems_two hi
    cases ho' with
    | iterator hi' =>
    cases hn with
    | iterator h1 h2 =>
      exact ih _ _ _ hi' (shape_items H hs fn) hs hc hc' (safe_items S hc fn) (safe_items S hc' fn) h1 h2
  | c, _, _, .yieldIterator (f := f) hi, c', w', ho', hs, hc, hc', _, _, hn => by
    have ih := outYields_two hi
    cases ho' with
    | yieldIterator hi' =>
    cases hn with
    | yieldIterator h1 h2 => exact ih _ _ _ hi' (H.yields f c c' hs) hs hc hc' (S.yields f c) (S.yields f c') h1 h2
  | _, _, _, .document (prologue := p) ha, c', w', ho', hs, hc, hc', _, _, hn => by
    have ih := outAll_two ha
    cases ho' with
    | document ha' =>
    cases hn with
    | document h1 h2 => exact ih _ _ ha' hs hc hc' h1 h2
termination_by structural _ _ _ h => h
theorem outAll_two : {c : Ctx} → {ns : List Node} → {w : Bytes} → OutAll P c ns w → ∀ c' w', OutAll P c' ns w' →
    SameShapes c c' → SafeCtx c → SafeCtx c' →
    (∀ n ∈ ns, n.isAttr = false) → ∀ {text}, (∀ n ∈ ns, Clean P A B .html ρ text n) → Two text w w'
  | _, _, _, .nil, _, _, ho', _, _, _, _, _, _ => by cases ho'; exact .nil
  | _, _, _, .cons h hs, c', w', ho', hh, hc, hc', h1, _, h2 => by
    have i1 := out_two h
    have i2 := outAll_two hs
    cases ho' with
    | cons h' hs' =>
      exact (i1 _ _ h' hh hc hc' (h1 _ (.head _)) (h2 _ (.head _))).append
        (i2 _ _ hs' hh hc hc' (fun n hn => h1 n (.tail _ hn)) fun n hn => h2 n (.tail _ hn))
termination_by structural _ _ _ h => h
theorem outItems_two : {c : Ctx} → {ns : List Node} → {its : List Any} → {w : Bytes} → OutItems P c ns its w →
    ∀ c' its' w', OutItems P c' ns its' w' → shapes its = shapes its' → SameShapes c c' → SafeCtx c → SafeCtx c' →
    (∀ v ∈ its, SafeData v) → (∀ v ∈ its', SafeData v) → (∀ n ∈ ns, n.isAttr = false) →
    ∀ {text}, (∀ n ∈ ns, Clean P A B .html ρ text n) → Two text w w'
  | _, _, _, _, .nil, _, _, _, ho', e, _, _, _, _, _, _, _, _ => by
    cases ho' with
    | nil => exact .nil
    | cons _ _ => simp [shapes] at e
  | c, _, _, _, .cons h hs, c', its', w', ho', e, hh, hc, hc', hi, hi', h1, _, h2 => by
    have j1 := outAll_two h
    have j2 := outItems_two hs
    cases ho' with
    | nil => simp [shapes] at e
    | cons h' hs' =>
      simp only [shapes, List.cons.injEq] at e
      have hd : c.frame.data = c'.frame.data := congrArg (·.2.1) hh.frame
      have i1 := j1 _ _ h' (shape_child hh e.1 (by rw [hd]; exact shape_itemData e.1)) (safe_child hc (hi _ (.head _)) _)
        (safe_child hc' (hi' _ (.head _)) _) h1 h2
      exact i1.append (j2 _ _ _ hs' e.2 hh hc hc' (fun v hv => hi v (.tail _ hv)) (fun v hv => hi' v (.tail _ hv)) h1 h2)
termination_by structural _ _ _ _ h => h
theorem outYields_two : {c : Ctx} → {ns : List Node} → {d : Option MapId} → {its : List Any} → {w : Bytes} →
    OutYields P c ns d its w → ∀ c' its' w', OutYields P c' ns d its' w' → shapes its = shapes its' → SameShapes c c' →
    SafeCtx c → SafeCtx c' → (∀ v ∈ its, SafeData v) → (∀ v ∈ its', SafeData v) → (∀ n ∈ ns, n.isAttr = false) →
    ∀ {text}, (∀ n ∈ ns, Clean P A B .html ρ text n) → Two text w w'
  | _, _, _, _, _, .nil, _, _, _, ho', e, _, _, _, _, _, _, _, _ => by
    cases ho' with
    | nil => exact .nil
    | cons _ _ => simp [shapes] at e
  | c, _, _, _, _, .cons h hs, c', its', w', ho', e, hh, hc, hc', hi, hi', h1, _, h2 => by
    have j1 := outAll_two h
    have j2 := outYields_two hs
    cases ho' with
    | nil => simp [shapes] at e
    | cons h' hs' =>
      simp only [shapes, List.cons.injEq] at e
      have i1 := j1 _ _ h' (shape_child hh e.1 (shape_itemData e.1)) (safe_child hc (hi _ (.head _)) _)
        (safe_child hc' (hi' _ (.head _)) _) h1 h2
      have i2 := j2 _ _ _ (by rw [shape_itemData e.1]; exact hs') e.2 hh hc hc' (fun v hv => hi v (.tail _ hv))
        (fun v hv => hi' v (.tail _ hv)) h1 h2
      exact i1.append i2
termination_by structural _ _ _ _ _ h => h
theorem outOps_two : {c : Ctx} → {ops : List ImpOp} → {st : List Bytes} → {w : Bytes} → OutOps P c ops st w →
    ∀ c' ops' w', OutOps P c' ops' st w' → SameCalls ops ops' → SameShapes c c' →
    SafeCtx c → SafeCtx c' → (∀ d, .writeRaw d ∈ ops → MarkupSafe d) → (∀ d, .writeRaw d ∈ ops' → MarkupSafe d) →
    (∀ ns n, .writeNodes ns ∈ ops → some n ∈ ns → Clean P A B .html ρ false n) →
    (∀ name v attrs, .start name v attrs ∈ ops → name ∈ A ∧ lower name ∉ textNames ∧ (v = true → Syntax.html = .html)) →
    (∀ name v attrs n, .start name v attrs ∈ ops → some n ∈ attrs → Clean P A B .html ρ false n) →
    openAfter ops st = [] →
    ∃ a b a' b', w = a ++ b ∧ w' = a' ++ b' ∧ Two false a a' ∧ Closes2 st b b'
  | _, _, _, _, .nil, c', ops', w', ho', hk, _, _, _, _, _, _, _, _, ho => by
    cases hk
    cases ho'
    exact ⟨[], [], [], [], rfl, rfl, .nil, by cases ho; exact .nil⟩
  | _, _, _, _, .writeString (d := d) h, c', ops', w', ho', hk, hh, hc, hc', h1, h1', h2, h3, h4, ho => by
    have ih := outOps_two h
    cases hk with
    | cons hk hks =>
    cases ho' <;> try (cases hk; done)
    rename_i d' w₂ h'
    obtain ⟨a, b, a', b', rfl, rfl, ha, hb⟩ := ih _ _ _ h' hks hh hc hc' (fun d hd => h1 d (.tail _ hd))
      (fun d hd => h1' d (.tail _ hd)) (fun a b hd => h2 a b (.tail _ hd)) (fun a b c hd => h3 a b c (.tail _ hd))
      (fun a b c d hd => h4 a b c d (.tail _ hd)) ho
    exact ⟨_, b, _, b', (List.append_assoc ..).symm, (List.append_assoc ..).symm,
      (Two.text ⟨d, escaped_eq d⟩ ⟨d', escaped_eq d'⟩).append ha, hb⟩
  | _, _, _, _, .writeRaw (d := d) h, c', ops', w', ho', hk, hh, hc, hc', h1, h1', h2, h3, h4, ho => by
    have ih := outOps_two h
    cases hk with
    | cons hk hks =>
    cases ho' <;> try (cases hk; done)
    rename_i d' w₂ h'
    obtain ⟨a, b, a', b', rfl, rfl, ha, hb⟩ := ih _ _ _ h' hks hh hc hc' (fun d hd => h1 d (.tail _ hd))
      (fun d hd => h1' d (.tail _ hd)) (fun a b hd => h2 a b (.tail _ hd)) (fun a b c hd => h3 a b c (.tail _ hd))
      (fun a b c d hd => h4 a b c d (.tail _ hd)) ho
    exact ⟨_, b, _, b', (List.append_assoc ..).symm, (List.append_assoc ..).symm,
      (Two.text (esc_of_markupSafe d (h1 d (.head _))) (esc_of_markupSafe d' (h1' d' (.head _)))).append ha, hb⟩
  | _, _, _, _, .writeNodes (ns := ms) h0 h, c', ops', w', ho', hk, hh, hc, hc', h1, h1', h2, h3, h4, ho => by
    have ih := outOps_two h
    have ih0 := outAll_two h0
    cases hk with
    | cons hk hks =>
    cases ho' <;> try (cases hk; done)
    rename_i h0' h'
    cases hk
    obtain ⟨a, b, a', b', rfl, rfl, ha, hb⟩ := ih _ _ _ h' hks hh hc hc' (fun d hd => h1 d (.tail _ hd))
      (fun d hd => h1' d (.tail _ hd)) (fun a b hd => h2 a b (.tail _ hd)) (fun a b c hd => h3 a b c (.tail _ hd))
      (fun a b c d hd => h4 a b c d (.tail _ hd)) ho
    have := ih0 _ _ h0' hh hc hc' (fun n hn => by simpa using (List.mem_filter.1 hn).2)
      (fun n hn => h2 ms n (.head _) (by simpa using (List.mem_filter.1 hn).1))
    exact ⟨_, b, _, b', (List.append_assoc ..).symm, (List.append_assoc ..).symm, this.append ha, hb⟩
  | c, _, _, _, .startVoid (n := nm) (attrs := attrs) h, c', ops', w', ho', hk, hh, hc, hc', h1, h1', h2, h3, h4, ho => by
    have ih := outOps_two h
    cases hk with
    | cons hk hks =>
    cases ho' <;> try (cases hk; done)
    rename_i h'
    cases hk
    obtain ⟨a, b, a', b', rfl, rfl, ha, hb⟩ := ih _ _ _ h' hks hh hc hc' (fun d hd => h1 d (.tail _ hd))
      (fun d hd => h1' d (.tail _ hd)) (fun a b hd => h2 a b (.tail _ hd)) (fun a b c hd => h3 a b c (.tail _ hd))
      (fun a b c d hd => h4 a b c d (.tail _ hd)) ho
    rw [startCollect_shows, startCollect_shows]
    have hs := start_clean (c := c) S hc (fun n hn => h4 nm true attrs n (.head _) hn)
    have hs' := start_clean (c := c') S hc' (fun n hn => h4 nm true attrs n (.head _) hn)
    have hA := h3 nm true attrs (.head _)
    exact ⟨_, b, _, b', (List.append_assoc ..).symm, (List.append_assoc ..).symm,
      (Two.void N hA.1 hs.1 hs.2 hs'.1 hs'.2 (by rw [start_names, start_names]) hA.2.1).append ha, hb⟩
  | c, _, _, _, .start (n := nm) (attrs := attrs) h, c', ops', w', ho', hk, hh, hc, hc', h1, h1', h2, h3, h4, ho => by
    have ih := outOps_two h
    cases hk with
    | cons hk hks =>
    cases ho' <;> try (cases hk; done)
    rename_i h'
    cases hk
    obtain ⟨a, b, a', b', rfl, rfl, ha, hb⟩ := ih _ _ _ h' hks hh hc hc' (fun d hd => h1 d (.tail _ hd))
      (fun d hd => h1' d (.tail _ hd)) (fun a b hd => h2 a b (.tail _ hd)) (fun a b c hd => h3 a b c (.tail _ hd))
      (fun a b c d hd => h4 a b c d (.tail _ hd)) ho
    rw [startCollect_shows, startCollect_shows]
    have hs := start_clean (c := c) S hc (fun n hn => h4 nm false attrs n (.head _) hn)
    have hs' := start_clean (c := c') S hc' (fun n hn => h4 nm false attrs n (.head _) hn)
    have hA := h3 nm false attrs (.head _)
    cases hb with
    | cons hw hst =>
      have he := Two.element (text := false) N hA.1 hs.1 hs.2 hs'.1 hs'.2 (by rw [start_names, start_names])
        ⟨by simp, fun h => (hA.2.1 h).elim⟩ ha
      exact ⟨_, _, _, _, by simp only [List.append_assoc], by simp only [List.append_assoc], he.append hw, hst⟩
  | _, _, _, _, .endNone h, c', ops', w', ho', hk, hh, hc, hc', h1, h1', h2, h3, h4, ho => by
    have ih := outOps_two h
    cases hk with
    | cons hk hks =>
    cases ho' <;> try (cases hk; done)
    rename_i h'
    exact ih _ _ _ h' hks hh hc hc' (fun d hd => h1 d (.tail _ hd))
      (fun d hd => h1' d (.tail _ hd)) (fun a b hd => h2 a b (.tail _ hd)) (fun a b c hd => h3 a b c (.tail _ hd))
      (fun a b c d hd => h4 a b c d (.tail _ hd)) ho
  | _, _, _, _, .endSome h, c', ops', w', ho', hk, hh, hc, hc', h1, h1', h2, h3, h4, ho => by
    have ih := outOps_two h
    cases hk with
    | cons hk hks =>
    cases ho' <;> try (cases hk; done)
    rename_i h'
    obtain ⟨a, b, a', b', rfl, rfl, ha, hb⟩ := ih _ _ _ h' hks hh hc hc' (fun d hd => h1 d (.tail _ hd))
      (fun d hd => h1' d (.tail _ hd)) (fun a b hd => h2 a b (.tail _ hd)) (fun a b c hd => h3 a b c (.tail _ hd))
      (fun a b c d hd => h4 a b c d (.tail _ hd)) ho
    exact ⟨[], _, [], _, (List.append_assoc ..).symm, (List.append_assoc ..).symm, .nil, .cons ha hb⟩
  | _, _, st, _, .endAll h, c', ops', w', ho', hk, hh, hc, hc', h1, h1', h2, h3, h4, ho => by
    have ih := outOps_two h
    cases hk with
    | cons hk hks =>
    cases ho' <;> try (cases hk; done)
    rename_i h'
    obtain ⟨a, b, a', b', rfl, rfl, ha, hb⟩ := ih _ _ _ h' hks hh hc hc' (fun d hd => h1 d (.tail _ hd))
      (fun d hd => h1' d (.tail _ hd)) (fun a b hd => h2 a b (.tail _ hd)) (fun a b c hd => h3 a b c (.tail _ hd))
      (fun a b c d hd => h4 a b c d (.tail _ hd)) ho
    cases hb
    rw [List.append_nil, List.append_nil]
    clear ho
    induction st with
    | nil => exact ⟨a, [], a', [], by simp, by simp, ha, .nil⟩
    | cons n st ih =>
      obtain ⟨x, y, x', y', e, e', hx, hy⟩ := ih
      refine ⟨[], endBytes n ++ x ++ y, [], endBytes n ++ x' ++ y', ?_, ?_, .nil, .cons hx hy⟩
      · rw [List.flatMap_cons, List.append_assoc, e]; simp
      · rw [List.flatMap_cons, List.append_assoc, e']; simp
termination_by structural _ _ _ _ h => h
end
end

end Aitch
