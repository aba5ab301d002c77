import Verif.Proofs.Start
import Verif.Props.Attributes
import Verif.Props.Elements
import Verif.Props.Imperative
/-
C26: the start tag that `Start` writes.
-/
namespace Aitch.Props
open Spec

/-! ### C26 — Start and declared elements -/

/-- What `Start` writes: `f` makes the calls of `g` and then `Start`.  (Elements show what `C11_last_wins` and
`C12_merge` say.) -/
theorem C26_start {P : Fns} (F : BuiltFns P) (c : Ctx) (he : c.frame.err = none) (f g : FnId) (name : Bytes)
    (isVoid : Bool) (attrs : List (Option Node)) (hops : P.imp f c = P.imp g c ++ [.start name isVoid attrs])
    (w : Bytes) :
    Renders P c (Imperative (some f)) w ↔ ∃ w₁, Renders P c (Imperative (some g)) w₁ ∧
      w = w₁ ++ tagBytes name (startShows P c (startAttrs attrs)) := by
  rw [renders_imperative F he, hops, outOps_append]
  have hr := fun w => renders_imperative F he g w
  generalize openAfter (P.imp g c) [] = st
  constructor
  · rintro ⟨w₁, w₂, h1, h2, rfl⟩
    refine ⟨w₁, (hr _).2 h1, ?_⟩
    cases h2 with
    | startVoid h2 => cases h2; rw [startCollect_shows]; simp
    | start h2 => cases h2; rw [startCollect_shows]; simp
  · rintro ⟨w₁, h1, rfl⟩
    refine ⟨w₁, _, (hr _).1 h1, ?_, rfl⟩
    rw [← startCollect_shows]
    cases isVoid with
    | true =>
      have := OutOps.startVoid (P := P) (c := c) (n := name) (attrs := attrs) (stack := st) .nil
      simpa using this
    | false =>
      have := OutOps.start (P := P) (c := c) (n := name) (attrs := attrs) (stack := st) .nil
      simpa using this

section alike
variable {dl dl' : Nat → List Value} {as bs : List Attr}

theorem alike_name {a b : Attr} (h : Alike dl dl' a b) : a.name = b.name := by cases h <;> rfl

theorem alike_names (h : Each (Alike dl dl') as bs) : as.map Attr.name = bs.map Attr.name := by
  induction h with
  | nil => rfl
  | cons h _ ih => simp [alike_name h, ih]

theorem alike_named (h : Each (Alike dl dl') as bs) (n : Bytes) : Each (Alike dl dl') (named n as) (named n bs) := by
  induction h with
  | nil => exact .nil
  | @cons a b l m h _ ih =>
    unfold named at ih ⊢
    rw [List.filter_cons, List.filter_cons, alike_name h]
    split
    · exact .cons h ih
    · exact ih

theorem alike_values (h : Each (Alike dl dl') as bs) : valuesOf dl as = valuesOf dl' bs := by
  induction h with
  | nil => rfl
  | cons h _ ih =>
    unfold valuesOf at ih ⊢
    simp only [List.flatMap_cons, ih]
    cases h <;> simp [Attr.values, *]

theorem alike_all (h : Each (Alike dl dl') as bs) (p : Attr → Prop) (hp : ∀ a b, Alike dl dl' a b → p b → p a)
    (hb : ∀ b ∈ bs, p b) : ∀ a ∈ as, p a := by
  induction h with
  | nil => simp
  | cons h _ ih =>
    intro a ha
    rcases List.mem_cons.1 ha with rfl | ha
    · exact hp _ _ h (hb _ (.head _))
    · exact ih (fun b hb' => hb b (.tail _ hb')) a ha

theorem alike_last (h : Each (Alike dl dl') as bs) {b : Attr} (hb : bs.getLast? = some b) :
    ∃ a, as.getLast? = some a ∧ Alike dl dl' a b := by
  induction h with
  | nil => simp at hb
  | cons h hl ih =>
    cases hl with
    | nil => simp at hb; subst hb; exact ⟨_, rfl, h⟩
    | cons h' hl' =>
      rw [List.getLast?_cons_cons] at hb ⊢
      exact ih hb

end alike

/-- Delimited values one after the other, when all delimiters are `d`. -/
theorem joinParts_const (d : Bytes) (ws : List Bytes) :
    joinParts false (ws.map fun w => (d, w)) = List.intercalate d ws := by
  cases ws with
  | nil => rfl
  | cons w ws =>
    simp only [List.map_cons, joinParts]
    induction ws generalizing w with
    | nil => simp [joinParts, List.intercalate]
    | cons w' ws ih =>
      have := ih w'
      simp only [List.map_cons, joinParts, List.intercalate, List.intersperse_cons_cons, List.flatten_cons] at this ⊢
      rw [← this]; simp

theorem delimJoin_intercalate {d : Bytes} {ws : List Bytes} (h : ∀ w ∈ ws.dropLast, w ≠ []) :
    delimJoin d ws = List.intercalate d ws := by
  induction ws with
  | nil => rfl
  | cons w ws ih =>
    cases ws with
    | nil => simp [delimJoin, List.intercalate]
    | cons w' ws =>
      have hw : w ≠ [] := h w (by simp)
      have := ih fun x hx => h x (by simp [hx])
      simp only [delimJoin, hw, if_false, this, List.intercalate, List.intersperse_cons_cons, List.flatten_cons]
      simp

/-- `delimJoin` drops the delimiters of the empty parts: it is shorter unless there are none. -/
theorem delimJoin_length {d : Bytes} (hd : d ≠ []) (ws : List Bytes) :
    (delimJoin d ws).length ≤ (List.intercalate d ws).length ∧
      ((∃ w ∈ ws.dropLast, w = []) → (delimJoin d ws).length < (List.intercalate d ws).length) := by
  have hd : 0 < d.length := List.length_pos_iff.2 hd
  induction ws with
  | nil => simp [delimJoin, List.intercalate]
  | cons w ws ih =>
    cases ws with
    | nil => simp [delimJoin, List.intercalate]
    | cons w' ws =>
      have e : List.intercalate d (w :: w' :: ws) = w ++ (d ++ List.intercalate d (w' :: ws)) := by
        simp [List.intercalate]
      rw [e]
      simp only [delimJoin]
      have hdl : (w :: w' :: ws).dropLast = w :: (w' :: ws).dropLast := rfl
      rw [hdl]
      by_cases hw : w = []
      · subst hw
        simp only [if_true, List.nil_append, List.length_append]
        exact ⟨by omega, fun _ => by omega⟩
      · simp only [hw, if_false, List.length_append]
        refine ⟨by omega, ?_⟩
        rintro ⟨x, hx, rfl⟩
        rcases List.mem_cons.1 hx with hx | hx
        · exact absurd hx.symm hw
        · have := ih.2 ⟨[], hx, rfl⟩
          omega

theorem partsOf_const {P : Fns} {c : Ctx} {d : Bytes} {ds : List Attr} (h : ∀ a ∈ ds, delimiterOf a = d) :
    partsOf P c ds = ((valuesOf c.dl ds).map (valueBytes P c)).map fun w => (d, w) := by
  induction ds with
  | nil => rfl
  | cons a ds ih =>
    have := ih fun b hb => h b (.tail _ hb)
    unfold partsOf valuesOf at this ⊢
    simp only [List.flatMap_cons, this, List.map_append]
    rw [h a (.head _)]
    simp

theorem startValue_delims {P : Fns} {c : Ctx} {d : Bytes} {ds : List Attr}
    (h : ∀ a ∈ ds, isDelim a = true ∧ delimiterOf a = d) :
    startValue P c ds = some (List.intercalate d ((valuesOf c.dl ds).map (valueBytes P c))) := by
  unfold startValue
  rw [delimSuffix_all fun a ha => (h a ha).1, partsOf_const fun a ha => (h a ha).2]
  have : (ds.filter fun a => !isDelim a) = [] := by
    rw [List.filter_eq_nil_iff]
    intro a ha
    simp [(h a ha).1]
  rw [this, ← joinParts_const]
  rfl

theorem startValue_last {P : Fns} {c : Ctx} {ds : List Attr} {a : Attr} (h : ds.getLast? = some a)
    (ha : isDelim a = false) : (a.name, startValue P c ds) = shown P c a := by
  obtain ⟨init, rfl⟩ := List.getLast?_eq_some_iff.1 h
  unfold startValue
  rw [delimSuffix_last h ha, List.filter_append]
  cases a with
  | plain n vs => simp [isDelim, refOf, partsOf, joinParts, shown, Attr.name]
  | bool n => simp [isDelim, refOf, partsOf, shown, Attr.name]
  | delim n d r => simp [isDelim, refOf] at ha

/-- Where the declarations of a name agree, `Start` and elements show the same. -/
theorem startValue_nameShows {P : Fns} {c : Ctx} {dl : Nat → List Value} {as bs : List Attr} {n : Bytes}
    (hal : Each (Alike dl c.dl) as bs) (hn : n ∈ bs.map Attr.name) (hp : Plainly P c (named n bs)) :
    nameShows P c dl (named n as) [] = some (n, startValue P c (named n bs)) := by
  have hal := alike_named hal n
  rcases hp with ⟨b, hb, hbd⟩ | ⟨d, hall, hne⟩
  · obtain ⟨a, ha, hab⟩ := alike_last hal hb
    have had : isDelim a = false := by cases hab <;> simp_all [isDelim, refOf]
    rw [nameShows_plain ha had (b := a) rfl]
    have hbn : b.name = n := named_name (List.mem_of_getLast? hb)
    have hsv := startValue_last (P := P) (c := c) hb hbd
    rw [hbn] at hsv
    rw [hsv]
    have : a = b := by
      cases hab with
      | plain => rfl
      | bool => rfl
      | delim => simp [isDelim, refOf] at hbd
    rw [this]
  · have hall' := alike_all hal (fun a => isDelim a = true ∧ delimiterOf a = d)
      (by rintro a b (_ | _ | _) h <;> simp_all [isDelim, refOf, delimiterOf]) hall
    cases has : named n as with
    | nil =>
      rw [has] at hal
      cases hbs : named n bs with
      | nil => exact absurd hbs (named_self hn)
      | cons x xs => rw [hbs] at hal; cases hal
    | cons a as' =>
      have ha := hall' a (by rw [has]; exact .head _)
      have han : a.name = n := named_name (as := as) (by rw [has]; exact .head _)
      rw [startValue_delims hall, ← alike_values hal, has]
      rw [has] at hall' hal
      cases a with
      | delim m d' r =>
        simp only [delimiterOf, Attr.name] at ha han
        obtain ⟨-, rfl⟩ := ha
        subst han
        rw [nameShows_delim (ds := .delim m d' r :: as') (es := []) rfl fun a ha => (hall' a ha).1]
        rw [delimJoin_intercalate]
        · simp [valuesOf]
        · rw [← List.map_dropLast]
          intro w hw
          obtain ⟨v, hv, rfl⟩ := List.mem_map.1 hw
          refine hne v ?_
          rw [← alike_values hal]
          simpa [valuesOf] using hv
      | plain => simp [isDelim, refOf] at ha
      | bool => simp [isDelim, refOf] at ha

theorem filterMap_some {α β : Type} {l : List α} {f : α → Option β} {g : α → β} (h : ∀ x ∈ l, f x = some (g x)) :
    l.filterMap f = l.map g := by
  induction l with
  | nil => rfl
  | cons x l ih =>
    rw [List.filterMap_cons, h x (.head _), ih fun y hy => h y (.tail _ hy)]
    rfl

theorem attrs_declared (as : List Attr) : declaredAll [] (as.map fun a => Node.attr a) = as.map fun a => (a, []) := by
  induction as with
  | nil => rfl
  | cons a as ih => simp [declaredAll, declared, ih]

section
variable {P : Fns} (F : BuiltFns P) (c : Ctx) (he : c.frame.err = none) (name : Bytes) (as bs : List Attr) (h : Heap)
  (hb : ∀ a ∈ as, Built (.attr a)) (hu : Unshared as)
  (hcur : Current c.dl as (NewVoidElement name (as.map fun a => .node (.attr a)) h).2)
  (hal : Each (Alike h.dl c.dl) as bs)
include F he hb hu hcur hal

theorem attrs_tag (hp : ∀ n ∈ bs.map Attr.name, Plainly P c (named n bs)) :
    RendersExactly P c (NewVoidElement name (as.map fun a => .node (.attr a)) h).1
      (tagBytes name (startShows P c bs)) := by
  have e1 : (as.map fun a => Any.node (.attr a)).map (asNode h.dl) = as.map fun a => Node.attr a := by
    simp [Function.comp_def, asNode]
  have e2 : staticAttrs (as.map fun a => Node.attr a) = as := by
    unfold staticAttrs
    rw [attrs_declared]
    simp [List.filter_map, Function.comp_def]
  have hs : ∀ as : List Attr, SeparateAll 0 (as.map fun a => Node.attr a) := by
    intro as
    induction as with
    | nil => trivial
    | cons a as ih => exact ⟨trivial, ih⟩
  obtain ⟨l, h1, h2⟩ := static_tag F c he name (as.map fun a => .node (.attr a)) h
    (by
      intro n hn
      obtain ⟨x, hx, hxn⟩ := List.mem_filterMap.1 hn
      obtain ⟨a, ha, rfl⟩ := List.mem_map.1 hx
      simp only [Option.some.injEq] at hxn
      exact hxn ▸ hb a ha)
    (by rw [e1]; exact hs as) (by rw [e1, e2]; exact hu) (by rw [e1, e2]; exact hcur)
    (by
      rw [e1]; unfold inEffect; rw [attrs_declared]
      simp)
  rw [e1, e2] at h2
  simp only [TagSpec, if_true] at h2
  have : l = startShows P c bs := by
    rw [h2, alike_names hal]
    unfold startShows
    refine filterMap_some fun n hn => ?_
    have hn := (mem_distinct _ _).1 hn
    exact startValue_nameShows hal hn (hp n hn)
  rw [← this]
  exact h1

/-- `Start(name, true, attrs...)` writes the same as the void element with the same attributes, if they agree on every
name (`Plainly`).  `as` are the attributes of the element, `bs` those given to `Start`, made by the same calls.
What is missing for the general claim: names declared delimited after plain or boolean, with different delimiters,
or with empty values before the last one (there the two differ, see `C26_false` and `C26_exact`). -/
theorem C26_void_partial (hp : ∀ n ∈ bs.map Attr.name, Plainly P c (named n bs)) (f : FnId)
    (attrs : List (Option Node)) (hattrs : startAttrs attrs = bs) (hops : P.imp f c = [.start name true attrs]) :
    ∃ w, RendersExactly P c (NewVoidElement name (as.map fun a => .node (.attr a)) h).1 w ∧
      RendersExactly P c (Imperative (some f)) w := by
  refine ⟨_, attrs_tag F c he name as bs h hb hu hcur hal hp, fun w => ?_⟩
  rw [renders_imperative F he, hops, ← hattrs, ← startCollect_shows]
  constructor
  · intro h
    cases h with
    | startVoid h => cases h; simp
  · rintro rfl
    have := OutOps.startVoid (P := P) (c := c) (n := name) (attrs := attrs) (stack := []) .nil
    simpa using this

/-- Likewise `Start(name, false, attrs...)` and `End()` write the same as the element. -/
theorem C26_element_partial (hp : ∀ n ∈ bs.map Attr.name, Plainly P c (named n bs)) (f : FnId)
    (attrs : List (Option Node)) (hattrs : startAttrs attrs = bs)
    (hops : P.imp f c = [.start name false attrs, .end]) :
    ∃ w, RendersExactly P c (NewElement name (as.map fun a => .node (.attr a)) h).1 w ∧
      RendersExactly P c (Imperative (some f)) w := by
  have hv := attrs_tag F c he name as bs h hb hu hcur hal hp
  refine ⟨tagBytes name (startShows P c bs) ++ endBytes name, fun w => ?_, fun w => ?_⟩
  · rw [C06_element F c he]
    · have e : nonAttrs ((as.map fun a => Any.node (.attr a)).map (asNode h.dl)) = [] := by
        simp only [nonAttrs, List.map_map, List.filter_eq_nil_iff]
        intro n hn
        obtain ⟨a, -, rfl⟩ := List.mem_map.1 hn
        simp [asNode, Node.isAttr, Node.type]
      rw [e]
      constructor
      · rintro ⟨tag, ws, h1, h2, rfl⟩
        cases h2
        rw [(hv _).1 h1]; simp [endBytes]
      · rintro rfl
        exact ⟨_, [], (hv _).2 rfl, .nil, by simp [endBytes]⟩
    · intro n hn
      obtain ⟨x, hx, hxn⟩ := List.mem_filterMap.1 hn
      obtain ⟨a, ha, rfl⟩ := List.mem_map.1 hx
      simp only [Option.some.injEq] at hxn
      exact hxn ▸ hb a ha
  · rw [renders_imperative F he, hops, ← hattrs, ← startCollect_shows]
    constructor
    · intro h
      cases h with
      | start h => cases h with | endSome h => cases h; simp
    · rintro rfl
      have := OutOps.start (P := P) (c := c) (n := name) (attrs := attrs) (stack := []) (.endSome .nil)
      simpa using this

end

/-- For delimited attributes the condition is exact: if the declarations of a name are all delimited, by `d`, then
what `Start` shows for it is what an element shows just if no value before the last one is empty. -/
theorem C26_exact {P : Fns} {c : Ctx} {dl : Nat → List Value} {as bs : List Attr} {n d : Bytes} {r : Nat}
    (hal : Each (Alike dl c.dl) as bs) (hd : d ≠ []) (h1 : (named n as).head? = some (.delim n d r))
    (h2 : ∀ b ∈ named n bs, isDelim b = true ∧ delimiterOf b = d) :
    nameShows P c dl (named n as) [] = some (n, startValue P c (named n bs)) ↔
      ∀ v ∈ (valuesOf c.dl (named n bs)).dropLast, valueBytes P c v ≠ [] := by
  have hal := alike_named hal n
  have hall' := alike_all hal (fun a => isDelim a = true ∧ delimiterOf a = d)
    (by rintro a b (_ | _ | _) h <;> simp_all [isDelim, refOf, delimiterOf]) h2
  rw [nameShows_delim h1 fun a ha => (hall' a ha).1, startValue_delims h2, alike_values hal]
  have e : valuesOf c.dl [] = [] := rfl
  rw [e, List.append_nil]
  simp only [Option.some.injEq, Prod.mk.injEq, true_and]
  constructor
  · intro h v hv hve
    have := (delimJoin_length hd ((valuesOf c.dl (named n bs)).map (valueBytes P c))).2
      ⟨_, by rw [← List.map_dropLast]; exact List.mem_map_of_mem hv, hve⟩
    rw [h] at this
    omega
  · intro h
    rw [delimJoin_intercalate]
    rw [← List.map_dropLast]
    intro w hw
    obtain ⟨v, hv, rfl⟩ := List.mem_map.1 hw
    exact h v hv

/-! The hypotheses can be met, and the general claim is false. -/

/-- Memory: delimited attributes 0, 1 and again 2, 3 with values `a b` and `c`. -/
def startHeap : Heap :=
  (NewDelimitedAttribute b%"class" b%" " [.str b%"c"]
    (NewDelimitedAttribute b%"class" b%" " [.str b%"a", .str b%"b"]
      (NewDelimitedAttribute b%"class" b%" " [.str b%"c"]
        (NewDelimitedAttribute b%"class" b%" " [.str b%"a", .str b%"b"] .empty).2).2).2).2

/-- Attributes, with delimited ones at `r` and `r + 1`. -/
def startSample (r : Nat) : List Attr :=
  [.delim b%"class" b%" " r, .plain b%"id" [.mk b%"1" none []], .bool b%"hidden", .delim b%"class" b%" " (r + 1),
    .plain b%"id" [.mk b%"2" none []]]

/-- Functions: number 0 calls `Start`. -/
def startFns (isVoid : Bool) (as : List Attr) : Fns := { Sample.fns with
  collect := fun _ _ => []
  imp := fun _ _ => .start b%"p" isVoid (none :: as.map fun a => some (.attr a)) :: if isVoid then [] else [.end] }

theorem startFns_built (isVoid : Bool) (as : List Attr) : BuiltFns (startFns isVoid as) := by
  refine ⟨fun f c n hn => by simp [startFns] at hn, fun f c ns n hn hm => ?_⟩
  cases isVoid <;> simp [startFns] at hn

/-- The context in which the element is rendered and `Start` is called: the element was built from the attributes 0
and 1. -/
def startCtx : Ctx :=
  { Sample.ctx with dl := (NewVoidElement b%"p" ((startSample 0).map fun a => .node (.attr a)) startHeap).2.dl }

theorem built_delim (n d : Bytes) (r : Nat) : Built (.attr (.delim n d r)) :=
  .newDelimitedAttribute n d [] ⟨fun _ => [], r⟩

theorem built_bool (n : Bytes) : Built (.attr (.bool n)) := .newBooleanAttribute n

theorem built_str (n s : Bytes) (hs : htmlEscapeString s = s) : Built (.attr (.plain n [.mk s none []])) := by
  have := Built.newAttribute (fun _ => []) n [.str s]
  simpa [NewAttribute, newValues, newValue, valueToBytes, hs] using this

example (isVoid : Bool) :
    (∀ a ∈ startSample 0, Built (.attr a)) ∧ Unshared (startSample 0) ∧
    Current startCtx.dl (startSample 0) (NewVoidElement b%"p" ((startSample 0).map fun a => .node (.attr a)) startHeap).2 ∧
    Each (Alike startHeap.dl startCtx.dl) (startSample 0) (startSample 2) ∧
    (∀ n ∈ (startSample 2).map Attr.name,
      Plainly (startFns isVoid (startSample 2)) startCtx (named n (startSample 2))) := by
  refine ⟨?_, ?_, fun _ _ => rfl, ?_, ?_⟩
  · intro a ha
    simp only [startSample, List.mem_cons, List.not_mem_nil, or_false] at ha
    rcases ha with rfl | rfl | rfl | rfl | rfl
    · exact built_delim _ _ _
    · exact built_str _ _ (by decide)
    · exact built_bool _
    · exact built_delim _ _ _
    · exact built_str _ _ (by decide)
  · change List.Nodup [0, 1]; simp
  · exact .cons (.delim _ _ _ _ rfl) (.cons (.plain _ _) (.cons (.bool _) (.cons (.delim _ _ _ _ rfl)
      (.cons (.plain _ _) .nil))))
  · intro n hn
    simp only [startSample, List.map_cons, List.map_nil, List.mem_cons, List.not_mem_nil, or_false, Attr.name] at hn
    have h1 : Plainly (startFns isVoid (startSample 2)) startCtx (named b%"class" (startSample 2)) := by
      refine Or.inr ⟨b%" ", ?_, ?_⟩
      · intro a ha
        change a ∈ [Attr.delim b%"class" b%" " 2, .delim b%"class" b%" " 3] at ha
        simp at ha
        rcases ha with rfl | rfl <;> exact ⟨rfl, rfl⟩
      · intro v hv
        change v ∈ [Value.mk b%"a" none [], .mk b%"b" none []] at hv
        simp at hv
        rcases hv with rfl | rfl <;> simp [valueBytes]
    have h2 : Plainly (startFns isVoid (startSample 2)) startCtx (named b%"id" (startSample 2)) :=
      Or.inl ⟨.plain b%"id" [.mk b%"2" none []], rfl, rfl⟩
    have h3 : Plainly (startFns isVoid (startSample 2)) startCtx (named b%"hidden" (startSample 2)) :=
      Or.inl ⟨.bool b%"hidden", rfl, rfl⟩
    rcases hn with rfl | rfl | rfl | rfl | rfl <;> assumption

example : tagBytes b%"p" (startShows (startFns true (startSample 2)) startCtx (startSample 2)) =
    b%"<p class=\"a b c\" id=\"2\" hidden>" := rfl

/-- The general claim: `Start` writes the same tag as an element, whatever the attributes. -/
def C26_claim : Prop :=
  ∀ (P : Fns) (_ : BuiltFns P) (c : Ctx) (_ : c.frame.err = none) (name : Bytes) (as bs : List Attr) (h : Heap),
    (∀ a ∈ as, Built (.attr a)) → Unshared as →
    Current c.dl as (NewVoidElement name (as.map fun a => .node (.attr a)) h).2 →
    Each (Alike h.dl c.dl) as bs → ∀ (f : FnId) (attrs : List (Option Node)), startAttrs attrs = bs →
    P.imp f c = [.start name true attrs] →
    ∀ w, Renders P c (NewVoidElement name (as.map fun a => .node (.attr a)) h).1 w ↔
      Renders P c (Imperative (some f)) w

/-- It is false: of the attribute `id="1"` followed by the delimited attribute `id` with value `a`, an element only
shows the latter, `Start` shows both. -/
theorem C26_false : ¬ C26_claim := by
  intro hc
  let h0 : Heap := (NewDelimitedAttribute b%"id" b%" " [.str b%"a"] .empty).2
  let as : List Attr := [.plain b%"id" [.mk b%"1" none []], .delim b%"id" b%" " 0]
  let c : Ctx := { Sample.ctx with dl := h0.dl }
  have hF := startFns_built true as
  have hb : ∀ a ∈ as, Built (.attr a) := by
    intro a ha
    simp only [as, List.mem_cons, List.not_mem_nil, or_false] at ha
    rcases ha with rfl | rfl
    · exact built_str _ _ (by decide)
    · exact built_delim _ _ _
  have := hc (startFns true as) hF c rfl b%"p" as as h0 hb
    (by change List.Nodup [0]; simp) (fun r hr => by
      change r ∈ [0] at hr
      simp at hr; subst hr; rfl)
    (.cons (.plain _ _) (.cons (.delim _ _ _ _ rfl) .nil)) 0 _ rfl rfl b%"<p id=\"1 a\">"
  have h1 : Renders (startFns true as) c (Imperative (some 0)) b%"<p id=\"1 a\">" := by
    rw [renders_imperative hF rfl]
    exact OutOps.startVoid (P := startFns true as) (c := c) (n := b%"p") (stack := []) .nil
  have h2 := this.2 h1
  rw [(Built.newVoidElement b%"p" _ h0 (by
    intro n hn
    obtain ⟨x, hx, hxn⟩ := List.mem_filterMap.1 hn
    obtain ⟨a, ha, rfl⟩ := List.mem_map.1 hx
    simp only [Option.some.injEq] at hxn
    exact hxn ▸ hb a ha)).renders_iff hF rfl] at h2
  have e : (NewVoidElement b%"p" (as.map fun a => .node (.attr a)) h0).1 =
      .voidElement { name := b%"p", attributes := [.delim b%"id" b%" " 0], conditionals := [], attIndices := [(b%"id", 0)] } := rfl
  rw [e] at h2
  generalize hw : b%"<p id=\"1 a\">" = w at h2
  cases h2 with
  | voidElement ht =>
    simp only [TagShows, active, List.filter_nil, List.map_nil, if_true] at ht
    subst ht
    exact absurd hw (by decide)

/-- Likewise for an empty value before the last one: an element leaves its delimiter out. -/
theorem C26_false_empty : ¬ ∀ (P : Fns) (c : Ctx) (n d : Bytes) (r : Nat),
    nameShows P c c.dl [.delim n d r] [] = some (n, startValue P c [.delim n d r]) := by
  intro h
  exact absurd (h Sample.fns { Sample.ctx with dl := fun _ => [.mk [] none [], .mk b%"a" none []] } b%"class" b%" " 0)
    (by decide)

end Aitch.Props
