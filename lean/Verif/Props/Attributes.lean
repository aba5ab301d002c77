import Verif.Proofs.Element
import Verif.Proofs.Leaf
import Verif.Spec.Sample
/-
C10, C11, C12, C13, C17, C19: which attributes a tag shows and how.

The start tag of an element is what the void element of the same name and contents writes (C06), so it is enough to
speak about void elements.
-/
namespace Aitch.Props
open Spec

/-! Contents for the examples. -/

/-- A delimited attribute, then the same attribute under a condition that holds, a plain one overridden, and one that
only exists conditionally. -/
def sampleHeap : Heap :=
  (NewDelimitedAttribute b%"class" b%" " [.str b%"b"] (NewDelimitedAttribute b%"class" b%" " [.str b%"a"] .empty).2).2

/-- Contents with these attributes. -/
def sampleContents : List Any :=
  [.node (.attr (.delim b%"class" b%" " 0)), .node (NewAttribute (fun _ => []) b%"id" [.str b%"old"]),
   .node (.conditional [] [.delim b%"class" b%" " 1, .plain b%"id" [.mk b%"new" none []], .bool b%"on"] (.user 0)),
   .node (.conditional [] [.bool b%"off"] (.user 1))]

theorem sample_met : SeparateAll 0 (sampleContents.map (asNode sampleHeap.dl)) ∧
    Unshared (staticAttrs (sampleContents.map (asNode sampleHeap.dl))) ∧
    Current sampleHeap.dl (staticAttrs (sampleContents.map (asNode sampleHeap.dl)))
      (NewVoidElement b%"p" sampleContents sampleHeap).2 := by
  refine ⟨separateAll_of_depth _ 0 (by decide), ?_, ?_⟩
  · change List.Nodup [0]; simp
  · intro r hr
    change r ∈ [0] at hr
    simp at hr; subst hr; rfl

theorem sample_built : ∀ n ∈ nodesIn sampleContents, Built n := by
  simp only [sampleContents, nodesIn, List.filterMap_cons, List.filterMap_nil, List.forall_mem_cons]
  refine ⟨.newDelimitedAttribute b%"class" b%" " [.str b%"a"] .empty, .newAttribute _ _ _, ?_, ?_, by simp⟩
  · refine .conditional (some 0) [some (.attr (.delim b%"class" b%" " 1)), some (.attr (.plain b%"id" [.mk b%"new" none []])),
      some (.attr (.bool b%"on"))] _ ?_ rfl
    intro n hn
    simp at hn
    rcases hn with rfl | rfl | rfl
    · exact .newDelimitedAttribute b%"class" b%" " [] ⟨fun _ => [], 1⟩
    · exact .newAttribute (fun _ => []) b%"id" [.bytes b%"new"]
    · exact .newBooleanAttribute b%"on"
  · refine .conditional (some 1) [some (.attr (.bool b%"off"))] _ ?_ rfl
    intro n hn
    simp at hn
    subst hn
    exact .newBooleanAttribute b%"off"

/-- The context of the samples, with these attributes. -/
def sampleCtx : Ctx := { Sample.ctx with dl := sampleHeap.dl }

theorem sample_renders : Renders Sample.fns sampleCtx (NewVoidElement b%"p" sampleContents sampleHeap).1
    b%"<p class=\"a b\" id=\"new\" on>" :=
  ⟨Sample.env, Sample.healthy, Sample.computes, { Sample.st with dl := sampleHeap.dl }, _, rfl, ⟨1, rfl⟩, rfl⟩

section
variable {P : Fns} (F : BuiltFns P) (c : Ctx) (he : c.frame.err = none) (name : Bytes) (contents : List Any) (h : Heap)
  (hb : ∀ n ∈ nodesIn contents, Built n)
include F he hb

/-! ### C10 — an attribute name appears at most once per tag -/

/-- The names in a tag are all different; they are names declared in the contents, and all unconditionally declared
names are among them. -/
theorem C10_once (w : Bytes) (hr : Renders P c (NewVoidElement name contents h).1 w) :
    ∃ l : List Shown, w = tagBytes name l ∧ (l.map (·.1)).Nodup ∧
      (∀ x ∈ l, ∃ d ∈ declaredAll [] (contents.map (asNode h.dl)), d.1.name = x.1) ∧
      ∀ d ∈ declaredAll [] (contents.map (asNode h.dl)), d.2 = [] → d.1.name ∈ l.map (·.1) := by
  obtain ⟨e, dl, h1, h2, hm, hc, -⟩ := void_head (name := name) (contents := contents) (h := h)
  rw [(Built.newVoidElement name contents h hb).renders_iff F he, h1] at hr
  cases hr with
  | voidElement ht =>
    have hn := tagShows_names hm.wf ht
    refine ⟨_, by rw [← h2], hn.1, fun x hx => ?_, fun d hd hd2 => ?_⟩
    · rcases (hn.2 x.1).1 (List.mem_map_of_mem hx) with hn | hn
      · rw [hm.names, mem_distinct] at hn
        obtain ⟨a, ha, hax⟩ := List.mem_map.1 hn
        obtain ⟨d, hd, rfl⟩ := List.mem_map.1 ha
        exact ⟨d, (List.mem_filter.1 hd).1, hax⟩
      · obtain ⟨a, ha, hax⟩ := List.mem_map.1 hn
        obtain ⟨ca, hca, rfl⟩ := active_mem ha
        rw [hc] at hca
        have hmem := List.mem_map_of_mem (f := (·.att)) hca
        rw [(attributesAndContents_shape _).2.1] at hmem
        obtain ⟨ca', hca', hx'⟩ := List.mem_map.1 hmem
        obtain ⟨d, hd, rfl⟩ := List.mem_map.1 hca'
        exact ⟨d, (List.mem_filter.1 hd).1, by rw [← hax, ← hx']⟩
    · rw [hn.2]
      refine Or.inl ?_
      rw [hm.names, mem_distinct]
      exact List.mem_map_of_mem (List.mem_map_of_mem (List.mem_filter.2 ⟨hd, by simp [hd2]⟩))

omit F he hb in
example := C10_once Sample.built sampleCtx rfl b%"p" sampleContents sampleHeap sample_built _ sample_renders

/-! ### C19 — conditional attributes override or extend static ones -/

/-- What a tag can show is exactly what `TagSpec` says: every name once, resolved from its unconditional declarations
and its conditional declarations in effect (`nameShows`). -/
theorem C19_tag (hs : SeparateAll 0 (contents.map (asNode h.dl)))
    (hu : Unshared (staticAttrs (contents.map (asNode h.dl))))
    (hcur : Current c.dl (staticAttrs (contents.map (asNode h.dl))) (NewVoidElement name contents h).2) (w : Bytes) :
    Renders P c (NewVoidElement name contents h).1 w ↔
      ∃ l, TagSpec P c h.dl (staticAttrs (contents.map (asNode h.dl))) (inEffect P c (contents.map (asNode h.dl))) l ∧
        w = tagBytes name l := by
  obtain ⟨e, dl, h1, h2, hm, hc, hv⟩ := void_head (name := name) (contents := contents) (h := h)
  rw [(Built.newVoidElement name contents h hb).renders_iff F he]
  rw [h1] at hcur ⊢
  have hv' : ∀ n d r, (delimSuffix (named n (staticAttrs (contents.map (asNode h.dl))))).head? = some (.delim n d r) →
      c.dl r = valuesOf h.dl (delimSuffix (named n (staticAttrs (contents.map (asNode h.dl))))) := by
    intro n d r hr
    rw [← hv hu n d r hr]
    exact hcur r (delimSuffix_ref hr)
  have hact : active P c e.conditionals = inEffect P c (contents.map (asNode h.dl)) := by
    rw [hc, attributesAndContents_conds hs, active_condAttrs]
  constructor
  · intro ho
    cases ho with
    | voidElement ht =>
      refine ⟨_, ?_, by rw [← h2]⟩
      rw [← hact]
      exact (tagShows_iff hm hv' _).1 ht
  · rintro ⟨l, hl, rfl⟩
    rw [← hact] at hl
    rw [← h2]
    exact .voidElement ((tagShows_iff hm hv' _).2 hl)

omit F he hb in
example := (C19_tag Sample.built sampleCtx rfl b%"p" sampleContents sampleHeap sample_built sample_met.1 sample_met.2.1
  sample_met.2.2 _).1 sample_renders

end

/-! The same name by name. -/

/-- The unconditional attributes of the sample, and the conditional ones in effect. -/
abbrev sampleStatics : List Attr := staticAttrs (sampleContents.map (asNode sampleHeap.dl))
@[inherit_doc sampleStatics] abbrev sampleActive : List Attr :=
  inEffect Sample.fns sampleCtx (sampleContents.map (asNode sampleHeap.dl))

theorem sample_tag : TagSpec Sample.fns sampleCtx sampleHeap.dl sampleStatics sampleActive
    [(b%"class", some b%"a b"), (b%"id", some b%"new"), (b%"on", none)] :=
  ⟨[(b%"class", some b%"a b"), (b%"id", some b%"new")], [(b%"on", none)], .refl _, .refl _, rfl⟩

section
variable {P : Fns} {c : Ctx} {dl : Nat → List Value} {statics act : List Attr} {l : List Shown}
  (hl : TagSpec P c dl statics act l) (n : Bytes)
include hl

/-- A name with delimited unconditional declarations only shows their values, then those of the conditional ones in
effect. -/
theorem C19_extend {d : Bytes} {r : Nat} (h1 : (named n statics).head? = some (.delim n d r))
    (h2 : ∀ a ∈ named n statics, isDelim a = true) (v : Option Bytes) :
    (n, v) ∈ l ↔
      v = some (delimJoin d ((valuesOf dl (named n statics) ++ valuesOf c.dl (named n act)).map (valueBytes P c))) := by
  rw [tagSpec_name hl, nameShows_delim h1 h2]
  simp [eq_comm]

omit hl in
example := C19_extend sample_tag b%"class" (d := b%" ") (r := 0) rfl (by decide) (some b%"a b")

/-- A name whose last unconditional declaration is plain or boolean is replaced by the last conditional one in
effect. -/
theorem C19_override {a b : Attr} (h1 : (named n statics).getLast? = some a) (h2 : isDelim a = false)
    (h3 : (named n act).getLast? = some b) (v : Option Bytes) : (n, v) ∈ l ↔ (n, v) = shown P c b := by
  rw [tagSpec_name hl, nameShows_plain h1 h2 (b := b) (by rw [h3]; rfl)]
  simp [eq_comm]

omit hl in
example := C19_override sample_tag b%"id" (a := .plain b%"id" [.mk b%"old" none []])
  (b := .plain b%"id" [.mk b%"new" none []]) rfl rfl rfl (some b%"new")

/-- A name declared only conditionally, first one in effect delimited: the values of all in effect. -/
theorem C19_first_delimited {d : Bytes} {r : Nat} (h1 : named n statics = [])
    (h2 : (named n act).head? = some (.delim n d r)) (v : Option Bytes) :
    (n, v) ∈ l ↔ v = some (delimJoin d ((valuesOf c.dl (named n act)).map (valueBytes P c))) := by
  rw [tagSpec_name hl, h1]
  cases ha : named n act with
  | nil => rw [ha] at h2; simp at h2
  | cons e es =>
    rw [ha] at h2
    simp only [List.head?_cons, Option.some.injEq] at h2
    subst h2
    simp [nameShows, eq_comm]

omit hl in
/-- Two delimited attributes that only exist conditionally. -/
example := C19_first_delimited (P := Sample.fns) (c := sampleCtx) (dl := sampleHeap.dl) (statics := [])
  (act := [.delim b%"class" b%" " 0, .delim b%"class" b%"," 1]) (l := [(b%"class", some b%"a b")])
  ⟨[], [(b%"class", some b%"a b")], .refl _, .refl _, rfl⟩ b%"class" rfl rfl (some b%"a b")

/-- A name declared only conditionally, first one in effect plain or boolean: the last one in effect. -/
theorem C19_first_plain {a b : Attr} (h1 : named n statics = []) (h2 : (named n act).head? = some a)
    (h3 : isDelim a = false) (h4 : (named n act).getLast? = some b) (v : Option Bytes) :
    (n, v) ∈ l ↔ (n, v) = shown P c b := by
  rw [tagSpec_name hl, h1]
  cases ha : named n act with
  | nil => rw [ha] at h2; simp at h2
  | cons e es =>
    rw [ha] at h2 h4
    simp only [List.head?_cons, Option.some.injEq] at h2
    subst h2
    cases e with
    | delim => simp [isDelim, refOf] at h3
    | plain => simp [nameShows, h4, eq_comm]
    | bool => simp [nameShows, h4, eq_comm]

omit hl in
example := C19_first_plain sample_tag b%"on" (a := .bool b%"on") (b := .bool b%"on") rfl rfl rfl rfl none

end

example : Writes Sample.env (NewVoidElement b%"p" sampleContents sampleHeap).1 { Sample.st with dl := sampleHeap.dl }
    b%"<p class=\"a b\" id=\"new\" on>" := ⟨_, ⟨1, rfl⟩, rfl, rfl⟩

/-- Contents in which `class` and `id` are declared twice and no conditional attribute is in effect. -/
def sampleOff : List Any :=
  [.node (.attr (.delim b%"class" b%" " 0)), .node (NewAttribute (fun _ => []) b%"id" [.str b%"old"]),
   .node (.attr (.delim b%"class" b%" " 1)), .node (NewBooleanAttribute b%"id"),
   .node (.conditional [] [.bool b%"off"] (.user 1))]

theorem sampleOff_built : ∀ n ∈ nodesIn sampleOff, Built n := by
  simp only [sampleOff, nodesIn, List.filterMap_cons, List.filterMap_nil, List.forall_mem_cons]
  refine ⟨.newDelimitedAttribute b%"class" b%" " [.str b%"a"] .empty, .newAttribute _ _ _,
    .newDelimitedAttribute b%"class" b%" " [] ⟨fun _ => [], 1⟩, .newBooleanAttribute _, ?_, by simp⟩
  refine .conditional (some 1) [some (.attr (.bool b%"off"))] _ ?_ rfl
  intro n hn
  simp at hn
  subst hn
  exact .newBooleanAttribute b%"off"

/-- Memory after the construction. -/
def sampleOffCtx : Ctx := { Sample.ctx with dl := (NewVoidElement b%"p" sampleOff sampleHeap).2.dl }

theorem sampleOff_met : SeparateAll 0 (sampleOff.map (asNode sampleHeap.dl)) ∧
    Unshared (staticAttrs (sampleOff.map (asNode sampleHeap.dl))) ∧
    Current sampleOffCtx.dl (staticAttrs (sampleOff.map (asNode sampleHeap.dl)))
      (NewVoidElement b%"p" sampleOff sampleHeap).2 ∧
    inEffect Sample.fns sampleOffCtx (sampleOff.map (asNode sampleHeap.dl)) = [] := by
  refine ⟨separateAll_of_depth _ 0 (by decide), ?_, fun _ _ => rfl, rfl⟩
  change List.Nodup [0, 1]
  simp

example : Writes Sample.env (NewVoidElement b%"p" sampleOff sampleHeap).1 { Sample.st with dl := sampleOffCtx.dl }
    b%"<p class=\"a b\" id>" := ⟨_, ⟨1, rfl⟩, rfl, rfl⟩

/-! ### C11, C12 — repeated declarations, without conditional attributes in effect -/

section
variable {P : Fns} (F : BuiltFns P) (c : Ctx) (he : c.frame.err = none) (name : Bytes) (contents : List Any) (h : Heap)
  (hb : ∀ n ∈ nodesIn contents, Built n) (hs : SeparateAll 0 (contents.map (asNode h.dl)))
  (hu : Unshared (staticAttrs (contents.map (asNode h.dl))))
  (hcur : Current c.dl (staticAttrs (contents.map (asNode h.dl))) (NewVoidElement name contents h).2)
  (hoff : inEffect P c (contents.map (asNode h.dl)) = [])
include F he hb hs hu hcur hoff

theorem static_tag : ∃ l, RendersExactly P c (NewVoidElement name contents h).1 (tagBytes name l) ∧
    TagSpec P c h.dl (staticAttrs (contents.map (asNode h.dl))) [] l := by
  refine ⟨(distinct ((staticAttrs (contents.map (asNode h.dl))).map Attr.name)).filterMap fun n =>
      nameShows P c h.dl (named n (staticAttrs (contents.map (asNode h.dl)))) (named n []), ?_, ?_⟩
  · intro w
    rw [C19_tag F c he name contents h hb hs hu hcur, hoff]
    simp [TagSpec]
  · simp [TagSpec]

/-- The tag shows the distinct names in order of first declaration; a name whose last declaration is plain or boolean
shows that declaration. -/
theorem C11_last_wins : ∃ l, RendersExactly P c (NewVoidElement name contents h).1 (tagBytes name l) ∧
    l.map (·.1) = distinct ((staticAttrs (contents.map (asNode h.dl))).map Attr.name) ∧
    ∀ n a, (named n (staticAttrs (contents.map (asNode h.dl)))).getLast? = some a → isDelim a = false →
      ∀ v, (n, v) ∈ l ↔ (n, v) = shown P c a := by
  obtain ⟨l, h1, h2⟩ := static_tag F c he name contents h hb hs hu hcur hoff
  refine ⟨l, h1, ?_, ?_⟩
  · have h3 := h2
    simp only [TagSpec, if_true] at h3
    rw [h3]
    have key : ∀ ns : List Bytes, (∀ n ∈ ns, n ∈ (staticAttrs (contents.map (asNode h.dl))).map Attr.name) →
        (ns.filterMap fun n => nameShows P c h.dl (named n (staticAttrs (contents.map (asNode h.dl))))
          (named n [])).map (·.1) = ns := by
      intro ns hns
      induction ns with
      | nil => rfl
      | cons n ns ih =>
        rw [List.filterMap_cons]
        have hne := named_self (hns n (by simp))
        have : ∃ x, nameShows P c h.dl (named n (staticAttrs (contents.map (asNode h.dl)))) (named n []) = some x := by
          unfold nameShows
          split
          · exact ⟨_, rfl⟩
          · rw [List.getLast?_eq_some_getLast hne]; exact ⟨_, rfl⟩
          · rename_i h0; exact absurd h0 hne
        obtain ⟨x, hx⟩ := this
        rw [hx]
        simp only [List.map_cons, nameShows_fst hx, ih fun m hm => hns m (by simp [hm])]
    exact key _ fun n hn => by rwa [mem_distinct] at hn
  · intro n a ha hd v
    rw [tagSpec_name h2, nameShows_plain ha hd (b := a) (by rfl)]
    simp [eq_comm]

omit F he hb hs hu hcur hoff in
example := C11_last_wins Sample.built sampleOffCtx rfl b%"p" sampleOff sampleHeap sampleOff_built sampleOff_met.1 sampleOff_met.2.1
  sampleOff_met.2.2.1 sampleOff_met.2.2.2

/-- A name all of whose declarations are delimited shows all their values in declaration order, joined with the
delimiter of the first. -/
theorem C12_merge : ∃ l, RendersExactly P c (NewVoidElement name contents h).1 (tagBytes name l) ∧
    ∀ n d r, (named n (staticAttrs (contents.map (asNode h.dl)))).head? = some (.delim n d r) →
      (∀ a ∈ named n (staticAttrs (contents.map (asNode h.dl))), isDelim a = true) →
      ∀ v, (n, v) ∈ l ↔ v = some (delimJoin d
        ((valuesOf h.dl (named n (staticAttrs (contents.map (asNode h.dl))))).map (valueBytes P c))) := by
  obtain ⟨l, h1, h2⟩ := static_tag F c he name contents h hb hs hu hcur hoff
  refine ⟨l, h1, ?_⟩
  intro n d r hd hall v
  have := C19_extend h2 n hd hall v
  simpa [named, valuesOf] using this

omit F he hb hs hu hcur hoff in
example := C12_merge Sample.built sampleOffCtx rfl b%"p" sampleOff sampleHeap sampleOff_built sampleOff_met.1 sampleOff_met.2.1
  sampleOff_met.2.2.1 sampleOff_met.2.2.2

end

example : Writes Sample.env (NewVoidElement b%"p" [.node (NewAttribute (fun _ => []) b%"id" [.str b%"1"]),
    .node (NewAttribute (fun _ => []) b%"x" [.str b%"2"]), .node (NewBooleanAttribute b%"id"),
    .node (NewAttribute (fun _ => []) b%"x" [.str b%"3"])] .empty).1 Sample.st
    b%"<p id x=\"3\">" := ⟨_, ⟨1, rfl⟩, rfl, rfl⟩

/-! ### C13 — delimiter placement -/

theorem delimJoin_eq (d : Bytes) (ws : List Bytes) :
    delimJoin d ws = List.intercalate d (ws.filter (· ≠ [])) ++
      (if (∃ w ∈ ws, w ≠ []) ∧ ws.getLast? = some [] then d else []) := by
  have aux : ∀ xs : List Bytes, ∀ x, xs ≠ [] → List.intercalate d (x :: xs) = x ++ d ++ List.intercalate d xs := by
    intro xs x hx
    cases xs with
    | nil => exact absurd rfl hx
    | cons y ys => simp [List.intercalate, List.intersperse]
  induction ws with
  | nil => simp [delimJoin, List.intercalate]
  | cons w ws ih =>
    cases ws with
    | nil =>
      by_cases hw : w = []
      · subst hw; simp [delimJoin, List.intercalate]
      · simp [delimJoin, List.intercalate, hw]
    | cons x xs =>
      rw [delimJoin, ih]
      · by_cases hw : w = []
        · subst hw
          simp
        · have hl : (w :: x :: xs).getLast? = (x :: xs).getLast? := by simp
          rw [hl, List.filter_cons_of_pos (a := w) (by simpa using hw)]
          have he : (∃ u ∈ w :: x :: xs, u ≠ []) := ⟨w, by simp, hw⟩
          simp only [he, true_and, hw, if_false]
          by_cases hf : (x :: xs).filter (· ≠ []) = []
          · have hnone : ∀ u ∈ x :: xs, u = [] := by
              intro u hu
              have := List.filter_eq_nil_iff.1 hf u hu
              simpa using this
            have hlast : (x :: xs).getLast? = some [] := by
              rw [List.getLast?_eq_some_getLast (by simp)]
              rw [hnone _ (List.getLast_mem (by simp))]
            have hno : ¬ ∃ u ∈ x :: xs, u ≠ [] := by
              rintro ⟨u, hu, hu'⟩; exact hu' (hnone u hu)
            rw [hf, hlast]
            simp only [hno, false_and, if_false, if_true]
            simp [List.intercalate]
          · rw [aux _ _ hf]
            have hyes : ∃ u ∈ x :: xs, u ≠ [] := by
              obtain ⟨u, us, hu⟩ := List.exists_cons_of_ne_nil hf
              have : u ∈ (x :: xs).filter (· ≠ []) := by rw [hu]; simp
              exact ⟨u, (List.mem_filter.1 this).1, by simpa using (List.mem_filter.1 this).2⟩
            simp only [hyes, true_and, List.append_assoc]
      · simp

/-- A delimited attribute whose values render to `ws` writes the non-empty ones separated by the delimiter, followed by
one more delimiter exactly when some value is non-empty and the last one is empty. -/
theorem C13_delimiter {P : Fns} (F : BuiltFns P) (c : Ctx) (he : c.frame.err = none) (name d : Bytes)
    (values : List Any) (h : Heap)
    (hcur : c.dl h.next = (NewDelimitedAttribute name d values h).2.dl h.next) :
    RendersExactly P c (NewDelimitedAttribute name d values h).1
      (let ws := (newValues h.dl values).map (valueBytes P c)
       b%" " ++ name ++ b%"=\"" ++ (List.intercalate d (ws.filter (· ≠ [])) ++
        (if (∃ w ∈ ws, w ≠ []) ∧ ws.getLast? = some [] then d else [])) ++ b%"\"") := by
  have hd : c.dl h.next = newValues h.dl values := by rw [hcur]; simp [NewDelimitedAttribute, upd]
  simp only
  rw [← delimJoin_eq, ← hd]
  exact rendersExactly_of_out (n := (NewDelimitedAttribute name d values h).1) F.wf trivial he .attr
    fun _ h => by cases h; rfl

example := C13_delimiter Sample.built { Sample.ctx with dl := fun _ => [.mk b%"a" none [], .mk b%"" none []] } rfl
  b%"class" b%" " [.str b%"a", .str b%""] .empty rfl

/-- Values that are one item each: no nodes and no nil. -/
def Single : Any → Prop
  | .nil | .node _ => False
  | _ => True

/-- For such values, `ws` in C13 is the list of what they stand for (C36). -/
theorem C13_parts (P : Fns) (c : Ctx) (dl : Nat → List Value) (values : List Any) (hv : ∀ v ∈ values, Single v) :
    Each (Content P c dl) values ((newValues dl values).map (valueBytes P c)) := by
  induction values with
  | nil => exact .nil
  | cons v vs ih =>
    have ih := ih fun v hv' => hv v (by simp [hv'])
    have h1 := content_newValue P c dl v
    have hs : ∃ x, newValue dl v = [x] := by
      have := hv v (by simp)
      cases v with
      | nil => exact this.elim
      | node => exact this.elim
      | dynKey => unfold newValue; simp only; split <;> exact ⟨_, rfl⟩
      | _ => exact ⟨_, rfl⟩
    obtain ⟨x, hx⟩ := hs
    rw [newValues_cons, hx, List.map_append]
    rw [hx, valuesBytes_one] at h1
    exact .cons h1 ih

example : delimJoin b%" " [b%"", b%"a", b%"", b%"b", b%""] = b%"a b " := by decide

/-! ### C17 — conditional attributes follow all their enclosing conditions (false in general) -/

/-- The claim for one element: in every tag it can write, a name is present iff it is declared with all conditions
around the declaration holding. -/
def FollowsConditions (P : Fns) (c : Ctx) (name : Bytes) (contents : List Any) (h : Heap) : Prop :=
  ∀ w, Renders P c (NewVoidElement name contents h).1 w →
    ∃ l : List Shown, w = tagBytes name l ∧ (l.map (·.1)).Nodup ∧
      ∀ n, n ∈ l.map (·.1) ↔
        ∃ d ∈ declaredAll [] (contents.map (asNode h.dl)), d.1.name = n ∧ ∀ cond ∈ d.2, holds P c cond = true

/-- The full claim. -/
def C17_claim : Prop := ∀ (P : Fns) (c : Ctx) (name : Bytes) (contents : List Any) (h : Heap), BuiltFns P →
  c.frame.err = none → (∀ n ∈ nodesIn contents, Built n) → FollowsConditions P c name contents h

/-- What holds: the claim for contents in which no two conditionals share a slot of a condition slice (`SeparateAll`).
Missing: contents with several conditionals next to each other below three, five, six, seven, nine, ... conditionals. -/
theorem C17_partial {P : Fns} (F : BuiltFns P) (c : Ctx) (he : c.frame.err = none) (name : Bytes)
    (contents : List Any) (h : Heap) (hb : ∀ n ∈ nodesIn contents, Built n)
    (hs : SeparateAll 0 (contents.map (asNode h.dl))) : FollowsConditions P c name contents h := by
  intro w hr
  obtain ⟨e, dl, h1, h2, hm, hc, -⟩ := void_head (name := name) (contents := contents) (h := h)
  rw [(Built.newVoidElement name contents h hb).renders_iff F he, h1] at hr
  cases hr with
  | voidElement ht =>
    have hn := tagShows_names hm.wf ht
    refine ⟨_, by rw [← h2], hn.1, fun n => ?_⟩
    rw [hn.2, hc, attributesAndContents_conds hs, active_condAttrs, hm.names, mem_distinct]
    constructor
    · rintro (h | h)
      · obtain ⟨a, ha, rfl⟩ := List.mem_map.1 h
        obtain ⟨d, hd, rfl⟩ := List.mem_map.1 ha
        obtain ⟨hd1, hd2⟩ := List.mem_filter.1 hd
        refine ⟨d, hd1, rfl, ?_⟩
        simp at hd2
        rw [hd2]; simp
      · obtain ⟨a, ha, rfl⟩ := List.mem_map.1 h
        obtain ⟨d, hd, rfl⟩ := List.mem_map.1 ha
        obtain ⟨hd1, hd2⟩ := List.mem_filter.1 hd
        refine ⟨d, hd1, rfl, ?_⟩
        simp at hd2
        exact hd2.2
    · rintro ⟨d, hd, rfl, hall⟩
      by_cases he : d.2 = []
      · exact Or.inl (List.mem_map_of_mem (List.mem_map_of_mem (List.mem_filter.2 ⟨hd, by simp [he]⟩)))
      · refine Or.inr (List.mem_map_of_mem (List.mem_map_of_mem (List.mem_filter.2 ⟨hd, ?_⟩)))
        simp [he]
        exact hall

example : FollowsConditions Sample.fns sampleCtx b%"p" sampleContents sampleHeap :=
  C17_partial Sample.built sampleCtx rfl b%"p" sampleContents sampleHeap sample_built sample_met.1

/-- In particular the claim holds when conditionals are nested at most three deep. -/
theorem C17_three_levels_partial {P : Fns} (F : BuiltFns P) (c : Ctx) (he : c.frame.err = none) (name : Bytes)
    (contents : List Any) (h : Heap) (hb : ∀ n ∈ nodesIn contents, Built n)
    (hd : condDepthAll (contents.map (asNode h.dl)) ≤ 3) : FollowsConditions P c name contents h :=
  C17_partial F c he name contents h hb (separateAll_of_depth _ 0 (by omega))

example : condDepthAll (sampleContents.map (asNode sampleHeap.dl)) ≤ 3 ∧
    FollowsConditions Sample.fns sampleCtx b%"p" sampleContents sampleHeap :=
  ⟨by decide, C17_three_levels_partial Sample.built sampleCtx rfl _ _ _ sample_built (by decide)⟩

/-- `Conditional` of a user function on nodes. -/
def mkCond (f : FnId) (ns : List Node) : Node := .conditional (nonAttrs ns)
  (attrsIn ns) (.user f)

theorem built_mkCond {f : FnId} {ns : List Node} (h : ∀ n ∈ ns, Built n) : Built (mkCond f ns) := by
  refine .conditional (some f) (ns.map some) _ ?_ ?_
  · intro n hn; exact h n (by simpa using hn)
  · simp only [Conditional, mkConditional, condSplit_some]; rfl

/-- Two conditionals below three: the first one true, the second one false. -/
def badContents : List Any :=
  [.node (mkCond 0 [mkCond 0 [mkCond 0 [mkCond 0 [NewBooleanAttribute b%"x"], mkCond 1 [NewBooleanAttribute b%"y"]]]])]

/-- The claim is false with four levels: the condition of the second inner conditional overwrites the first one's. -/
theorem C17_false : ¬ C17_claim := by
  intro hc
  have hb : ∀ n ∈ nodesIn badContents, Built n := by
    intro n hn
    simp [nodesIn, badContents] at hn
    subst hn
    refine built_mkCond fun n hn => ?_
    simp at hn; subst hn
    refine built_mkCond fun n hn => ?_
    simp at hn; subst hn
    refine built_mkCond fun n hn => ?_
    simp at hn
    rcases hn with rfl | rfl
    · refine built_mkCond fun n hn => ?_
      simp at hn; subst hn; exact .newBooleanAttribute _
    · refine built_mkCond fun n hn => ?_
      simp at hn; subst hn; exact .newBooleanAttribute _
  have hr : Renders Sample.fns Sample.ctx (NewVoidElement b%"p" badContents .empty).1 b%"<p>" :=
    ⟨Sample.env, Sample.healthy, Sample.computes, Sample.st, _, rfl, ⟨1, rfl⟩, rfl⟩
  obtain ⟨l, h1, -, h2⟩ := hc Sample.fns Sample.ctx b%"p" badContents .empty Sample.built rfl hb _ hr
  have hx := (h2 b%"x").2 ⟨(.bool b%"x", [.user 0, .user 0, .user 0, .user 0]), by
    change _ ∈ [_, _]; simp, rfl, by intro cond hcond; simp at hcond; subst hcond; rfl⟩
  obtain ⟨p, hp, -⟩ := List.mem_map.1 hx
  obtain ⟨q, l', rfl⟩ := List.exists_cons_of_ne_nil (List.ne_nil_of_mem hp)
  have := congrArg List.length h1
  obtain ⟨m, v⟩ := q
  cases v <;> simp [tagBytes, Shown.bytes] at this

/-- Four levels without siblings are fine. -/
example : SeparateAll 0 [mkCond 0 [mkCond 0 [mkCond 0 [mkCond 0 [NewBooleanAttribute b%"x"]]]], mkCond 1 []] := by
  have h3 : Tight (0 + 1) ∧ Tight (0 + 1 + 1) := ⟨Or.inr ⟨0, rfl⟩, Or.inr ⟨1, rfl⟩⟩
  simp [SeparateAll, Separate, mkCond, nonAttrs, condCountAll, condCount, Node.isAttr, Node.type, NewBooleanAttribute]

end Aitch.Props
