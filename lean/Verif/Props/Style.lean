import Verif.Props.Css
import Verif.Proofs.Style
import Verif.Proofs.Markup
import Verif.Proofs.HtmxText
/-
C66: the declarations that a browser reads.
-/
namespace Aitch.Props
open Spec Markup

/-! ### C66 — a browser reads exactly the style declarations made (false in general) -/

/-- Arguments that are written as the text `v`, escaped: strings, numbers, keys of data, and so on (see C04). -/
def Stands (P : Fns) (c : Ctx) (args : List Any) (v : Bytes) : Prop := ∀ dl, argsBytes P c dl args = escaped v

/-- The properties, given by their rows in the table of properties, their arguments, and the texts these stand for. -/
abbrev Declared := List ((Bytes × Bytes) × List Any × Bytes)

/-- Making the element. -/
def declare (name : Bytes) (ds : Declared) (h : Heap) : Node × Heap :=
  NewVoidElement name ((stylings (propertyStylings (ds.map fun d => (d.1, d.2.1))) h).1.map .node)
    (stylings (propertyStylings (ds.map fun d => (d.1, d.2.1))) h).2

/-- A browser that reads what is rendered finds one tag with one attribute `style`, and in it the declarations. -/
def ReadsAs (w name : Bytes) (ds : List (Bytes × Bytes)) : Prop :=
  ∀ R, ∃ t, readHtml R w = [.start (Markup.lower name) [(b%"style", t)] false] ∧ Css.declarations t = ds

/-- The claim: property functions with any texts as values are read back as these properties with these values. -/
def C66_claim : Prop :=
  ∀ (P : Fns), BuiltFns P → ∀ (c : Ctx), c.frame.err = none → ∀ (name : Bytes), ValidName name →
    Markup.lower name ≠ b%"plaintext" → Markup.lower name ∉ textNames →
    ∀ (ds : Declared), ds ≠ [] → (∀ d ∈ ds, d.1 ∈ cssProperties ∧ Stands P c d.2.1 d.2.2) → ∀ (h : Heap),
    c.dl = (declare name ds h).2.dl → ∀ w, Renders P c (declare name ds h).1 w →
    ReadsAs w name (ds.map fun d => (kebab d.1.1, Css.trim (seen d.2.2)))

theorem stands_str (P : Fns) (c : Ctx) (s : Bytes) : Stands P c [.str s] s := by
  intro dl
  simp [argsBytes, newValues, newValue, valueToBytes, escaped_eq, valuesBytes, valueBytes]

theorem cssPrefix (f : Bytes × Bytes) (hf : f ∈ cssProperties) :
    f.2 = kebab f.1 ++ b%":" ∧ Css.Prefix (kebab f.1) ∧ escaped f.2 = f.2 ∧ seen f.2 = f.2 := by
  have h : ∀ f ∈ cssProperties, f.2 = kebab f.1 ++ b%":" ∧
      (Css.read Css.start (kebab f.1 ++ b%":") = some (Css.start, kebab f.1 ++ b%":") ∧
        (∀ c ∈ kebab f.1, Css.isNameChar c = true) ∧ Css.isName (kebab f.1) = true) ∧
      escaped f.2 = f.2 ∧ seen f.2 = f.2 := by decide +kernel
  obtain ⟨h1, h2, h3⟩ := h f hf
  exact ⟨h1, ⟨h2.1, h2.2.1, h2.2.2⟩, h3⟩

/-- What is written, and how the attribute is read. -/
theorem declare_reads {P : Fns} (F : BuiltFns P) (c : Ctx) (he : c.frame.err = none) (name : Bytes)
    (hn : ValidName name) (hpl : Markup.lower name ≠ b%"plaintext") (ht : Markup.lower name ∉ textNames) (ds : Declared)
    (hds : ds ≠ []) (hd : ∀ d ∈ ds, d.1 ∈ cssProperties ∧ Stands P c d.2.1 d.2.2) (h : Heap)
    (hcur : c.dl = (declare name ds h).2.dl) (w : Bytes) (hw : Renders P c (declare name ds h).1 w) (R : CharRefs) :
    readHtml R w = [.start (Markup.lower name) [(b%"style",
      List.intercalate b%"; " (ds.map fun d => kebab d.1.1 ++ b%":" ++ seen d.2.2))] false] := by
  have hf : ∀ p ∈ ds.map (fun d => (d.1, d.2.1)), p.1 ∈ cssProperties := by
    intro p hp
    obtain ⟨d, hd', rfl⟩ := List.mem_map.1 hp
    exact (hd d hd').1
  have hne : ds.map (fun d => (d.1, d.2.1)) ≠ [] := by simpa using hds
  have hr := (C40_properties F c he name _ hne hf h hcur w).1 hw
  have hparts : ∀ (ds : Declared) (h : Heap), (∀ d ∈ ds, d.1 ∈ cssProperties ∧ Stands P c d.2.1 d.2.2) →
      stylingParts P c (propertyStylings (ds.map fun d => (d.1, d.2.1))) h =
        ds.map fun d => escaped (kebab d.1.1 ++ b%":" ++ d.2.2) := by
    intro ds
    induction ds with
    | nil => intro h _; rfl
    | cons d ds ih =>
      intro h hd
      have h1 := cssPrefix d.1 (hd d (by simp)).1
      have h2 := (hd d (by simp)).2 h.dl
      have := ih (styleAttribute d.1.2 d.2.1 h).2 fun d' hd' => hd d' (by simp [hd'])
      simp only [propertyStylings, List.map_cons, stylingParts, Styling.parts, Styling.make, List.singleton_append] at *
      rw [this, h2, escaped_append (kebab d.1.1 ++ b%":"), ← h1.1, h1.2.2.1]
  rw [hparts ds h hd] at hr
  have hjoin : ∀ (l : List Bytes), List.intercalate b%"; " (l.map escaped) = escaped (List.intercalate b%"; " l) := by
    intro l
    induction l with
    | nil => rfl
    | cons a l ih =>
      cases l with
      | nil => simp [List.intercalate]
      | cons b l =>
        simp only [List.intercalate, List.map_cons, List.intersperse, List.flatten_cons] at *
        rw [ih, escaped_append, escaped_append]
        rfl
  have hseen : ∀ (l : List Bytes), seen (List.intercalate b%"; " l) = List.intercalate b%"; " (l.map seen) := by
    intro l
    induction l with
    | nil => rfl
    | cons a l ih =>
      cases l with
      | nil => simp [List.intercalate]
      | cons b l =>
        simp only [List.intercalate, List.map_cons, List.intersperse, List.flatten_cons] at *
        rw [← ih]
        simp [seen]
  have hw' : w = writeAll [.void name [(b%"style",
      some (List.intercalate b%"; " (ds.map fun d => kebab d.1.1 ++ b%":" ++ d.2.2)))]] := by
    rw [hr, show (ds.map fun d => escaped (kebab d.1.1 ++ b%":" ++ d.2.2)) =
      (ds.map fun d => kebab d.1.1 ++ b%":" ++ d.2.2).map escaped by simp, hjoin]
    simp [writeAll, write, writeTag, writeAttr]
  rw [hw', read_write R _ (by
    refine ⟨⟨hn, hpl, ?_, ht⟩, trivial⟩
    exact ⟨by simpa using (htmlTagMatch_iff _).1 (by decide), by simp⟩)]
  have hm : (ds.map fun d => kebab d.1.1 ++ b%":" ++ d.2.2).map seen =
      ds.map fun d => kebab d.1.1 ++ b%":" ++ seen d.2.2 := by
    rw [List.map_map]
    refine List.map_congr_left fun d hd' => ?_
    have h1 := cssPrefix d.1 (hd d hd').1
    simp only [Function.comp_apply]
    rw [← h1.1, ← h1.2.2.2]
    simp [seen]
  simp only [toksAll, toks, startTok, items, List.append_nil, List.map_cons, List.map_nil, Option.getD_some, hseen, hm]
  rfl

/-- **C66** for texts that stay within a declaration. -/
theorem C66_declarations_partial {P : Fns} (F : BuiltFns P) (c : Ctx) (he : c.frame.err = none) (name : Bytes)
    (hn : ValidName name) (hpl : Markup.lower name ≠ b%"plaintext") (ht : Markup.lower name ∉ textNames) (ds : Declared)
    (hds : ds ≠ []) (hd : ∀ d ∈ ds, d.1 ∈ cssProperties ∧ Stands P c d.2.1 d.2.2) (hc : ∀ d ∈ ds, Css.Contained (seen d.2.2) ∧
      Css.trim (seen d.2.2) = seen d.2.2) (h : Heap)
    (hcur : c.dl = (declare name ds h).2.dl) (w : Bytes) (hw : Renders P c (declare name ds h).1 w) :
    ReadsAs w name (ds.map fun d => (kebab d.1.1, Css.trim (seen d.2.2))) := by
  intro R
  refine ⟨_, declare_reads F c he name hn hpl ht ds hds hd h hcur w hw R, ?_⟩
  have := Css.declarations_join (ds.map fun d => (kebab d.1.1, seen d.2.2)) (by
    intro p hp
    obtain ⟨d, hd', rfl⟩ := List.mem_map.1 hp
    exact ⟨(cssPrefix d.1 (hd d hd').1).2.1, hc d hd'⟩)
  rw [List.map_map] at this
  rw [show (ds.map fun d => (kebab d.1.1, Css.trim (seen d.2.2))) = ds.map fun d => (kebab d.1.1, seen d.2.2) from
    List.map_congr_left fun d hd' => by rw [(hc d hd').2]]
  exact this

example : Css.Contained b%"url(a;b) 'x;y' rgb(1, 2, 3) 1px/2" ∧ ¬ Css.Contained b%"red;color:blue" ∧ ¬ Css.Contained b%"url(" := by
  decide +kernel

/-- A property with a string and one with a value of the data. -/
def someDeclared : Declared :=
  [((b%"FontFamily", b%"font-family:"), [.str b%"'a;b', serif"], b%"'a;b', serif"),
   ((b%"Color", b%"color:"), [.dynKey b%"name"], b%"<Bob>")]

theorem someDeclared_met (c : Ctx) (hm : c.maps = Sample.ctx.maps) (hf : c.frame = Sample.ctx.frame) :
    ∀ d ∈ someDeclared, (d.1 ∈ cssProperties ∧ Stands Sample.fns c d.2.1 d.2.2) ∧ Css.Contained (seen d.2.2) ∧
      Css.trim (seen d.2.2) = seen d.2.2 := by
  obtain ⟨_, _, _, _, _, _⟩ := c
  dsimp only at hm hf
  subst hm hf
  simp only [someDeclared, List.mem_cons, List.not_mem_nil, or_false, forall_eq_or_imp, forall_eq]
  exact ⟨⟨⟨by decide +kernel, stands_str _ _ _⟩, by decide +kernel⟩, ⟨by decide +kernel, fun _ => rfl⟩, by decide +kernel⟩

/-- The context of the samples after the element is made. -/
def someDeclaredCtx : Ctx := { Sample.ctx with dl := (declare b%"p" someDeclared .empty).2.dl }

theorem someDeclared_renders : Renders Sample.fns someDeclaredCtx (declare b%"p" someDeclared .empty).1
    b%"<p style=\"font-family:&apos;a;b&apos;, serif; color:&lt;Bob&gt;\">" :=
  ⟨Sample.env, Sample.healthy, Sample.computes, { Sample.st with dl := someDeclaredCtx.dl }, _, rfl, ⟨1, rfl⟩, rfl⟩

example := C66_declarations_partial Sample.built someDeclaredCtx rfl b%"p" ((htmlTagMatch_iff _).1 (by decide)) (by decide)
  (by decide) someDeclared (by simp [someDeclared]) (fun d hd => (someDeclared_met someDeclaredCtx rfl rfl d hd).1)
  (fun d hd => (someDeclared_met someDeclaredCtx rfl rfl d hd).2) .empty rfl _ someDeclared_renders

/-- Without semicolons, quotes, brackets, slashes and backslashes, all is well. -/
theorem C66_simple_partial {P : Fns} (F : BuiltFns P) (c : Ctx) (he : c.frame.err = none) (name : Bytes)
    (hn : ValidName name) (hpl : Markup.lower name ≠ b%"plaintext") (ht : Markup.lower name ∉ textNames) (ds : Declared)
    (hds : ds ≠ []) (hd : ∀ d ∈ ds, d.1 ∈ cssProperties ∧ Stands P c d.2.1 d.2.2)
    (hc : ∀ d ∈ ds, (∀ x ∈ d.2.2, x ∉ b%";\"'\\/()[]{}") ∧ Css.trim (seen d.2.2) = seen d.2.2) (h : Heap)
    (hcur : c.dl = (declare name ds h).2.dl) (w : Bytes) (hw : Renders P c (declare name ds h).1 w) :
    ReadsAs w name (ds.map fun d => (kebab d.1.1, Css.trim (seen d.2.2))) :=
  C66_declarations_partial F c he name hn hpl ht ds hds hd (fun d hd' =>
    ⟨Css.contained_simple fun x hx => (hc d hd').1 x (List.mem_filter.1 hx).1, (hc d hd').2⟩) h hcur w hw

example : ReadsAs b%"<p style=\"color:red\">" b%"p" [(b%"color", b%"red")] := by
  let ds : Declared := [((b%"Color", b%"color:"), [.str b%"red"], b%"red")]
  refine C66_simple_partial Sample.built { Sample.ctx with dl := (declare b%"p" ds .empty).2.dl } rfl b%"p"
    ((htmlTagMatch_iff _).1 (by decide)) (by decide) (by decide) ds (by simp [ds])
    (by simpa [ds] using ⟨by decide +kernel, stands_str _ _ _⟩) (by decide +kernel) .empty rfl _
    ⟨Sample.env, Sample.healthy, Sample.computes, { Sample.st with dl := (declare b%"p" ds .empty).2.dl }, _, rfl,
      ⟨1, rfl⟩, rfl⟩

/-- A semicolon in a value brings another declaration. -/
theorem C66_false : ¬ C66_claim := by
  intro H
  let ds : Declared := [((b%"Color", b%"color:"), [.str b%"red;top:0"], b%"red;top:0")]
  let c : Ctx := { Sample.ctx with dl := (declare b%"p" ds .empty).2.dl }
  have F : BuiltFns Sample.fns := Sample.built
  have hd : ∀ d ∈ ds, d.1 ∈ cssProperties ∧ Stands Sample.fns c d.2.1 d.2.2 := by
    intro d hd
    simp only [ds, List.mem_singleton] at hd
    subst hd
    exact ⟨by decide +kernel, stands_str _ _ _⟩
  have hn : ValidName b%"p" := (htmlTagMatch_iff _).1 (by decide)
  have hr := (C40_properties F c rfl b%"p" (ds.map fun d => (d.1, d.2.1)) (by simp [ds])
    (by
      intro p hp
      obtain ⟨d, hd', rfl⟩ := List.mem_map.1 hp
      exact (hd d hd').1) .empty rfl _).2 rfl
  obtain ⟨t, h1, h2⟩ := H Sample.fns F c rfl b%"p" hn (by decide) (by decide) ds (by simp [ds]) hd .empty rfl _ hr
    ⟨fun _ bs => if b%"amp;" <+: bs then some (4, b%"&") else if b%"lt;" <+: bs then some (3, b%"<")
      else if b%"gt;" <+: bs then some (3, b%">") else if b%"quot;" <+: bs then some (5, b%"\"")
      else if b%"apos;" <+: bs then some (5, b%"'") else none,
      by simp, by simp, by simp, by simp, by simp⟩
  rw [declare_reads F c rfl b%"p" hn (by decide) (by decide) ds (by simp [ds]) hd .empty rfl _ hr] at h1
  simp only [List.cons.injEq, Item.start.injEq, Prod.mk.injEq] at h1
  rw [← h1.1.2.1.1.2] at h2
  exact absurd h2 (by decide +kernel)

end Aitch.Props
