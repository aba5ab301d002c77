import Verif.Proofs.StreamClean
import Verif.Props.Stream
import Verif.Props.Markup
/-
C110: data cannot bring tags or attributes into a page, when user functions write and render nodes.
-/
namespace Aitch.Props
open Spec Spec.Stream Aitch.Stream Markup

/-! ### C110 — data cannot bring tags or attributes into a page, when user functions write and render -/

section
variable {env : Env} {B : Bodies} {E : Tellers} {Q : Rules} (N : GoodNames Q.elements Q.attributes) (H : Healthy env)
  (A : Behaves env B E) (K : Spec.Stream.Calm E) (F : Spec.Stream.Follows Q E) {n : Node} (b : Built n)
  (ha : n.isAttr = false) (hn : Neat Q .content n) {s s' : St} {e : Option Err} (hs : SafeMemory Q s.toCtx)
  (he : s.frame.err = none) (hr : Spec.Stream.Ends env B n s e s')
include N H A K F b ha hn hs he hr

/-- **C110**.  A template with the allowed names, rendered with data that is escaped or harmless and functions that write and
render, where they stand, what may stand there: all that is added to the output are trees, every element properly ended and
with no attribute twice, with allowed names only; and the memory is as harmless as before. -/
theorem C110_well_formed : e = none ∧ SafeMemory Q s'.toCtx ∧
    ∃ ts, s'.out = s.out ++ writeAll ts ∧ ProperAll ts ∧ WithinAll Q.elements Q.attributes ts := by
  obtain ⟨h1, h2⟩ := C100_order H A K b he hr
  obtain ⟨h3, w, h4, ts, rfl, h5, h6⟩ := neat_node N F h2 hs ha hn
  exact ⟨h1, h3, ts, h4, h5, h6⟩

/-- **C110**.  An HTML reader sees exactly these trees. -/
theorem C110_reads (R : CharRefs) (h0 : s.log = []) : ∃ ts, s'.out = writeAll ts ∧ ProperAll ts ∧
    WithinAll Q.elements Q.attributes ts ∧ readHtml R s'.out = items (toksAll false ts) := by
  obtain ⟨-, -, ts, h1, h2, h3⟩ := C110_well_formed N H A K F b ha hn hs he hr
  have h1 : s'.out = writeAll ts := by rw [h1, St.out, h0]; rfl
  exact ⟨ts, h1, h2, h3, by rw [h1]; exact read_write R ts h2⟩

/-- **C110**.  Every start tag that an HTML reader sees has an allowed name and allowed attributes; every end tag has an
allowed name (up to case). -/
theorem C110_no_injection (R : CharRefs) (h0 : s.log = []) :
    (∀ name attrs sc, .start name attrs sc ∈ readHtml R s'.out →
      name ∈ Q.elements.map lower ∧ ∀ a ∈ attrs, a.1 ∈ Q.attributes.map lower) ∧
    ∀ name, .close name ∈ readHtml R s'.out → name ∈ Q.elements.map lower := by
  obtain ⟨ts, _, _, h2, h3⟩ := C110_reads N H A K F b ha hn hs he hr R h0
  rw [h3]
  exact ⟨fun name attrs sc h => toksAll_within false ts h2 _ (items_start h),
    fun name h => toksAll_within false ts h2 _ (items_close h)⟩

end

/-! ### A case that meets the hypotheses -/

/-- Function 0 begins a `b`, renders a text from the data, ends the `b` and returns escaped text; function 1 writes and returns
escaped text.  Condition 0 writes a whole `b`, condition 1 writes nothing.  The function of `ContentCollect` renders and
returns a text that calls function 0, that of `IterateYield` begins a `p`, yields, and ends the `p`, that of `Imperative`
starts a `p`, writes a string, renders, and ends it. -/
def markingFns : Tellers where
  dyn f _ := match f with
    | 0 => .write (writeTag b%"b" [(b%"id", some b%"\">")]) fun _ => .render (.text [.mk [] (some (.key b%"name")) []]) fun _ =>
        .write (endBytes b%"b") fun _ => .ret (escaped b%"<x>")
    | _ => .write (escaped b%"<y") fun _ => .ret (escaped b%"\"")
  cond f _ := match f with
    | 0 => .write (writeTag b%"b" []) fun _ => .write (endBytes b%"b") fun _ => .ret true
    | _ => .ret true
  collect _ _ := .render (.text [.mk [] (some .cargo) []]) fun _ => .ret [some (.text [.mk [] (some (.user 0)) []]), none]
  items _ _ := .write (escaped b%"<") fun _ => .ret [.str b%"<i>"]
  yields _ _ := .write (writeTag b%"p" []) fun _ => .yield (.str b%"</p>") fun _ => .write (endBytes b%"p") fun _ => .done
  imp _ _ := .call (.start b%"p" false [some (.attr (.bool b%"hidden"))]) fun _ => .call (.writeString b%"</p>") fun _ =>
    .render (.text [.mk [] (some (.user 0)) []]) fun _ => .call .end fun _ => .done

/-- The names, and which function may stand where. -/
def marking : Rules where
  elements := [b%"div", b%"b", b%"p", b%"title"]
  attributes := [b%"id", b%"hidden"]
  dyn p f := (p = .content ∧ f = 0) ∨ (p = .text ∧ f = 1)
  cond p f := p = .content ∨ f = 1
  collect p _ := p = .content
  items p _ := p = .content
  yields p _ := p = .content
  imp _ := True

theorem marking_names : GoodNames marking.elements marking.attributes := by
  refine ⟨fun a ha => ⟨(htmlTagMatch_iff a).1 ?_, ?_⟩, fun a ha => (htmlTagMatch_iff a).1 ?_, ?_⟩
  · revert a; decide
  · revert a; decide
  · revert a; decide
  · decide

theorem marking_follows : Spec.Stream.Follows marking markingFns where
  dyn p f hf t _ := by
    rcases hf with ⟨rfl, rfl⟩ | ⟨rfl, rfl⟩
    · refine .start rfl (by decide) (by decide) ⟨?_, by decide⟩ (by decide) fun _ _ => .render (.text ⟨by simp [NeatValue],
        trivial⟩) rfl fun _ _ => .close fun _ _ => .ret ⟨[.text b%"<x>"], by simp [writeAll, write], ⟨trivial, trivial⟩,
        ⟨trivial, trivial⟩⟩
      exact fun a ha => (htmlTagMatch_iff _).1 (by revert a; decide)
    · exact .write ⟨b%"<y", rfl⟩ fun _ _ => .ret ⟨b%"\"", rfl⟩
  cond p f hf t _ := by
    match f with
    | 0 =>
      obtain rfl : p = .content := by simpa [marking] using hf
      exact .start rfl (by decide) (by decide) ⟨fun _ h => (List.not_mem_nil h).elim, .nil⟩ (by decide) fun _ _ =>
        .close fun _ _ => .ret trivial
    | f + 1 => exact .ret trivial
  collect p f hf t _ := by
    obtain rfl : p = .content := hf
    refine .render (.text ⟨by simp [NeatValue], trivial⟩) rfl fun _ _ => .ret fun n hn => ?_
    have : n = .text [.mk [] (some (.user 0)) []] := by simpa using hn
    subst this
    exact .text ⟨.inl ⟨rfl, rfl⟩, trivial⟩
  items p f hf t _ := by
    obtain rfl : p = .content := hf
    refine .write ⟨[.text b%"<"], by simp [writeAll, write], ⟨trivial, trivial⟩, ⟨trivial, trivial⟩⟩ fun _ _ => .ret ?_
    intro v hv; simp at hv; subst hv; trivial
  yields p f hf t _ := by
    obtain rfl : p = .content := hf
    exact .start (attrs := []) rfl (by decide) (by decide) ⟨fun _ h => (List.not_mem_nil h).elim, .nil⟩ (by decide) fun _ _ =>
      .yield trivial fun _ _ => .close fun _ _ => .done
  imp f _ t _ := by
    refine .start (by decide) (by decide) (fun a ha => ?_) fun _ _ => .writeString fun _ _ =>
      .render (.text ⟨.inl ⟨rfl, rfl⟩, trivial⟩) rfl fun _ _ => .end fun _ _ => .done
    have : a = .bool b%"hidden" := by simpa using ha
    subst this
    exact ⟨by decide, trivial⟩

theorem marking_calm : Spec.Stream.Calm markingFns where
  dyn f t := by
    match f with
    | 0 => exact fun _ => ⟨trivial, fun _ _ => trivial⟩
    | f + 1 => exact fun _ => trivial
  cond f t := by
    match f with
    | 0 => exact fun _ _ => trivial
    | f + 1 => exact trivial
  collect _ _ := ⟨trivial, fun _ n hn => by
    have : n = .text [.mk [] (some (.user 0)) []] := by simpa using hn
    subst this
    trivial⟩
  items _ _ := fun _ => trivial
  yields _ _ := fun _ _ _ => trivial
  imp _ _ := ⟨fun _ _ h => by simp at h, fun _ => ⟨fun _ _ h => by simp at h, fun _ => ⟨trivial, fun _ =>
    ⟨fun _ _ h => by simp at h, fun _ => trivial⟩⟩⟩⟩

/-- A healthy writer, and the `Imperative` functions above. -/
def markingEnv : Env := { writingEnv with imp := fun f s => (markingFns.imp f (tape s)).body }

theorem marking_behaves : Behaves markingEnv (bodiesOf markingFns) markingFns :=
  ⟨fun _ _ => rfl, fun _ _ => rfl, fun _ _ => rfl, fun _ _ => rfl, fun _ _ => rfl, fun _ _ => rfl⟩

/-- The contents of the page below. -/
def markingArgs : List Any :=
  [.node (NewAttribute (fun _ => []) b%"id" [.dynFunc true (some 1)]),
    .node (.conditional [] [.bool b%"hidden"] (.user 1)), .str b%"</div>", .node (told 0), .dynKey b%"name",
    .node (.conditional [told 0] [] (.user 0)), .node (NewElement b%"title" [.node (told 1)] .empty).1,
    .node (.iterator [Text (fun _ => []) [.dynKey b%"name"]] (.user 0)), .node (.yieldIterator [told 0] 0),
    .node (ContentCollect (some 0)), .node (Imperative (some 0))]

/-- A page that calls all functions. -/
def markingPage : Node := (NewElement b%"div" markingArgs .empty).1

theorem markingPage_built : Built markingPage := by
  refine Built.newElement _ _ _ ?_
  intro n hn
  simp only [markingArgs, nodesIn, List.filterMap_cons, List.filterMap_nil, List.mem_cons, List.not_mem_nil, or_false] at hn
  rcases hn with rfl | rfl | rfl | rfl | rfl | rfl | rfl | rfl | rfl
  · exact .newAttribute _ _ _
  · refine .conditional (some 1) [some (.attr (.bool b%"hidden"))] _ ?_ rfl
    intro n hn
    have : n = .attr (.bool b%"hidden") := by simpa using hn
    subst this
    exact .newBooleanAttribute _
  · exact .text _ _
  · refine .conditional (some 0) [some (told 0)] _ ?_ rfl
    intro n hn
    have : n = told 0 := by simpa using hn
    subst this
    exact .text _ _
  · refine .newElement _ _ _ ?_
    intro n hn
    have : n = told 1 := by simpa [nodesIn] using hn
    subst this
    exact .text _ _
  · refine .iterate (some 0) [some (Text (fun _ => []) [.dynKey b%"name"])] _ ?_ rfl
    intro n hn
    have : n = Text (fun _ => []) [.dynKey b%"name"] := by simpa using hn
    subst this
    exact .text _ _
  · refine .iterateYield (some 0) [some (told 0)] _ ?_ rfl
    intro n hn
    have : n = told 0 := by simpa using hn
    subst this
    exact .text _ _
  · exact .contentCollect _
  · exact .imperative _

theorem told_neat0 : Neat marking .content (told 0) := .text ⟨.inl ⟨rfl, rfl⟩, trivial⟩

theorem told_neat1 : Neat marking .text (told 1) := .text ⟨.inr ⟨rfl, rfl⟩, trivial⟩

/-- The page, spelled out. -/
theorem markingPage_eq : markingPage = .element ⟨b%"div", [.plain b%"id" [.mk [] (some (.user 1)) []]], [(b%"id", 0)],
    [⟨.bool b%"hidden", [.user 1]⟩]⟩
    [.conditional [] [.bool b%"hidden"] (.user 1), .text [.mk (escaped b%"</div>") none []], told 0,
      .text [.mk [] (some (.key b%"name")) []], .conditional [told 0] [] (.user 0),
      .element ⟨b%"title", [], [], []⟩ [told 1], .iterator [.text [.mk [] (some (.key b%"name")) []]] (.user 0),
      .yieldIterator [told 0] 0, .collector 0, .imperative (some 0)] := rfl

theorem markingPage_neat : Neat marking .content markingPage := by
  rw [markingPage_eq]
  refine .element ⟨by decide, by decide, ?_, ?_⟩ (by decide) (by decide) ?_
  · intro a ha
    simp at ha; subst ha
    exact ⟨by decide, .inr ⟨rfl, rfl⟩, trivial⟩
  · intro a ha
    simp at ha; subst ha
    refine ⟨⟨by decide, trivial⟩, fun k hk => ?_⟩
    simp at hk; subst hk
    exact .inr rfl
  · intro n hn
    simp only [List.mem_cons, List.not_mem_nil, or_false] at hn
    have hc : Spot.content ≠ .tag := by simp
    rcases hn with rfl | rfl | rfl | rfl | rfl | rfl | rfl | rfl | rfl | rfl
    · exact .conditional (.inr rfl) (by simp) (by simp)
    · exact .text ⟨⟨[.text b%"</div>"], by simp [writeAll, write], ⟨trivial, trivial⟩, ⟨trivial, trivial⟩⟩, trivial⟩
    · exact told_neat0
    · exact .text ⟨hc, trivial⟩
    · exact .conditional (.inl rfl) (by simp [told, Text, Node.isAttr, Node.type]) (by simp [told_neat0])
    · exact .textElement ⟨by decide, by decide, by simp, by simp⟩ (by decide) (by simp [told, Text, Node.isAttr, Node.type])
        (by simp [told_neat1])
    · exact .iterator rfl (by simp [Node.isAttr, Node.type]) (by simpa using .text ⟨hc, trivial⟩)
    · exact .yieldIterator rfl (by simp [told, Text, Node.isAttr, Node.type]) (by simp [told_neat0])
    · exact .collector rfl
    · exact .imperative trivial

theorem marking_memory : SafeMemory marking Sample.st.toCtx :=
  ⟨safe_sample.2.cargo, safe_sample.2.maps, fun _ => trivial⟩

/-- What it writes. -/
def markingOut : Bytes := b%"<div id=\"&lt;y&quot;\" hidden>&lt;/div&gt;<b id=\"&quot;&gt;\">&lt;Bob&gt;</b>&lt;x&gt;&lt;Bob&gt;<b></b><b id=\"&quot;&gt;\">&lt;Bob&gt;</b>&lt;x&gt;<title>&lt;y&quot;</title>&lt;&lt;Bob&gt;<p><b id=\"&quot;&gt;\"></b>&lt;x&gt;</p>car&amp;go<b id=\"&quot;&gt;\">&lt;Bob&gt;</b>&lt;x&gt;<p hidden>&lt;/p&gt;<b id=\"&quot;&gt;\">&lt;Bob&gt;</b>&lt;x&gt;</p></div>"

theorem marking_ends : ∃ s', Spec.Stream.Ends markingEnv (bodiesOf markingFns) markingPage Sample.st none s' ∧ s'.out =
    markingOut := by
  have h : ((exec markingEnv (renderWith (bodiesOf markingFns) 8 markingPage) Sample.st).map fun p =>
      (p.1.isNone, p.2.out)) = some (true, markingOut) := by
    decide +kernel
  cases hx : exec markingEnv (renderWith (bodiesOf markingFns) 8 markingPage) Sample.st with
  | none => rw [hx] at h; cases h
  | some p =>
    rw [hx] at h
    obtain ⟨e, s'⟩ := p
    simp only [Option.map_some, Option.some.injEq, Prod.mk.injEq, Option.isNone_iff_eq_none] at h
    obtain ⟨rfl, h⟩ := h
    exact ⟨s', ⟨8, hx⟩, h⟩

/-- An HTML reader sees only allowed names in it. -/
example : ∃ s', Spec.Stream.Ends markingEnv (bodiesOf markingFns) markingPage Sample.st none s' ∧
    (∀ name attrs sc, .start name attrs sc ∈ readHtml fiveRefs s'.out →
      name ∈ marking.elements.map lower ∧ ∀ a ∈ attrs, a.1 ∈ marking.attributes.map lower) ∧
    ∀ name, .close name ∈ readHtml fiveRefs s'.out → name ∈ marking.elements.map lower := by
  obtain ⟨s', h, -⟩ := marking_ends
  exact ⟨s', h, C110_no_injection marking_names (fun _ _ => rfl) marking_behaves marking_calm marking_follows
    markingPage_built rfl markingPage_neat marking_memory rfl h fiveRefs rfl⟩

/-- With condition 0 also for attributes. -/
def loose : Rules := { marking with cond := fun _ _ => True }

/-- `NewElement("p", Conditional(fn, NewBooleanAttribute("hidden")))` with condition 0. -/
def loosePage : Node := (NewElement b%"p" [.node (.conditional [] [.bool b%"hidden"] (.user 0))] .empty).1

theorem loosePage_built : Built loosePage := by
  refine Built.newElement _ _ _ fun n hn => ?_
  have : n = .conditional [] [.bool b%"hidden"] (.user 0) := by simpa [nodesIn] using hn
  subst this
  refine .conditional (some 0) [some (.attr (.bool b%"hidden"))] _ (fun n hn => ?_) rfl
  have : n = .attr (.bool b%"hidden") := by simpa using hn
  subst this
  exact .newBooleanAttribute _

/-- It matters where a function stands: a condition that writes a whole element, which it may do among elements, spoils the
tag if an attribute depends on it.  All other hypotheses hold, and a reader sees an element that is called `p<b`. -/
theorem C110_needed : Built loosePage ∧ Neat loose .content loosePage ∧ SafeMemory loose Sample.st.toCtx ∧
    GoodNames loose.elements loose.attributes ∧ (∀ t, NeatTelling loose .content (fun _ => True) [] (markingFns.cond 0 t)) ∧
    ∃ s', Spec.Stream.Ends markingEnv (bodiesOf markingFns) loosePage Sample.st none s' ∧
      .start b%"p<b" [] false ∈ readHtml fiveRefs s'.out ∧ b%"p<b" ∉ loose.elements.map lower := by
  refine ⟨loosePage_built, ?_, ⟨safe_sample.2.cargo, safe_sample.2.maps, fun _ => trivial⟩, marking_names, fun t => ?_, _,
    ⟨3, rfl⟩, by decide +kernel, by decide⟩
  · have : loosePage = .element ⟨b%"p", [], [], [⟨.bool b%"hidden", [.user 0]⟩]⟩
      [.conditional [] [.bool b%"hidden"] (.user 0)] := rfl
    rw [this]
    refine .element ⟨by decide, by decide, by simp, fun a ha => ?_⟩ (by decide) (by decide) fun n hn => ?_
    · simp at ha; subst ha
      exact ⟨⟨by decide, trivial⟩, fun k hk => by simp at hk; subst hk; trivial⟩
    · simp at hn; subst hn
      exact .conditional trivial (by simp) (by simp)
  · exact .start rfl (by decide) (by decide) ⟨fun _ h => (List.not_mem_nil h).elim, .nil⟩ (by decide) fun _ _ =>
      .close fun _ _ => .ret trivial

end Aitch.Props
