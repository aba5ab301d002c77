import Verif.Proofs.StreamMade
import Verif.Props.StreamClean
/-
C110: the constructors make nodes that meet its hypotheses.
-/
namespace Aitch.Props
open Spec Spec.Stream Aitch.Stream Markup

/-! ### C110 — which calls of constructors meet the hypotheses -/

/-- **C110**.  A call of a constructor with allowed names, data that is escaped or harmless, functions that may stand there
and nodes that may stand there returns a node that may stand there; and the values of all delimited attributes in memory
write text as before. -/
theorem C110_constructors {Q : Rules} {h h' : Heap} {p : Spot} {n : Node} (m : Makes Q h p n h')
    (hd : ∀ r, NeatValues Q .text (h.dl r)) : Neat Q p n ∧ ∀ r, NeatValues Q .text (h'.dl r) :=
  neat_makes m hd

/-- The page of the example above is returned by such a call: its attribute depends on a condition that writes nothing, other
contents on one that writes an element. -/
theorem markingPage_makes : Makes marking .empty .content markingPage (NewElement b%"div" markingArgs .empty).2 := by
  have hc : Spot.content ≠ .tag := by simp
  have hnode : ∀ n ∈ nodesIn markingArgs, (∀ d ∈ declared [] n, NeatAttr marking d.1 ∧ ∀ k ∈ d.2, NeatCond marking .tag k) ∧
      Neat marking .content n := by
    have hid : NeatAttr marking (.plain b%"id" [.mk [] (some (.user 1)) []]) := ⟨by decide, .inr ⟨rfl, rfl⟩, trivial⟩
    have hhid : NeatAttr marking (.bool b%"hidden") := ⟨by decide, trivial⟩
    intro n hn
    simp only [markingArgs, nodesIn, List.filterMap_cons, List.filterMap_nil, List.mem_cons, List.not_mem_nil, or_false] at hn
    rcases hn with rfl | rfl | rfl | rfl | rfl | rfl | rfl | rfl | rfl
    · refine ⟨fun d hd => ?_, .attr hid⟩
      have : d = (.plain b%"id" [.mk [] (some (.user 1)) []], []) := by
        simpa [declared, NewAttribute, newValues, newValue] using hd
      subst this
      exact ⟨hid, by simp⟩
    · refine ⟨fun d hd => ?_, .conditional (.inr rfl) (by simp) (by simp)⟩
      have : d = (.bool b%"hidden", [.user 1]) := by simpa [declared, declaredAll] using hd
      subst this
      exact ⟨hhid, fun k hk => by rw [List.mem_singleton.1 hk]; exact .inr rfl⟩
    · exact ⟨by simp [told, Text, declared], told_neat0⟩
    · exact ⟨by simp [told, Text, declared, declaredAll],
        .conditional (.inl rfl) (by simp [told, Text, Node.isAttr, Node.type]) (by simp [told_neat0])⟩
    · refine ⟨by rw [declared_element]; simp, (C110_constructors (Q := marking) (h := .empty) (.newTextElement (by decide) (by decide) ⟨?_, ?_,
        ⟨?_, .inr (.inr ?_)⟩⟩) (fun _ => trivial)).1⟩
      · intro v hv; exact .inr ⟨_, List.mem_singleton.1 hv⟩
      · intro n hn
        have : n = told 1 := by simpa [nodesIn] using hn
        subst this
        exact told_neat1
      · intro d hd; simp [nodesIn, declaredAll, declared, told, Text] at hd
      · intro d hd; simp [nodesIn, declaredAll, declared, told, Text] at hd
    · exact ⟨by simp [declared], .iterator rfl (by simp [Text, Node.isAttr, Node.type])
        (by simpa using .text ⟨hc, trivial⟩)⟩
    · exact ⟨by simp [declared], .yieldIterator rfl (by simp [told, Text, Node.isAttr, Node.type]) (by simp [told_neat0])⟩
    · exact ⟨by simp [ContentCollect, declared], .collector rfl⟩
    · exact ⟨by simp [Imperative, declared], .imperative trivial⟩
  have hdecl : ∀ d ∈ declaredAll [] (nodesIn markingArgs), NeatAttr marking d.1 ∧ ∀ k ∈ d.2, NeatCond marking .tag k := by
    intro d hd
    obtain ⟨n, hn, hd⟩ := mem_declaredAll.1 hd
    exact (hnode n hn).1 d hd
  refine .newElement (by decide) (by decide) ⟨?_, fun n hn => (hnode n hn).2, ⟨fun d hd => (hdecl d hd).1,
    .inl ⟨separateAll_of_depth _ 0 (by decide), fun d hd => (hdecl d hd).2⟩⟩⟩
  intro v hv
  simp only [markingArgs, List.mem_cons, List.not_mem_nil, or_false] at hv
  rcases hv with rfl | rfl | rfl | rfl | rfl | rfl | rfl | rfl | rfl | rfl | rfl <;>
    first | exact .inr ⟨_, rfl⟩ | exact .inl ⟨hc, trivial⟩

example : Neat marking .content markingPage := (C110_constructors markingPage_makes fun _ => trivial).1

/-- A page with arguments of every kind of text: a delimited attribute, a comment, and a document around them. -/
example : ∃ n h' m h'', Makes marking .empty .content n h' ∧
    n = .attr (.delim b%"id" b%" " 0) ∧ h'.dl 0 = [.mk (escaped b%"\">") none [], .mk [] (some (.user 1)) []] ∧
    Makes { marking with elements := [b%"html", b%"head", b%"body"], attributes := [b%"id", b%"lang"] } h' .content m h'' ∧
    m = (Document (.str b%"\"") [] [.node n, .str b%"</body>"] h').1 := by
  have hx : NeatAttr { marking with elements := [b%"html", b%"head", b%"body"], attributes := [b%"id", b%"lang"] }
      (.delim b%"id" b%" " 0) := ⟨.head _, b%" ", by decide⟩
  refine ⟨_, _, _, _, .newDelimitedAttribute (name := b%"id") (delimiter := b%" ")
    (values := [.str b%"\">", .dynFunc true (some 1)]) (by decide) ?_ ?_, rfl, rfl,
    .document (lang := .str b%"\"") (head := []) (body := [.node (.attr (.delim b%"id" b%" " 0)), .str b%"</body>"])
      (by decide) (by decide) (by decide) (by decide) ⟨by simp, trivial⟩ ⟨?_, ?_, ⟨?_, .inr (.inr ?_)⟩⟩
      ⟨?_, ?_, ⟨?_, .inr (.inr ?_)⟩⟩, rfl⟩
  · refine ⟨by decide, fun pre post e => ?_⟩
    have : c%'&' ∈ b%" " := by rw [e]; simp
    exact absurd this (by decide)
  · intro v hv
    simp only [List.mem_cons, List.not_mem_nil, or_false] at hv
    rcases hv with rfl | rfl
    · exact ⟨by simp, trivial⟩
    · exact .inr ⟨rfl, rfl⟩
  · intro v hv; cases hv
  · intro v hv; cases hv
  · intro v hv; cases hv
  · intro v hv; cases hv
  · intro v hv
    simp only [List.mem_cons, List.not_mem_nil, or_false] at hv
    rcases hv with rfl | rfl
    · exact .inr ⟨_, rfl⟩
    · exact .inl ⟨by simp, trivial⟩
  · intro n hn
    have : n = .attr (.delim b%"id" b%" " 0) := by simpa [nodesIn] using hn
    subst this
    exact .attr hx
  · intro d hd
    have : d = (.delim b%"id" b%" " 0, []) := by simpa [nodesIn, declaredAll, declared] using hd
    subst this
    exact hx
  · intro d hd
    have : d = (.delim b%"id" b%" " 0, []) := by simpa [nodesIn, declaredAll, declared] using hd
    subst this
    rfl

/-- A conditional attribute below four conditions that write nothing, and beside the last one a condition that writes an
element, for contents only. -/
def mixedArgs : List Any :=
  [.node (.conditional [.conditional [.conditional [.conditional [] [.bool b%"hidden"] (.user 1),
    .conditional [told 0] [] (.user 0)] [] (.user 1)] [] (.user 1)] [] (.user 1))]

/-- Why `NeatAttrs` looks at all conditions: here all conditions under which attributes are declared write nothing, all nodes
may stand where they stand, and still a reader sees an element that is called `p<b`, since the condition beside gets in the
place of the attribute's last one. -/
theorem C110_mixed_conditions : (∀ n ∈ nodesIn mixedArgs, Neat marking .content n ∧ Built n) ∧
    (∀ d ∈ declaredAll [] (nodesIn mixedArgs), NeatAttr marking d.1 ∧ ∀ k ∈ d.2, NeatCond marking .tag k) ∧
    ∃ s', Spec.Stream.Ends markingEnv (bodiesOf markingFns) (NewElement b%"p" mixedArgs .empty).1 Sample.st none s' ∧
      .start b%"p<b" [] false ∈ readHtml fiveRefs s'.out ∧ b%"p<b" ∉ marking.elements.map lower := by
  refine ⟨fun n hn => ?_, fun d hd => ?_, ?_⟩
  · simp only [mixedArgs, nodesIn, List.filterMap_cons, List.filterMap_nil, List.mem_singleton] at hn
    subst hn
    constructor
    · have h1 : NeatCond marking .content (.user 1) := .inl rfl
      have h0 : NeatCond marking .content (.user 0) := .inl rfl
      have a : Neat marking .content (.conditional [] [.bool b%"hidden"] (.user 1)) := .conditional h1 (by simp) (by simp)
      have b : Neat marking .content (.conditional [told 0] [] (.user 0)) :=
        .conditional h0 (by simp [told, Text, Node.isAttr, Node.type]) (by simp [told_neat0])
      refine .conditional h1 (by simp [Node.isAttr, Node.type]) fun n hn => ?_
      rw [List.mem_singleton.1 hn]
      refine .conditional h1 (by simp [Node.isAttr, Node.type]) fun n hn => ?_
      rw [List.mem_singleton.1 hn]
      refine .conditional h1 (by simp [Node.isAttr, Node.type]) fun n hn => ?_
      simp only [List.mem_cons, List.not_mem_nil, or_false] at hn
      rcases hn with rfl | rfl
      · exact a
      · exact b
    · have one : ∀ {k : FnId} {n : Node}, n.isAttr = false → Built n → Built (.conditional [n] [] (.user k)) := by
        intro k n hn hb
        refine .conditional (some k) [some n] _ (fun m hm => ?_) ?_
        · obtain rfl : m = n := by simpa using hm
          exact hb
        · cases n <;> first | rfl | cases hn
      have a : Built (.conditional [] [.bool b%"hidden"] (.user 1)) := by
        refine .conditional (some 1) [some (.attr (.bool b%"hidden"))] _ (fun n hn => ?_) rfl
        obtain rfl : n = .attr (.bool b%"hidden") := by simpa using hn
        exact .newBooleanAttribute _
      have b : Built (.conditional [told 0] [] (.user 0)) := one rfl (.text _ _)
      refine one rfl (one rfl (.conditional (some 1) [some (.conditional [] [.bool b%"hidden"] (.user 1)),
        some (.conditional [told 0] [] (.user 0))] _ (fun n hn => ?_) rfl))
      simp only [List.mem_cons, Option.some.injEq, List.not_mem_nil, or_false] at hn
      rcases hn with rfl | rfl
      · exact a
      · exact b
  · have : d = (.bool b%"hidden", [.user 1, .user 1, .user 1, .user 1]) := by
      simpa [mixedArgs, nodesIn, declaredAll, declared, told, Text] using hd
    subst this
    refine ⟨⟨by decide, trivial⟩, fun k hk => ?_⟩
    have : k = .user 1 := by simpa using hk
    subst this
    exact .inr rfl
  · have h : ((exec markingEnv (renderWith (bodiesOf markingFns) 8 (NewElement b%"p" mixedArgs .empty).1) Sample.st).map fun p =>
        (p.1.isNone, decide (.start b%"p<b" [] false ∈ readHtml fiveRefs p.2.out))) = some (true, true) := by
      decide +kernel
    cases hx : exec markingEnv (renderWith (bodiesOf markingFns) 8 (NewElement b%"p" mixedArgs .empty).1) Sample.st with
    | none => rw [hx] at h; cases h
    | some p =>
      rw [hx] at h
      obtain ⟨e, s'⟩ := p
      simp only [Option.map_some, Option.some.injEq, Prod.mk.injEq, Option.isNone_iff_eq_none, decide_eq_true_eq] at h
      obtain ⟨rfl, h⟩ := h
      exact ⟨s', ⟨8, hx⟩, h, by decide⟩

end Aitch.Props
