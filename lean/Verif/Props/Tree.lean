import Verif.Proofs.Tree
/-
C72: writing with calls and writing with nodes.
-/
namespace Aitch.Props
open Spec

/-! ### C72 — an Imperative function can write what declared elements write, and the other way round -/

/-- Pieces declared with `NewElement` and `NewVoidElement` and the corresponding calls on an ImperativeContext write
the same, at any depth. -/
theorem C72_same {P : Fns} (F : BuiltFns P) (c : Ctx) (he : c.frame.err = none) (h : Heap) (hdl : c.dl = h.dl)
    (ts : List Tree) (hf : FitAll P c ts) (f : FnId) (hops : P.imp f c = callsAll ts) (w : Bytes) :
    Renders P c (Imperative (some f)) w ↔ RendersAll P c ((declareAll h ts).map (asNode h.dl)) w := by
  rw [renders_imperative F he, hops, callsAll_out F he hdl ts hf,
    rendersAll_iff F he (built_asNode (declareAll_built h P c ts hf) h.dl)]

/-- The elements can be declared in any order: building one leaves the memory, and so the other attributes, alone. -/
theorem C72_memory (P : Fns) (c : Ctx) (h : Heap) (name : Bytes) (attrs : List Attr) (kids : List Tree)
    (hf : FitAttrs P c attrs) (hk : FitAll P c kids) :
    (NewVoidElement name (attrs.map fun a => .node (.attr a)) h).2 = h ∧
    (NewElement name ((attrs.map fun a => .node (.attr a)) ++ declareAll h kids) h).2 = h := by
  refine ⟨?_, ?_⟩
  · have := void_memory name attrs [] h hf.names (by simp)
    rwa [List.append_nil] at this
  · have := void_memory name attrs (declareAll h kids) h hf.names
      fun n hn => (declareAll_declared h P c kids hk n hn).1
    obtain ⟨e, h', h1, h2⟩ := newElement_head name ((attrs.map fun a => .node (.attr a)) ++ declareAll h kids) h
    rw [h2] at this
    rw [h1]
    exact this

/-- Whatever calls a function makes, with or without `EndAll`, with `End` calls that close nothing, with nil nodes: if
nothing is left open in the end, there are pieces that, when declared, write the same.  (The attributes must fit, and
the nodes written must not hold attributes.) -/
theorem C72_every {P : Fns} (F : BuiltFns P) (c : Ctx) (he : c.frame.err = none) (h : Heap) (hdl : c.dl = h.dl)
    (f : FnId) (hs : ∀ n v attrs, .start n v attrs ∈ P.imp f c → FitAttrs P c (startAttrs attrs))
    (hw : ∀ ns n, .writeNodes ns ∈ P.imp f c → n ∈ nonAttrs (ns.filterMap id) → declared [] n = [])
    (ho : openAfter (P.imp f c) [] = []) :
    ∃ ts, FitAll P c ts ∧ ∀ w,
      Renders P c (Imperative (some f)) w ↔ RendersAll P c ((declareAll h ts).map (asNode h.dl)) w := by
  obtain ⟨ts, h1, h2⟩ := calls_pieces (P := P) (c := c) (P.imp f c) [] [] (by intro f hf; cases hf) trivial hs
    (fun ns n hns hn => ⟨F.imp f c ns n hns (by
      have := (List.mem_filter.1 hn).1
      simpa using this), hw ns n hns hn⟩) ho
  refine ⟨ts, h1, fun w => ?_⟩
  rw [renders_imperative F he, rendersAll_iff F he (built_asNode (declareAll_built h P c ts h1) h.dl),
    ← callsAll_out F he hdl ts h1 [], ← h2 w]
  rfl

/-- A list with a picture in it: `<ul class="a b"><li>a&lt;b</li><img src="x"></ul>`; the class is at address 0. -/
def treeSample : Tree :=
  .element b%"ul" [.delim b%"class" b%" " 0]
    [.element b%"li" [] [.text b%"a<b"], .void b%"img" [.plain b%"src" [.mk b%"x" none []]]]

def treeHeap : Heap := (NewDelimitedAttribute b%"class" b%" " [.str b%"a", .str b%"b"] .empty).2

/-- User functions of which the Imperative ones make the calls for the sample. -/
def treeFns : Fns := { Sample.fns with imp := fun _ _ => callsAll [treeSample] }

theorem treeFns_built : BuiltFns treeFns where
  collect := Sample.built.collect
  imp := by
    intro f c ns n h
    simp [treeFns, treeSample, callsAll, Tree.calls] at h

theorem treeSample_fit : FitAll treeFns { Sample.ctx with dl := treeHeap.dl } [treeSample] := by
  refine ⟨⟨⟨?_, by simp, by simp [Unshared, refOf], ?_⟩, ⟨⟨by simp, by simp, by simp [Unshared], by simp⟩, trivial, trivial⟩,
    ⟨?_, by simp, by simp [Unshared, refOf, List.filterMap_cons], ?_⟩, trivial⟩, trivial⟩
  · intro a ha
    simp only [List.mem_cons, List.not_mem_nil, or_false] at ha
    subst ha
    exact built_delim _ _ _
  · intro a ha _ v hv
    simp only [List.mem_cons, List.not_mem_nil, or_false] at ha
    subst ha
    have : v ∈ [Value.mk b%"a" none []] := hv
    simp only [List.mem_cons, List.not_mem_nil, or_false] at this
    subst this
    decide
  · intro a ha
    simp only [List.mem_cons, List.not_mem_nil, or_false] at ha
    subst ha
    exact built_str _ _ (by decide)
  · intro a ha hd
    simp only [List.mem_cons, List.not_mem_nil, or_false] at ha
    subst ha
    simp [isDelim, refOf] at hd

example : RendersAll treeFns { Sample.ctx with dl := treeHeap.dl } ((declareAll treeHeap [treeSample]).map (asNode treeHeap.dl))
    b%"<ul class=\"a b\"><li>a&lt;b</li><img src=\"x\"></ul>" := by
  refine (C72_same treeFns_built _ rfl treeHeap rfl [treeSample] treeSample_fit 0 rfl _).1 ?_
  rw [renders_imperative treeFns_built rfl]
  exact OutOps.start (n := b%"ul") (.start (n := b%"li") (.writeString (.endSome (.startVoid (n := b%"img") (.endSome .nil)))))

example : ∃ ts, FitAll treeFns { Sample.ctx with dl := treeHeap.dl } ts ∧ ∀ w,
    Renders treeFns { Sample.ctx with dl := treeHeap.dl } (Imperative (some 0)) w ↔
      RendersAll treeFns { Sample.ctx with dl := treeHeap.dl } ((declareAll treeHeap ts).map (asNode treeHeap.dl)) w := by
  refine C72_every treeFns_built _ rfl treeHeap rfl 0 ?_ ?_ rfl
  · intro n v attrs h
    have hf := treeSample_fit.1
    simp only [treeFns, treeSample, callsAll, Tree.calls, List.append_nil, List.cons_append, List.nil_append,
      List.mem_cons, ImpOp.start.injEq, List.not_mem_nil, or_false, reduceCtorEq, false_or] at h
    rcases h with ⟨-, -, rfl⟩ | ⟨-, -, rfl⟩ | ⟨-, -, rfl⟩
    · rw [startAttrs_attrs]; exact hf.1
    · rw [startAttrs_attrs]; exact hf.2.1.1
    · rw [startAttrs_attrs]; exact hf.2.2.1
  · intro ns n h
    simp [treeFns, treeSample, callsAll, Tree.calls] at h

end Aitch.Props
