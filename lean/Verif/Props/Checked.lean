import Verif.Proofs.Checked
import Verif.Spec.Sample
/-
C99: index and slice expressions are always in range.
-/
namespace Aitch.Props
open Spec

/-! ### C99 — the library does not panic of itself: no index or slice expression is ever out of range -/

/-- Building an element: with the bounds checks of Go, the constructors give the elements that they give without. -/
theorem C99_build (name : Bytes) (contents : List Any) (h : Heap) :
    Checked.NewElement name contents h = .val (NewElement name contents h) ∧
    Checked.NewVoidElement name contents h = .val (NewVoidElement name contents h) ∧
    Checked.contentsToNodes h.dl contents = .val ((contentsToNodes h.dl contents).map some) :=
  ⟨Checked.NewElement_checked name contents h, Checked.NewVoidElement_checked name contents h,
    Checked.contentsToNodes_checked h.dl contents⟩

/-- Values and the other constructors that use indices: escaping a string, `NewValue`, `Nbsps`, the condition of `When`,
the map that `HeadersJS` writes. -/
theorem C99_values (dl : Nat → List Value) :
    (∀ s, Checked.htmlEscapeString s = .val (htmlEscapeString s)) ∧
    (∀ v, Checked.NewValue dl v = .val (NewValue dl v)) ∧
    (∀ n, Checked.Nbsps n = .val (Nbsps n)) ∧
    (∀ key nodes, ∃ c, Checked.whenCond key = .val c ∧ When key nodes = mkConditional c nodes) ∧
    ∀ ord value, Checked.mergedJS ord value = .val (mergedJS ord value) :=
  ⟨Checked.htmlEscapeString_checked, Checked.NewValue_checked dl, Checked.Nbsps_checked, Checked.whenCond_checked,
    Checked.mergedJS_checked⟩

/-- The items of a slice that `IterateKey` reads by reflection: each is read and stored in range. -/
theorem C99_items (xs : List Any) : Checked.reflected xs = .val xs := Checked.reflected_checked xs

/-- The code generator: taking a tab off the indentation, and the part of a function's name after the last slash. -/
theorem C99_generator (n : Nat) (name path f : Bytes) (hp : path ≠ []) (hf : c%'/' ∉ f) :
    Checked.decIndent (List.replicate n 9) = .val (List.replicate (n - 1) 9) ∧
    (∃ r, Checked.funcName name = .val r) ∧ Checked.funcName (path ++ c%'/' :: f) = .val f :=
  ⟨Checked.decIndent_checked n 9, Checked.funcName_checked name, Checked.funcName_last path f hp hf⟩

/-- A node made by the API is rendered without a panic of the library's own, in any state, whatever the writer and the
user functions do. -/
theorem C99_render {env : Env} (B : BuiltEnv env) {n : Node} (hn : Built n) (s : St) : PanicFree env n s :=
  fun _ fuel => Checked.renderProg_checked B fuel n hn.wf s

/-- So the bounds checks change nothing: the same calls return the same errors in the same states. -/
theorem C99_runs {env : Env} (B : BuiltEnv env) {n : Node} (hn : Built n) (boom : Prog Unit) (s s' : St) (e : Option Err) :
    RunsChecked boom env n s e s' ↔ Runs env n s e s' := by
  have := C99_render B hn s boom
  simp only [RunsChecked, Runs, render, Checked.exec_reach, this]

/-- A call of `End`, with nothing open or something open, is in range, and so is `EndAll`, and `Start` with any
attributes; `stack` are the open elements, the last one first. -/
theorem C99_imperative (boom : Prog Unit) (stack : List Bytes) (name : Bytes) (attrs : List (Option Node)) :
    Checked.startTag boom name attrs = startTag name attrs ∧
    Checked.endAll boom stack.reverse stack.length = endAll stack ∧
    Checked.endLast boom [] = pure [] ∧
    Checked.endLast boom (name :: stack).reverse = (renderEndTag name >>= fun _ => pure stack.reverse) := by
  refine ⟨Checked.startTag_checked name attrs, ?_, rfl, ?_⟩
  · have := Checked.endAll_checked (boom := boom) stack.reverse []
    simpa using this
  · rw [List.reverse_cons]
    exact Checked.endLast_checked _ _

/-! The hypotheses are met. -/

/-- The calls of a list use only nodes made by the API if the nodes written are such. -/
theorem impBuilt_impOf (ops : List ImpOp) (h : ∀ ns n, .writeNodes ns ∈ ops → some n ∈ ns → Built n) :
    ImpBuilt (impOf ops) := by
  induction ops with
  | nil => exact .ret _
  | cons op ops ih =>
    exact .call _ _ (fun ns n e hn => h ns n (by simp [e]) hn) fun _ => ih fun ns n hm hn => h ns n (by simp [hm]) hn

theorem sample_builtEnv : BuiltEnv Sample.env :=
  ⟨fun f s n hn => Sample.built.collect f s.toCtx n hn,
    fun f s => impBuilt_impOf _ fun ns n h hn => Sample.built.imp f s.toCtx ns n h hn⟩

/-- An element with an attribute given twice, a conditional one, and calls of `Start` and `End` in it. -/
def checkedParts : List Any :=
  [.node (NewAttribute (fun _ => []) b%"id" [.str b%"a"]), .node (NewAttribute (fun _ => []) b%"id" [.str b%"b"]),
    .node (.conditional [] [.plain b%"id" [.mk b%"c" none []], .bool b%"hidden"] (.user 0)), .node (Imperative (some 0))]

example : ∃ s', RunsChecked .stuck Sample.env (NewElement b%"p" checkedParts ⟨fun _ => [], 0⟩).1 Sample.st none s' ∧
    s'.out = b%"<p id=\"c\" hidden><p>a&lt;b</p></p>" := by
  have : ((exec Sample.env (Checked.renderProg .stuck 3 (NewElement b%"p" checkedParts ⟨fun _ => [], 0⟩).1) Sample.st).any
      fun p => p.1 == none && p.2.out == b%"<p id=\"c\" hidden><p>a&lt;b</p></p>") = true := by decide +kernel
  rw [Option.any_eq_true] at this
  obtain ⟨⟨e, s'⟩, h1, h2⟩ := this
  simp only [Bool.and_eq_true, beq_iff_eq] at h2
  obtain ⟨rfl, h2⟩ := h2
  exact ⟨s', ⟨3, h1⟩, h2⟩

/-- The checks are real: an element whose table of indices is wrong (none is made by the API) does panic. -/
example : ¬ PanicFree Sample.env
    (.voidElement ⟨b%"p", [], [(b%"id", 0)], [⟨.bool b%"hidden", [.user 0]⟩]⟩) Sample.st := by
  intro h
  have := congrArg (·.1.isSome) (h .stuck 1)
  revert this
  decide +kernel

/-- So does an index past the end, and a slice expression whose bounds are the wrong way round. -/
example : Checked.index [1, 2] 2 = .panic ∧ Checked.slice [1, 2] 2 1 = .panic ∧ Checked.last ([] : List Nat) = .panic :=
  ⟨rfl, rfl, rfl⟩

end Aitch.Props
