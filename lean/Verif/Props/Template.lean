import Verif.Model.Base
import Verif.Proofs.Template
import Verif.Spec.Sample
/-
C48, C76: templates.
-/
namespace Aitch.Props

open Spec

/-! ### C48 — templates interleave nodes and text in order -/

/-- `Execute` runs the parts of the template in order, in the context it makes, and stops at the first error
(whatever the writer, the nodes and the user functions do). -/
theorem C48_run {env : Env} {t : List Part} {data : Option MapId} {cargo : Any} {s s' : St} {e : Option Err} :
    Executes env t data cargo s e s' ↔ TemplateRun env t (startedWith s data cargo) e s' := executes_iff

/-- The context it makes is the one that `context.New` makes of the data and the cargo. -/
theorem C48_context {env : Env} {t : List Part} {data : Option MapId} {cargo : Any} {s s' : St} {e : Option Err} :
    Executes env t data cargo s e s' ↔ TemplateRun env t (contextNew s data cargo) e s' := C48_run

/-- The first node that fails stops the execution: its error is the result, and the parts after it change nothing. -/
theorem C48_stops {env : Env} {before after : List Part} {n : Node} {data : Option MapId} {cargo : Any} {s s₁ s₂ : St}
    {e : Err} (p : Place) (h₁ : Executes env before data cargo s none s₁) (h₂ : Runs env n s₁ (some e) s₂) :
    Executes env (before ++ .call n p :: after) data cargo s (some e) s₂ :=
  C48_run.mpr (templateRun_append (C48_run.mp h₁) (.nodeFails h₂))

/-- So does the first text that cannot be written. -/
theorem C48_stops_text {env : Env} {before after : List Part} {x : Bytes} {data : Option MapId} {cargo : Any}
    {s s₁ s₂ : St} {e : Err} (h₁ : Executes env before data cargo s none s₁) (h₂ : Wrote env x s₁ (some e) s₂) :
    Executes env (before ++ .text x :: after) data cargo s (some e) s₂ :=
  C48_run.mpr (templateRun_append (C48_run.mp h₁) (.textFails h₂))

/-- With a healthy writer and functions that compute `P`, the output is the template's text with each action replaced by
what its node can write in the context that `Execute` makes, if the actions stand where nothing is left behind: in
text, or inside a tag if the node is an attribute (and in some other places, see `Leaves`).  Nil is returned, and memory
is as before.  (C76 is about the other places.) -/
theorem C48_output {env : Env} {P : Fns} (H : Healthy env) (C : Computes env P) (F : BuiltFns P) {t : List Part}
    (hb : ∀ n p, .call n p ∈ t → Built n) (hp : ∀ n p, .call n p ∈ t → Leaves n p [])
    {data : Option MapId} {cargo : Any} {s s' : St} {e : Option Err} (h : Executes env t data cargo s e s') :
    e = none ∧ s'.toCtx = (startedWith s data cargo).toCtx ∧
    ∃ ws, Each (PartWritesOnly P (startedWith s data cargo).toCtx) t ws ∧ s'.out = s.out ++ ws.flatten := by
  obtain ⟨h1, h2, ws, h3, h4⟩ := templateRun_out ⟨H, C⟩ F hb rfl (C48_run.mp h)
  refine ⟨h1, h2, ws, ?_, h4⟩
  clear h h2 h4 hb
  induction h3 with
  | nil => exact .nil
  | @cons p w ps ws hw _ ih =>
    refine .cons ?_ (ih fun n p hn => hp n p (.tail _ hn))
    cases p with
    | text t => exact hw
    | call n p =>
      obtain ⟨w₁, w₂, h5, h6, rfl⟩ := hw
      have h7 : [] = w₂ := (leaves_iff.1 (hp n p (.head _))).trans (leaves_iff.1 h6).symm
      subst h7
      simpa [PartWritesOnly] using h5

/-- And the execution ends if the nodes' renders end in that context. -/
theorem C48_ends {env : Env} {P : Fns} (H : Healthy env) (C : Computes env P) (F : BuiltFns P) {t : List Part}
    (hb : ∀ n p, .call n p ∈ t → Built n) (data : Option MapId) (cargo : Any) (s : St)
    (hn : ∀ n p, .call n p ∈ t → ∀ s₁ : St, s₁.toCtx = (startedWith s data cargo).toCtx → ∃ e s₂, Runs env n s₁ e s₂) :
    ∃ s', Executes env t data cargo s none s' := by
  suffices h : ∀ s₁ : St, s₁.toCtx = (startedWith s data cargo).toCtx → ∃ s', TemplateRun env t s₁ none s' by
    obtain ⟨s', h⟩ := h _ rfl
    exact ⟨s', C48_run.mpr h⟩
  induction t with
  | nil => exact fun s₁ _ => ⟨s₁, .done⟩
  | cons p ps ih =>
    intro s₁ h₁
    have ih := ih (fun n p hn => hb n p (.tail _ hn)) fun n p h => hn n p (.tail _ h)
    cases p with
    | text x =>
      obtain ⟨s', h⟩ := ih (s₁.wrote x (env.write s₁.log x)) h₁
      exact ⟨s', .text ⟨by rw [H], rfl⟩ h⟩
    | call n p =>
      obtain ⟨e, s₂, f, hr⟩ := hn n p (.head _) s₁ h₁
      have he : s₁.frame.err = none := congrArg (fun c : Ctx => c.frame.err) h₁
      obtain ⟨rfl, h₂, _⟩ := render_refines ⟨H, C⟩ F.wf (hb n p (.head _)).wf he hr
      have hl : Leaves n p (escapeEmpty (contextFunc n) p) := leaves_iff.2 rfl
      generalize escapeEmpty (contextFunc n) p = w at hl
      obtain ⟨s', h⟩ := ih (s₂.wrote w (env.write s₂.log w)) (h₂.trans h₁)
      exact ⟨s', .node ⟨f, hr⟩ hl ⟨by rw [H], rfl⟩ h⟩

/-- `NewTemplate` resolves each action to the node registered under its name. -/
theorem C48_new {m : NodeMap} (hd : (m.map (·.1)).Nodup) (text : List Piece) (t : List Part) :
    NewTemplate text m = .val (some t) ↔ GoodNames m ∧ Each (Names m) text t := by
  by_cases h : GoodNames m
  · rw [newTemplate_good h]; simp [h, parse_iff hd]
  · rw [newTemplate_bad h]; simp [h]

/-- It returns an error just when some action names no node, or a nil node. -/
theorem C48_new_fails {m : NodeMap} (hd : (m.map (·.1)).Nodup) (text : List Piece) :
    NewTemplate text m = .val none ↔ GoodNames m ∧ ∃ k p, .action k p ∈ text ∧ ∀ n, m.lookup k ≠ some (some n) := by
  by_cases h : GoodNames m
  · rw [newTemplate_good h]; simp only [Result.val.injEq, h, true_and]; exact parse_none hd text
  · rw [newTemplate_bad h]; simp [h]

/-- `MustNewTemplate` returns the same template, and panics if `NewTemplate` returns an error. -/
theorem C48_must {m : NodeMap} (text : List Piece) (t : List Part) :
    MustNewTemplate text m = .val t ↔ NewTemplate text m = .val (some t) := by
  unfold MustNewTemplate
  cases NewTemplate text m with
  | panic => simp
  | val o => cases o <;> simp

/-! ### C82 — NewTemplate reports what is wrong by its error -/

/-- `NewTemplate` never panics. -/
def C82_claim : Prop := ∀ (text : List Piece) (m : NodeMap), NewTemplate text m ≠ .panic

/-- A node registered as `my-node`, in a template that does not even use it. -/
theorem C82_false : ¬ C82_claim := fun h => h [] [(b%"my-node", some (Collection []))] rfl

/-- It panics just when there is a node under a name that is not an identifier, whatever the text of the template. -/
theorem C82_exact (text : List Piece) (m : NodeMap) : NewTemplate text m = .panic ↔
    ∃ k n, (k, some n) ∈ m ∧ ¬ Identifier k := by
  by_cases h : GoodNames m
  · rw [newTemplate_good h]
    simp only [reduceCtorEq, false_iff]
    rintro ⟨k, n, hm, hk⟩
    exact hk (h k n hm)
  · rw [newTemplate_bad h]
    simp only [true_iff]
    unfold GoodNames at h
    simpa using h

/-- So with identifiers as names it does not panic. -/
theorem C82_partial {m : NodeMap} (h : GoodNames m) (text : List Piece) : NewTemplate text m ≠ .panic := by
  rw [newTemplate_good h]; simp

/-- `MustNewTemplate` panics just when `NewTemplate` panics or returns an error. -/
theorem C82_must (text : List Piece) (m : NodeMap) : MustNewTemplate text m = .panic ↔
    NewTemplate text m = .panic ∨ NewTemplate text m = .val none := by
  unfold MustNewTemplate
  cases NewTemplate text m with
  | panic => simp
  | val o => cases o <;> simp

/-! A template with text around and between two actions. -/

section
open Sample

private def para : Node := Text (fun _ => []) [.str b%"<hi>"]
private def title : Node := Fragment (fun _ => []) [.str b%"t"]
private def nodes : NodeMap := [(b%"a", some para), (b%"nil", none), (b%"b", some title)]
private def text : List Piece := [.text b%"<p>", .action b%"a" .text, .text b%"</p>", .action b%"b" .text, .text b%"."]
private def parts : List Part := [.text b%"<p>", .call para .text, .text b%"</p>", .call title .text, .text b%"."]

example : NewTemplate text nodes = .val (some parts) := rfl
example : NewTemplate [.action b%"nil" .text] nodes = .val none := rfl
example : MustNewTemplate text nodes = .val parts := rfl
example : GoodNames nodes := (goodNames_iff nodes).1 rfl
example : ¬ Identifier b%"2nd" := fun h => absurd ((goodName_iff _).2 h) (by decide)
example : Identifier b%"main_2" := (goodName_iff _).1 rfl
example : (nodes.map (·.1)).Nodup := by decide

private theorem partsBuilt : ∀ n p, .call n p ∈ parts → Built n := by
  intro n p hn
  simp only [parts, List.mem_cons, reduceCtorEq, Part.call.injEq, false_or, List.not_mem_nil, or_false] at hn
  rcases hn with ⟨rfl, -⟩ | ⟨rfl, -⟩
  · exact .text _ _
  · exact .fragment _ _

example : ∀ n p, .call n p ∈ parts → Leaves n p [] := by
  intro n p hn
  simp only [parts, List.mem_cons, reduceCtorEq, Part.call.injEq, false_or, List.not_mem_nil, or_false] at hn
  rcases hn with ⟨-, rfl⟩ | ⟨-, rfl⟩ <;> rfl

example : ∃ s', Executes env parts (some 0) .nil st none s' ∧ s'.out = b%"<p>&lt;hi&gt;</p>t." :=
  ⟨_, ⟨3, rfl⟩, rfl⟩

example : ∃ e s', Executes env parts (some 0) .nil st e s' ∧ (∀ n p, .call n p ∈ parts → Built n) :=
  ⟨_, _, ⟨3, rfl⟩, partsBuilt⟩

/-- A writer whose third call fails: the node's error is the result and nothing is written after it. -/
private def failing : Env := { env with write := fun l d => if l.length < 2 then (d.length, none) else (0, some 9) }

example : ∃ s₁ s₂, Executes failing [.text b%"<p>"] (some 0) .nil st none s₁ ∧ Runs failing title s₁ none s₂ :=
  ⟨_, _, ⟨3, rfl⟩, ⟨3, rfl⟩⟩

example : ∃ s₁ s₂, Executes failing [.text b%"<p>", .text b%"q"] (some 0) .nil st none s₁ ∧
    Runs failing title s₁ (some 9) s₂ := ⟨_, _, ⟨3, rfl⟩, ⟨3, rfl⟩⟩

/-! ### C76 — template actions are replaced by the output of their nodes alone, wherever they stand -/

/-- Wherever the actions stand, the output is the template's text with each action replaced by what its node writes. -/
def C76_claim : Prop := ∀ {env : Env} {P : Fns}, Healthy env → Computes env P → BuiltFns P → ∀ {t : List Part},
  (∀ n p, .call n p ∈ t → Built n) → ∀ {data : Option MapId} {cargo : Any} {s s' : St} {e : Option Err},
  Executes env t data cargo s e s' →
  ∃ ws, Each (PartWritesOnly P (startedWith s data cargo).toCtx) t ws ∧ s'.out = s.out ++ ws.flatten

/-- What is written in general: the output of a node is followed by what html/template leaves at its place. -/
theorem C76_exact_partial {env : Env} {P : Fns} (H : Healthy env) (C : Computes env P) (F : BuiltFns P) {t : List Part}
    (hb : ∀ n p, .call n p ∈ t → Built n) {data : Option MapId} {cargo : Any} {s s' : St} {e : Option Err}
    (h : Executes env t data cargo s e s') :
    e = none ∧ s'.toCtx = (startedWith s data cargo).toCtx ∧
    ∃ ws, Each (PartWrites P (startedWith s data cargo).toCtx) t ws ∧ s'.out = s.out ++ ws.flatten :=
  templateRun_out ⟨H, C⟩ F hb rfl (C48_run.mp h)

/-- `When("name", attribute)`. -/
private def optional : Node := .conditional [] [.plain b%"id" [.mk b%"x" none []]] (.has b%"name")

example : When b%"name" [some (NewAttribute (fun _ => []) b%"id" [.str b%"x"])] = .val optional := rfl

/-- `<p {{a .}}>`, where `a` is `When("name", attribute)`, is written as `<p ZgotmplZ>`. -/
private theorem optional_output :
    ∃ s', Executes env [.text b%"<p ", .call optional .tag, .text b%">"] (some 0) .nil st none s' ∧
      s'.out = b%"<p ZgotmplZ>" := ⟨_, ⟨3, rfl⟩, by decide +kernel⟩

/-- False: a conditional attribute may not stand inside a tag. -/
theorem C76_false : ¬ C76_claim := by
  intro h
  have hb : Built optional := .when b%"name" [some (NewAttribute (fun _ => []) b%"id" [.str b%"x"])] _
    (by intro n hn; simp at hn; subst hn; exact .newAttribute _ _ _) rfl
  obtain ⟨s', h1, h2⟩ := optional_output
  obtain ⟨ws, h3, h4⟩ := h healthy computes built (by
    intro n p hn
    simp only [List.mem_cons, Part.call.injEq, reduceCtorEq, List.not_mem_nil, or_false, false_or] at hn
    obtain ⟨rfl, -⟩ := hn
    exact hb) h1
  cases h3 with
  | cons h5 h3 =>
    cases h3 with
    | cons h6 h3 =>
      cases h3 with
      | cons h7 h3 =>
        cases h3
        cases h5
        cases h7
        have h8 := (hb.renders_iff built rfl).1 h6
        rw [h2] at h4
        cases h8 with
        | conditionalOff => exact absurd h4 (by decide +kernel)
        | conditionalOn _ h8 => cases h8; exact absurd h4 (by decide +kernel)

/-- An attribute in a tag leaves nothing: the readme's template. -/
example : Leaves (NewAttribute (fun _ => []) b%"lang" [.dynKey b%"name"]) .tag [] ∧
    ∃ s', Executes env [.text b%"<html ", .call (NewAttribute (fun _ => []) b%"lang" [.dynKey b%"name"]) .tag,
      .text b%">"] (some 0) .nil st none s' ∧ s'.out = b%"<html  lang=\"&lt;Bob&gt;\">" :=
  ⟨rfl, _, ⟨3, rfl⟩, by decide +kernel⟩

end

end Aitch.Props
