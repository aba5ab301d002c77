import Verif.Proofs.StreamTemplate
import Verif.Props.StreamFinite
import Verif.Props.StreamItems
import Verif.Props.StreamPanic
/-
C107: templates whose nodes have functions that write and render.
-/
namespace Aitch.Props
open Spec Spec.Stream Aitch.Stream

/-! ### C107 — templates, when user functions write and render -/

/-- `Execute` runs the parts of the template in order, in the context it makes, and stops at the first error, whatever the
writer and the functions do, which may write to the context and render nodes. -/
theorem C107_run {env : Env} {B : Bodies} {t : List Part} {data : Option MapId} {cargo : Any} {s s' : St} {e : Option Err} :
    Executing env B t data cargo s e s' ↔ PartsRun env B t (startedWith s data cargo) e s' := executing_iff

/-- The first node that fails stops the execution: its error is the result, and the parts after it change nothing. -/
theorem C107_stops {env : Env} {B : Bodies} {before after : List Part} {n : Node} {data : Option MapId} {cargo : Any}
    {s s₁ s₂ : St} {e : Err} (p : Place) (h₁ : Executing env B before data cargo s none s₁)
    (h₂ : Spec.Stream.Ends env B n s₁ (some e) s₂) :
    Executing env B (before ++ .call n p :: after) data cargo s (some e) s₂ :=
  C107_run.mpr (partsRun_append (C107_run.mp h₁) (.nodeFails h₂))

/-- So does the first text that cannot be written. -/
theorem C107_stops_text {env : Env} {B : Bodies} {before after : List Part} {x : Bytes} {data : Option MapId} {cargo : Any}
    {s s₁ s₂ : St} {e : Err} (h₁ : Executing env B before data cargo s none s₁) (h₂ : Wrote env x s₁ (some e) s₂) :
    Executing env B (before ++ .text x :: after) data cargo s (some e) s₂ :=
  C107_run.mpr (partsRun_append (C107_run.mp h₁) (.textFails h₂))

/-- There is at most one way in which it ends. -/
theorem C107_determined {env : Env} {B : Bodies} {t : List Part} {data : Option MapId} {cargo : Any} {s s₁ s₂ : St}
    {e₁ e₂ : Option Err} (h₁ : Executing env B t data cargo s e₁ s₁) (h₂ : Executing env B t data cargo s e₂ s₂) :
    e₁ = e₂ ∧ s₁ = s₂ := by
  obtain ⟨f, h₁⟩ := h₁
  obtain ⟨g, h₂⟩ := h₂
  have h₁ := (Le.execParts (fun n => le_renderWith B (Nat.le_max_left f g) n) t).exec h₁
  have h₂ := (Le.execParts (fun n => le_renderWith B (Nat.le_max_right f g) n) t).exec h₂
  rw [h₁] at h₂
  cases h₂
  exact ⟨rfl, rfl⟩

/-- If the functions neither write nor render then this is the execution of C48. -/
theorem C107_same {env : Env} {t : List Part} {data : Option MapId} {cargo : Any} {s s' : St} {e : Option Err} :
    Executing env (silentBodies env) t data cargo s e s' ↔ Executes env t data cargo s e s' := by
  rw [C107_run, executes_iff]
  generalize startedWith s data cargo = s₁
  constructor
  · intro h
    induction h with
    | done => exact .done
    | text hw _ ih => exact .text hw ih
    | textFails hw => exact .textFails hw
    | node hn hl hw _ ih => exact .node (C100_same.1 hn) hl hw ih
    | nodeFails hn => exact .nodeFails (C100_same.1 hn)
    | restFails hn hl hw => exact .restFails (C100_same.1 hn) hl hw
  · intro h
    induction h with
    | done => exact .done
    | text hw _ ih => exact .text hw ih
    | textFails hw => exact .textFails hw
    | node hn hl hw _ ih => exact .node (C100_same.2 hn) hl hw ih
    | nodeFails hn => exact .nodeFails (C100_same.2 hn)
    | restFails hn hl hw => exact .restFails (C100_same.2 hn) hl hw

/-- With a healthy writer, and functions that behave as described and leave no error, nil is returned and the output is the
template read from start to end: what a function writes or renders stands where the function is called, between the text
before its node and the text after. -/
theorem C107_output {env : Env} {B : Bodies} {E : Tellers} (H : Healthy env) (A : Behaves env B E) (K : Spec.Stream.Calm E)
    {t : List Part} (hb : ∀ n p, .call n p ∈ t → Built n) {data : Option MapId} {cargo : Any} {s s' : St} {e : Option Err}
    (h : Executing env B t data cargo s e s') :
    e = none ∧ StreamsParts E t (tape (startedWith s data cargo)) (tape s') := by
  replace h := C107_run.1 h
  have key : ∀ s₁ : St, s₁.frame.err = none → PartsRun env B t s₁ e s' → e = none ∧ StreamsParts E t (tape s₁) (tape s') := by
    clear h
    intro s₁ he h
    induction h with
    | done => exact ⟨rfl, .nil⟩
    | @text x ps s s₁ e s' hw _ ih =>
      obtain ⟨-, rfl⟩ := hw
      obtain ⟨h1, h2⟩ := ih (fun n p hn => hb n p (.tail _ hn)) he
      refine ⟨h1, .text ?_⟩
      rw [← tape_wrote H]; exact h2
    | textFails hw => obtain ⟨h1, -⟩ := hw; rw [H] at h1; cases h1
    | @node n p w ps s s₁ s₂ e s' hn hl hw _ ih =>
      obtain ⟨-, rfl⟩ := hw
      obtain ⟨fuel, hn⟩ := hn
      obtain ⟨-, h1, h2⟩ := recStreams ⟨H, A, K⟩ fuel n (tape s) (hb n p (.head _)).wf he s none s₁ rfl hn
      obtain ⟨h3, h4⟩ := ih (fun n p hn => hb n p (.tail _ hn)) (h1.1 he)
      refine ⟨h3, .node h2 hl ?_⟩
      rw [← tape_wrote H]; exact h4
    | @nodeFails n p ps s e s₁ hn => exact absurd (C100_order H A K (hb n p (.head _)) he hn).1 (by simp)
    | restFails hn hl hw => obtain ⟨h1, -⟩ := hw; rw [H] at h1; cases h1
  exact key _ rfl h

/-- The execution ends if following the nodes in its nodes, and those that their functions render or supply, always comes to
an end (as in C104), with whatever writer. -/
theorem C107_ends {env : Env} {B : Bodies} {D : Nat → FnId → Prop} (S : Steady env B D) {t : List Part}
    (h : ∀ n p, .call n p ∈ t → Founded env B D n) (data : Option MapId) (cargo : Any) {s : St} (hs : HeapIn D s.dl) :
    ∃ e s', Executing env B t data cargo s e s' := by
  suffices h : ∀ s : St, HeapIn D s.dl → ∃ e s', PartsRun env B t s e s' by
    obtain ⟨e, s', h⟩ := h (startedWith s data cargo) hs
    exact ⟨e, s', C107_run.mpr h⟩
  clear hs s
  induction t with
  | nil => exact fun s _ => ⟨none, s, .done⟩
  | cons x ps ih =>
    intro s hs
    have ih := ih fun n p hn => h n p (.tail _ hn)
    cases x with
    | text x =>
      cases hw : (env.write s.log x).2 with
      | some e => exact ⟨_, _, .textFails ⟨hw.symm, rfl⟩⟩
      | none =>
        obtain ⟨e, s', ih⟩ := ih (s.wrote x (env.write s.log x)) hs
        exact ⟨e, s', .text ⟨hw.symm, rfl⟩ ih⟩
    | call n p =>
      obtain ⟨e, s₁, f, hs₁, hr⟩ := (sound_of_founded S (h n p (.head _))).1.run s hs
      have hr : Spec.Stream.Ends env B n s e s₁ := ⟨f, hr f (Nat.le_refl f)⟩
      cases e with
      | some e => exact ⟨_, _, .nodeFails hr⟩
      | none =>
        have hl : Spec.Leaves n p (escapeEmpty (contextFunc n) p) := leaves_iff.2 rfl
        generalize escapeEmpty (contextFunc n) p = w at hl
        cases hw : (env.write s₁.log w).2 with
        | some e => exact ⟨_, _, .restFails hr hl ⟨hw.symm, rfl⟩⟩
        | none =>
          obtain ⟨e, s', ih⟩ := ih (s₁.wrote w (env.write s₁.log w)) hs₁
          exact ⟨e, s', .node hr hl ⟨hw.symm, rfl⟩ ih⟩

/-- If no function changes Data or Cargo of the context it is given, then the context has the data and the cargo given to
`Execute`, and no parents, at the end, and (with the parts before it for `t`) before every part of a template. -/
theorem C107_items {env : Env} {B : Bodies} (U : KeepsItemBodies env B) {t : List Part} {data : Option MapId} {cargo : Any}
    {s s' : St} {e : Option Err} (h : Executing env B t data cargo s e s') :
    s'.frame.data = data ∧ s'.frame.cargo = cargo ∧ s'.parents = [] := by
  replace h := C107_run.1 h
  have key : ∀ s : St, PartsRun env B t s e s' →
      s'.frame.data = s.frame.data ∧ s'.frame.cargo = s.frame.cargo ∧ s'.parents = s.parents := by
    clear h
    intro s h
    induction h with
    | done => exact ⟨rfl, rfl, rfl⟩
    | text hw _ ih => obtain ⟨-, rfl⟩ := hw; exact ih
    | textFails hw => obtain ⟨-, rfl⟩ := hw; exact ⟨rfl, rfl, rfl⟩
    | node hn _ hw _ ih =>
      obtain ⟨-, rfl⟩ := hw
      obtain ⟨h1, h2, h3⟩ := C106_keeps U hn
      exact ⟨ih.1.trans h1, ih.2.1.trans h2, ih.2.2.trans h3⟩
    | nodeFails hn => exact C106_keeps U hn
    | restFails hn _ hw =>
      obtain ⟨-, rfl⟩ := hw
      obtain ⟨h1, h2, h3⟩ := C106_keeps U hn
      exact ⟨h1, h2, h3⟩
  exact key _ h

/-! Goroutines. -/

theorem uni_streamParts {R : Shared → Shared → Prop} (hR : Equivalence R) {ρ : Nat → Prop}
    (hmem : ∀ sh sh', R sh sh' → SameFor ρ sh sh') {env : Env} {B : Bodies} {q : Action → Prop}
    (hq : QuietBodies R env B q ρ) (fuel : Nat) : (t : List Part) → (∀ n pl, .call n pl ∈ t → NodeCalls q ρ n) →
    Uni R (fun c => HeapUses q ρ c.dl) (NodeCalls q ρ) (Respects R (fun c => HeapUses q ρ c.dl) (NodeCalls q ρ) env) (execParts (renderWith B fuel) t)
  | [], _ => .ret _
  | .text x :: ps, h => by
    have ih := uni_streamParts hR hmem hq fuel ps fun n pl hn => h n pl (.tail _ hn)
    refine .bind (.act (a := .write x) ((uniTree_calling hR hmem hq).write _) trivial) fun r => ?_
    cases r.2 with
    | none => exact ih
    | some e => exact .ret _
  | .call n pl :: ps, h => by
    have ih := uni_streamParts hR hmem hq fuel ps fun n pl hn => h n pl (.tail _ hn)
    refine .bind (uni_renderWith hR hmem hq fuel n (h n pl (.head _))) fun e => ?_
    cases e with
    | some e => exact .ret _
    | none =>
      refine .bind (.act (a := .write _) ((uniTree_calling hR hmem hq).write _) trivial) fun r => ?_
      cases r.2 with
      | none => exact ih
      | some e => exact .ret _

section
variable {ι : Type} [DecidableEq ι] {R : Shared → Shared → Prop} (hR : Equivalence R) {ρ : Nat → Prop}
  (hmem : ∀ sh sh', R sh sh' → SameFor ρ sh sh')
  (ts : ι → List Part) (data : ι → Option MapId) (cargo : ι → Any) (envs : ι → Env) (B : ι → Bodies) (own : ι → Local) (sh : Shared)
  (q : ι → Action → Prop) (hq : ∀ i, QuietBodies R (envs i) (B i) (q i) ρ)
  (hn : ∀ i n p, .call n p ∈ ts i → NodeCalls (q i) ρ n)
  (hh : ∀ i, HeapUses (q i) ρ sh.dl) (fuel : ι → Nat)
include hR hmem hq hn hh

theorem alone_executing (moves : List (Move ι)) (hm : ∀ m ∈ moves, Harmless R m) :
    (∀ i, Alone R (fun c => HeapUses (q i) ρ c.dl) (NodeCalls (q i) ρ) (envs i)
      (execParts (renderWith (B i) (fuel i)) (ts i)) (templateStart (joinSt (own i) sh) (data i) (cargo i)) (turns i moves)
      (((Stream.executeAll ts data cargo envs B fuel own sh).run moves).threads i)
      ((Stream.executeAll ts data cargo envs B fuel own sh).run moves).shared) ∧
    R sh ((Stream.executeAll ts data cargo envs B fuel own sh).run moves).shared := by
  have := alone_run (I := fun i c => HeapUses (q i) ρ c.dl) (N := fun i => NodeCalls (q i) ρ) hR (fun i s s' hs h r hr => by
      have : s.dl r = s'.dl r := (hmem _ _ hs).2 r hr
      rw [← this]; exact h r hr)
    (progs := fun i => execParts (renderWith (B i) (fuel i)) (ts i))
    (s₀ := fun i => templateStart (joinSt (own i) sh) (data i) (cargo i)) moves hm
    (Stream.executeAll ts data cargo envs B fuel own sh) (fun _ => 0) (envs := envs) (fun i =>
      ⟨rfl, uni_streamParts hR hmem (hq i) _ _ (hn i), _, rfl, hR.refl _, rfl, hh i, Or.inl rfl⟩)
  exact ⟨fun i => by simpa using this.1 i, this.2⟩

/-- Goroutines (any number of them) execute templates at the same time, each with its own writer, data and cargo; it may
be the same template, and templates may share nodes.  Whatever the interleaving of their steps, and whatever other code
does meanwhile to memory that does not matter (`R`): an `Execute` that has returned has returned the error, and made the
calls to its writer, that it would have alone.  (The user functions may write and render; they are `QuietBodies`, as in C103.) -/
theorem C107_alone (moves : List (Move ι)) (hm : ∀ m ∈ moves, Harmless R m) (i : ι) (e : Option Err)
    (he : (((Stream.executeAll ts data cargo envs B fuel own sh).run moves).threads i).prog = .pure e) :
    ∃ s', Executing (envs i) (B i) (ts i) (data i) (cargo i) (joinSt (own i) sh) e s' ∧
      s'.own = (((Stream.executeAll ts data cargo envs B fuel own sh).run moves).threads i).own := by
  obtain ⟨h1, h2, s, h3, h4, h5, -⟩ := (alone_executing hR hmem ts data cargo envs B own sh q hq hn hh fuel moves hm).1 i
  refine ⟨s, ⟨fuel i, ?_⟩, h3⟩
  rw [he] at h5
  exact h5.symm

/-- The executions leave the shared memory alone. -/
theorem C107_memory (moves : List (Move ι)) (hm : ∀ m ∈ moves, Harmless R m) :
    R sh ((Stream.executeAll ts data cargo envs B fuel own sh).run moves).shared :=
  (alone_executing hR hmem ts data cargo envs B own sh q hq hn hh fuel moves hm).2

/-- An execution that would end alone ends, after a number of steps that does not depend on the others. -/
theorem C107_finishes (i : ι) {e : Option Err} {s' : St}
    (hr : executeWith (envs i) (B i) (fuel i) (ts i) (data i) (cargo i) (joinSt (own i) sh) = some (e, s')) :
    ∃ k, ∀ moves, (∀ m ∈ moves, Harmless R m) → k ≤ turns i moves →
      (((Stream.executeAll ts data cargo envs B fuel own sh).run moves).threads i).prog = .pure e ∧
      (((Stream.executeAll ts data cargo envs B fuel own sh).run moves).threads i).own = s'.own := by
  refine ⟨execSteps (envs i) (execParts (renderWith (B i) (fuel i)) (ts i)) (templateStart (joinSt (own i) sh) (data i) (cargo i)),
    fun moves hm hk => ?_⟩
  obtain ⟨h1, h2, s, h4, -, h5, -, h3⟩ := (alone_executing hR hmem ts data cargo envs B own sh q hq hn hh fuel moves hm).1 i
  have h6 := h5.trans hr
  generalize (((Stream.executeAll ts data cargo envs B fuel own sh).run moves).threads i).prog = p at *
  cases h2 with
  | pure a => cases h6; exact ⟨rfl, h4.symm⟩
  | stuck => cases h6
  | step a k hp he hu =>
    have e : execSteps (envs i) (Prog.step a k) s =
      1 + execSteps (envs i) (k (a.run (envs i) s).1) (a.run (envs i) s).2 := rfl
    omega

end

/-! Panics. -/

/-- In a template, a panic while a node is rendered does not reach the caller of `Execute`: it returns an error, and the
parts after that node are not executed. -/
theorem C107_panic_error {env : Env} {p : Panics} {B : Bodies} {pe : Err} {before after : List Part} {n : Node} {data : Option MapId}
    {cargo : Any} {s s₁ s₂ : St} (place : Place)
    (h : ExecutingEnds env p B pe before data cargo s (.returned none s₁)) (hn : Panicking env p B n s₁ s₂) :
    ExecutingEnds env p B pe (before ++ .call n place :: after) data cargo s (.returned (some pe) s₂) := by
  obtain ⟨f, h⟩ := h
  obtain ⟨f', hn⟩ := hn
  refine ⟨max f f', ?_⟩
  unfold executePanics at h ⊢
  rw [Stream.partsPanics_append _ _ (Stream.partsPanics_fuel (Nat.le_max_left f f') _ h)]
  simp only [Stream.partsPanics, (le_renderWith B (Nat.le_max_right f f') n).execPanics hn]

/-- `Execute` panics only if the writer does. -/
theorem C107_panic_returns {env : Env} {p : Panics} {B : Bodies} {pe : Err} {t : List Part} {data : Option MapId} {cargo : Any}
    {s s' : St} (hp : ∀ d s, p (.write d) s = none) : ¬ ExecutingEnds env p B pe t data cargo s (.panicked s') := by
  rintro ⟨f, h⟩
  exact Stream.partsPanics_panicked hp _ h

/-- `Execute` ends as it would without panics, or with the error that text/template makes of a panic (or, if the writer
panics, with a panic); in the latter cases the output is a prefix of what it would have been. -/
theorem C107_panic_prefix {env : Env} {p : Panics} {B : Bodies} {pe : Err} {t : List Part} {data : Option MapId} {cargo : Any}
    {s s₂ : St} {e₂ : Option Err} {o : Outcome (Option Err)} (h : ExecutingEnds env p B pe t data cargo s o)
    (h₂ : Executing env B t data cargo s e₂ s₂) :
    o = .returned e₂ s₂ ∨ ∃ s', (o = .returned (some pe) s' ∨ o = .panicked s') ∧ s'.log <+: s₂.log := by
  obtain ⟨f, h⟩ := h
  obtain ⟨f', h₂⟩ := h₂
  have h1 := Stream.partsPanics_fuel (Nat.le_max_left f f') _ h
  have h3 : exec env (execParts (renderWith B (max f f')) t) (templateStart s data cargo) = some (e₂, s₂) :=
    (Le.execParts (fun n => le_renderWith B (Nat.le_max_right f f') n) t).exec h₂
  have h4 := Stream.partsPanics_log t h1 h3
  cases o with
  | returned e s' =>
    rcases h4 with ⟨rfl, rfl⟩ | ⟨rfl, h4⟩
    · exact .inl rfl
    · exact .inr ⟨s', .inl rfl, h4⟩
  | panicked s' => exact .inr ⟨s', .inr rfl, h4⟩

/-! A template around an element whose functions write and render (see `written`). -/

def writtenParts : List Part := [.text b%"<p>", .call (told 6) .text, .text b%"</p>", .call (told 2) .unquoted, .call (told 0) .quoted]

theorem built_writtenParts : ∀ n p, .call n p ∈ writtenParts → Built n := by
  intro n p h
  simp only [writtenParts, List.mem_cons, reduceCtorEq, Part.call.injEq, false_or, List.not_mem_nil, or_false] at h
  rcases h with ⟨rfl, -⟩ | ⟨rfl, -⟩ | ⟨rfl, -⟩ <;> exact .text _ _

/-- Function 2 finds the 13 bytes of text and of the first node. -/
theorem executing_written : ∃ s', Executing writingEnv (bodiesOf writing) writtenParts none .nil Sample.st none s' ∧
    s'.out = Sample.st.out ++ b%"<p>((ab))</p>13ZgotmplZab" := ⟨_, ⟨9, rfl⟩, by decide +kernel⟩

example : ∃ s', StreamsParts writing writtenParts (tape (startedWith Sample.st none .nil)) (tape s') := by
  obtain ⟨s', h, -⟩ := executing_written
  exact ⟨s', (C107_output healthy_writing behaves_writing calm_writing built_writtenParts h).2⟩

/-- A template around an element that two goroutines render at the same time (see `busyNode`). -/
def busyParts : List Part := [.text b%"<div>", .call busyNode .text, .text b%"</div>"]

theorem busyParts_met : ∀ n p, .call n p ∈ busyParts → n = busyNode := by
  intro n p h
  simp only [busyParts, List.mem_cons, reduceCtorEq, Part.call.injEq, false_or, List.not_mem_nil, or_false] at h
  exact h.1

example (data : Option MapId) (cargo : Any) (s : St) (hs : s.dl = twoShared.dl) :=
  C107_ends busy_steady (t := busyParts) (fun n p h => busyParts_met n p h ▸ busy_founded) data cargo (s := s) (hs ▸ busy_heap)

example (data : Bool → Option MapId) (moves : List (Move Bool)) (hm : ∀ m ∈ moves, Harmless (SameFor fun r => r = 0) m) :=
  C107_alone (sameFor_equivalence fun r => r = 0) (fun _ _ h => h) (fun _ => busyParts) data (fun _ => .nil)
    (fun _ => Sample.env) (fun _ => busyBodies) twoOwn twoShared (fun _ => busyFns) (fun _ => busy_met.1)
    (fun _ n p h => busyParts_met n p h ▸ busy_met.2.1) (fun _ => busy_met.2.2) (fun _ => 4) moves hm

/-- Both finish, each with its own output. -/
example : (fun (m : Machine Bool) => (accepted (m.threads true).own.log, accepted (m.threads false).own.log))
    ((Stream.executeAll (fun _ => busyParts) (fun i => some (if i then 1 else 0)) (fun _ => .nil) (fun _ => Sample.env)
      (fun _ => busyBodies) (fun _ => 4) twoOwn twoShared).run (busyMoves ++ twoMoves)) =
    (b%"<div><p class=\"a b\">d<p class=\"a b\">y</p>e?c+<p class=\"a b\">y</p>1n<p class=\"a b\">y</p></p></div>",
     b%"<div><p class=\"a b\">d<p class=\"a b\">x</p>e?c+<p class=\"a b\">x</p>1n<p class=\"a b\">x</p></p></div>") := by
  decide +kernel

/-- A template with a list in which a function panics (see `boomNode`). -/
theorem executing_boom : ∃ s', ExecutingEnds Sample.env boom boomBodies 9 ([.text b%"<div>"] ++ .call boomNode .text :: [.text b%"</div>"])
    none .nil Sample.st (.returned (some 9) s') ∧ s'.out = Sample.st.out ++ b%"<div><ul><li>-a!</li><li>-" :=
  ⟨_, ⟨5, rfl⟩, by decide +kernel⟩

example {e : Option Err} {s' : St} (h : Executing Sample.env boomBodies [.call boomNode .text] (some 3) .nil Sample.st e s') :=
  C107_items boom_items.1 h

end Aitch.Props
