import Verif.Proofs.StreamErrors
import Verif.Proofs.StreamOwn
import Verif.Props.Stream
import Verif.Props.Errors
/-
C101: failing writers, when user functions themselves write to the context and render nodes with it.
-/
namespace Aitch.Props
open Spec Spec.Stream Aitch.Stream

/-! ### C101 — a crash leaves a prefix, and is reported -/

/-- The same render, once with a writer that crashes at some point and once with a healthy one: what the first accepted is
a prefix of what the second accepted.  For all user functions, whatever they write and render, also after the crash. -/
theorem C101_prefix (env : Env) (B : Bodies) (write : List WEvent → Bytes → Nat × Option Err) (C : Crashes write) (n : Node)
    (s s₁ s₂ : St) (e₁ e₂ : Option Err) (h₁ : Ends (withWriter env write) B n s e₁ s₁)
    (h₂ : Ends (withWriter env healthyWriter) B n s e₂ s₂) : s₁.out <+: s₂.out := by
  obtain ⟨f₁, h₁⟩ := h₁
  obtain ⟨f₂, h₂⟩ := h₂
  exact exec_prefix C ((le_renderWith B (Nat.le_max_left f₁ f₂) n).exec h₁)
    ((le_renderWith B (Nat.le_max_right f₁ f₂) n).exec h₂)

/-- The full claim: if the writer stays failed, and user functions never clear `ctx.Error` and set it when a write of their
own fails, then a failed write makes Render return an error. -/
def C101_claim : Prop := ∀ (env : Env) (B : Bodies) (n : Node) (s s' : St) (e : Option Err), Built n →
  StaysFailed env.write → Spec.Stream.Careful env B → NoNilImp n → ¬ Failed s.log → Ends env B n s e s' → Failed s'.log →
  e ≠ none

/-- Functions that write a colon, note the error of that, and return something; those given to `Iterate` return no items. -/
def notesFailure {α : Type} (a : α) : FnProg α := .write b%":" fun r _ =>
  match r.2 with
  | none => .ret a
  | some e => .user (·.setErr (some e)) fun _ => .ret a

theorem careful_notesFailure {α : Type} {P : α → Prop} {a : α} (h : P a) : CarefulFn P (notesFailure a) :=
  .write (fun _ _ => .ret h) fun _ _ _ => .user (fun _ => by simp [St.setErr]) fun _ => .ret h

/-- A function given to `IterateYield` that yields, renders, writes with care and goes on. -/
def notingYield : YieldBody := .yield (.str b%"x") fun _ => .render (.text [.mk b%"r" none []]) fun _ _ =>
  .write b%"," fun r _ =>
    match r.2 with
    | none => .yield (.str b%"y") fun _ => .done
    | some e => .user (·.setErr (some e)) fun _ => .yield (.str b%"z") fun _ => .done

theorem careful_notingYield : CarefulBody notingYield :=
  .yield fun _ => .render trivial fun _ _ => .write (fun _ _ => .yield fun _ => .done)
    fun _ _ _ => .user (fun _ => by simp [St.setErr]) fun _ => .yield fun _ => .done

/-- Functions of all kinds that write with care. -/
def notingBodies : Bodies where
  dyn _ _ := notesFailure b%"d"
  cond _ _ := notesFailure true
  collect _ _ := notesFailure [some (.text [.mk b%"c" none []]), none]
  items _ _ := notesFailure []
  yields _ _ := notingYield

/-- The same, but the function of `Iterate` only returns items. -/
def notingQuiet : Bodies := { notingBodies with items := fun _ _ => .ret [.str b%"i"] }

/-- `Imperative` functions that write with care. -/
def notingEnv (write : List WEvent → Bytes → Nat × Option Err) : Env :=
  { Sample.env with write := write, imp := fun _ _ => notingImp }

theorem noNil_notingImp : NoNilImpCalls notingImp := by
  refine .write fun r _ => ?_
  rcases r with ⟨n, _ | e⟩
  · exact .call (fun _ _ h => by cases h) fun _ => .ret
  · exact .user fun _ => .call (fun _ _ h => by cases h) fun _ => .ret

theorem careful_notingBodies (write : List WEvent → Bytes → Nat × Option Err) :
    Spec.Stream.Careful (notingEnv write) notingBodies where
  dyn _ _ := careful_notesFailure trivial
  cond _ _ := careful_notesFailure trivial
  collect _ _ := careful_notesFailure fun n hn => by
    have : n = .text [.mk b%"c" none []] := by simpa using hn
    subst this
    trivial
  items _ _ := careful_notesFailure trivial
  yields _ _ := careful_notingYield
  imp _ s := carefulImp_noting s
  calls _ _ := noNil_notingImp

theorem careful_notingQuiet (write : List WEvent → Bytes → Nat × Option Err) :
    Spec.Stream.Careful (notingEnv write) notingQuiet :=
  { careful_notingBodies write with items := fun _ _ => .ret trivial }

/-- The claim is false: `Iterate` does not look at `ctx.Error` when its function returns no items. -/
theorem C101_false : ¬ C101_claim := by
  intro h
  refine h (notingEnv fun _ _ => (0, some 7)) notingBodies (.iterator [] (.user 0)) Sample.st _ none
    (.iterate (some 0) [] _ nofun rfl) (fun _ _ _ => by simp [notingEnv]) (careful_notingBodies _) trivial ?_ ⟨1, rfl⟩ ?_ rfl
  · rintro ⟨e, he, -⟩; cases he
  · exact (failed_iff _).2 rfl

/-- What holds: the claim, when the functions given to `Iterate` do not write.  All others may write and render, with
nodes whose functions write and render in turn. -/
theorem C101_reported_partial {env : Env} {B : Bodies} (S : StaysFailed env.write) (C : Spec.Stream.Careful env B)
    (Qi : QuietItems B) {n : Node} (hn : NoNilImp n) {s s' : St} {e : Option Err} (hs : ¬ Failed s.log)
    (hr : Ends env B n s e s') (hf : Failed s'.log) : e ≠ none := by
  obtain ⟨fuel, hr⟩ := hr
  exact (Trip.renderWith S C Qi fuel n hn s e s' (fun h => (hs h).elim) hr).2 hf

/-- ... and `ctx.Error` is set as well, for what is rendered next with the same context. -/
theorem C101_noted_partial {env : Env} {B : Bodies} (S : StaysFailed env.write) (C : Spec.Stream.Careful env B)
    (Qi : QuietItems B) {n : Node} (hn : NoNilImp n) {s s' : St} {e : Option Err} (hs : ¬ Failed s.log)
    (hr : Ends env B n s e s') (hf : Failed s'.log) : s'.frame.err ≠ none := by
  obtain ⟨fuel, hr⟩ := hr
  exact (Trip.renderWith S C Qi fuel n hn s e s' (fun h => (hs h).elim) hr).1 hf

/-- Errors are not made up, with any writer.  If the user functions bring no errors of their own — they may pass on those of
their writes and of the nodes they render, and may also forget them — then the error Render returns and the one in
`ctx.Error` afterwards are errors that the writer returned. -/
theorem C101_returned {env : Env} {B : Bodies} (H : Spec.Stream.Honest env B) {n : Node} {s s' : St} {e : Option Err}
    (hs : s.frame.err = none) (hp : s.parents = []) (hr : Ends env B n s e s') :
    (∀ x, e = some x → Returned s'.log x) ∧ ∀ x, s'.frame.err = some x → Returned s'.log x := by
  obtain ⟨fuel, hr⟩ := hr
  obtain ⟨h1, h2⟩ := KO.renderWith H fuel n s e s' ⟨fun x hx => (by rw [hs] at hx; cases hx), fun f hf => (by
    rw [hp] at hf; cases hf)⟩ hr
  exact ⟨h2, h1.1⟩

/-- With a writer that keeps returning the error of its first failure: `ctx.Error` and the error Render returns are the
first error of the rendering (nil if no write failed), under the conditions of the other two. -/
theorem C101_first_partial {env : Env} {B : Bodies} (W : Repeats env.write) (H : Spec.Stream.Honest env B)
    (C : Spec.Stream.Careful env B) (Qi : QuietItems B) {n : Node} (hn : NoNilImp n) {s s' : St} {e : Option Err}
    (hs : s.frame.err = none) (hp : s.parents = []) (hl : s.log = []) (hr : Ends env B n s e s') :
    s'.frame.err = firstErr s'.log ∧ e = firstErr s'.log := by
  have hf : ¬ Failed s.log := by rw [hl]; rintro ⟨_, h, _⟩; cases h
  obtain ⟨h1, h2⟩ := C101_returned H hs hp hr
  have h3 := C101_reported_partial (staysFailed_of_repeats W) C Qi hn hf hr
  have h4 := C101_noted_partial (staysFailed_of_repeats W) C Qi hn hf hr
  obtain ⟨fuel, hr⟩ := hr
  have h5 : OneErr s'.log := exec_oneErr W (s := s) (fun x hx => by rw [hl] at hx; obtain ⟨_, h, _⟩ := hx; cases h) hr
  have key : ∀ o : Option Err, (∀ x, o = some x → Returned s'.log x) → (Failed s'.log → o ≠ none) →
      o = firstErr s'.log := by
    intro o ho hf
    cases o with
    | none =>
      cases h : firstErr s'.log with
      | none => rfl
      | some x => exact (hf ((failed_iff_firstErr _).2 (by rw [h]; simp)) rfl).elim
    | some x => exact (h5 x (ho x rfl)).symm
  exact ⟨key _ h2 h4, key _ h1 h3⟩

/-- A writer that accepts a number of writes, and one byte of the next. -/
def someWriter (k : Nat) (log : List WEvent) (d : Bytes) : Nat × Option Err :=
  if log.any (·.err.isSome) then (0, some 7) else if log.length < k then (d.length, none) else (1, some 7)

theorem crashes_someWriter (k : Nat) : Crashes (someWriter k) := by
  refine ⟨fun log d hf he => ?_, fun log d hf => ?_⟩
  · rw [failed_iff] at hf
    unfold someWriter at he ⊢
    rw [if_neg hf] at he ⊢
    split at he
    · rw [if_pos (by assumption)]
    · cases he
  · rw [failed_iff] at hf
    unfold someWriter
    rw [if_pos hf]
    simp

/-- All kinds of nodes that call functions. -/
def noted : Node := .element ⟨b%"p", [], [], []⟩ [told 0, .iterator [told 0] (.user 0), .yieldIterator [told 1] 0,
  .collector 0, .conditional [told 2] [] (.user 0), .imperative (some 0)]

theorem noNil_noted : NoNilImp noted := ⟨trivial, ⟨trivial, trivial⟩, ⟨trivial, trivial⟩, trivial, ⟨trivial, trivial⟩,
  ⟨nofun, trivial⟩⟩

/-- Without a crash; and with a crash at the comma that the function of `IterateYield` writes. -/
example : ((exec (notingEnv (someWriter 99)) (renderWith notingQuiet 4 noted) Sample.st).map fun p => (p.1, p.2.out)) =
    some (none, b%"<p>:d:d:dr,:d:c::drawx</p>") ∧
  ((exec (notingEnv (someWriter 10)) (renderWith notingQuiet 4 noted) Sample.st).map fun p => (p.1, p.2.out)) =
    some (some 7, b%"<p>:d:d:dr,") := by
  decide +kernel

example : ∃ s', Ends (notingEnv (someWriter 10)) notingQuiet noted Sample.st (some 7) s' ∧ Failed s'.log := by
  have h : ((exec (notingEnv (someWriter 10)) (renderWith notingQuiet 4 noted) Sample.st).map fun p =>
      (p.1, p.2.log.any (·.err.isSome))) = some (some 7, true) := by decide +kernel
  cases hx : exec (notingEnv (someWriter 10)) (renderWith notingQuiet 4 noted) Sample.st with
  | none => rw [hx] at h; cases h
  | some p =>
    rw [hx] at h
    obtain ⟨e, s'⟩ := p
    simp only [Option.map_some, Option.some.injEq, Prod.mk.injEq] at h
    obtain ⟨rfl, h⟩ := h
    exact ⟨s', ⟨4, hx⟩, (failed_iff _).2 h⟩

example {s' : St} {e : Option Err} (k : Nat) (hr : Ends (notingEnv (someWriter k)) notingQuiet noted Sample.st e s')
    (hf : Failed s'.log) : e ≠ none ∧ s'.frame.err ≠ none := by
  have S : StaysFailed (notingEnv (someWriter k)).write := fun log d h => ((crashes_someWriter k).after log d h).2
  have hs : ¬ Failed Sample.st.log := by rintro ⟨e, he, -⟩; cases he
  exact ⟨C101_reported_partial S (careful_notingQuiet _) (fun _ _ => .ret) noNil_noted hs hr hf,
    C101_noted_partial S (careful_notingQuiet _) (fun _ _ => .ret) noNil_noted hs hr hf⟩

example {s₁ s₂ : St} {e₁ e₂ : Option Err} (k : Nat) (h₁ : Ends (withWriter writingEnv (someWriter k)) (bodiesOf writing)
    written Sample.st e₁ s₁) (h₂ : Ends (withWriter writingEnv healthyWriter) (bodiesOf writing) written Sample.st e₂ s₂) :
    s₁.out <+: s₂.out := C101_prefix writingEnv (bodiesOf writing) (someWriter k) (crashes_someWriter k) written _ _ _ _ _ h₁ h₂

theorem honest_notesFailure {α : Type} (a : α) (s : St) : HonestFn s (notesFailure a) :=
  .write fun r s hr => by
    rcases r with ⟨n, _ | e⟩
    · exact .ret
    · exact .user (fun x hx => .inr (hr x (by simpa [St.setErr] using hx))) fun _ => .ret

theorem honest_notingYield (s : St) : HonestBody s notingYield :=
  .yield fun _ => .render fun _ _ _ => .write fun r s hr => by
    rcases r with ⟨n, _ | e⟩
    · exact .yield fun _ => .done
    · exact .user (fun x hx => .inr (hr x (by simpa [St.setErr] using hx))) fun _ => .yield fun _ => .done

theorem honest_notingBodies (write : List WEvent → Bytes → Nat × Option Err) :
    Spec.Stream.Honest (notingEnv write) notingBodies where
  dyn _ s := honest_notesFailure _ s
  cond _ s := honest_notesFailure _ s
  collect _ s := honest_notesFailure _ s
  items _ s := honest_notesFailure _ s
  yields _ s := honest_notingYield s
  imp _ s := honestImp_noting s

theorem honest_notingQuiet (write : List WEvent → Bytes → Nat × Option Err) :
    Spec.Stream.Honest (notingEnv write) notingQuiet :=
  { honest_notingBodies write with items := fun _ _ => .ret }

example {s' : St} {e : Option Err} (write : List WEvent → Bytes → Nat × Option Err)
    (hr : Ends (notingEnv write) notingBodies noted Sample.st e s') :=
  C101_returned (honest_notingBodies write) rfl rfl hr

example {s' : St} {e : Option Err} (hr : Ends (notingEnv breaks.write) notingQuiet noted Sample.st e s') :
    s'.frame.err = firstErr s'.log ∧ e = firstErr s'.log :=
  C101_first_partial (fun log d e h => by simp [notingEnv, breaks, h])
    (honest_notingQuiet _) (careful_notingQuiet _) (fun _ _ => .ret) noNil_noted
    rfl rfl rfl hr

/-- After two writes the writer breaks, in the tag. -/
example : ((exec (notingEnv breaks.write) (renderWith notingQuiet 4 noted) Sample.st).map fun p =>
    (p.1, p.2.out, p.2.frame.err, firstErr p.2.log)) = some (some 7, b%"<p>", some 7, some 7) := by
  decide +kernel

end Aitch.Props
