import Verif.Proofs.Surface
import Verif.Proofs.LastError
import Verif.Proofs.OwnErrors
import Verif.Proofs.Built
import Verif.Proofs.Fuel
import Verif.Spec.Sample
/-
C21-C24, C77: errors of the writer and of Imperative functions.
-/
namespace Aitch.Props
open Spec

/-! ### C21 — Context.Write stops at the first error -/

/-- Several calls of `ctx.Write`. -/
def writeSeq : List Bytes → Prog Unit
  | [] => pure ()
  | d :: ds => do
    ctxWrite d
    writeSeq ds

/-- With `ctx.Error` set, no call of `ctx.Write` reaches the writer or changes anything. -/
theorem C21_after (env : Env) (ds : List Bytes) (s : St) (h : s.frame.err ≠ none) :
    exec env (writeSeq ds) s = some ((), s) := by
  induction ds with
  | nil => rfl
  | cons d ds ih =>
    unfold writeSeq
    rw [exec_bind, exec_ctxWrite]
    cases he : s.frame.err with
    | none => exact (h he).elim
    | some e => exact ih

example := C21_after Sample.env [b%"a", b%"b"] { Sample.st with frame := { Sample.st.frame with err := some 7 } } (by simp)

/-- Calls of `ctx.Write` on a context without error: the writer sees the data in order; all writes but the last succeed;
if some call did not reach the writer then the last write failed; and `ctx.Error` is the error of the last write. -/
theorem C21_sequence (env : Env) (ds : List Bytes) (s : St) (h : s.frame.err = none) :
    ∃ s' evs, exec env (writeSeq ds) s = some ((), s') ∧ s'.log = s.log ++ evs ∧ evs.map (·.data) <+: ds ∧
      (∀ e ∈ evs.dropLast, e.err = none) ∧ (evs.map (·.data) = ds ∨ ∃ e ∈ evs.getLast?, e.err ≠ none) ∧
      s'.frame.err = evs.getLast?.bind (·.err) := by
  induction ds generalizing s with
  | nil => exact ⟨s, [], rfl, by simp, by simp, by simp, by simp, by simp [h]⟩
  | cons d ds ih =>
    unfold writeSeq
    rw [exec_bind, exec_ctxWrite, h]
    simp only [Option.bind_some]
    cases hw : (env.write s.log d).2 with
    | some e =>
      refine ⟨_, [⟨d, (env.write s.log d).1, some e⟩], C21_after _ _ _ ?_, ?_, ?_, ?_, ?_, ?_⟩
      · simp [St.setErr]
      · simp [St.setErr, St.wrote, hw]
      · simp
      · simp
      · exact Or.inr ⟨_, rfl, by simp⟩
      · simp [St.setErr]
    | none =>
      obtain ⟨s', evs, h1, h2, h3, h4, h5, h6⟩ := ih ((s.wrote d (env.write s.log d)).setErr none) rfl
      refine ⟨s', ⟨d, (env.write s.log d).1, none⟩ :: evs, h1, ?_, ?_, ?_, ?_, ?_⟩
      · rw [h2]; simp [St.setErr, St.wrote, hw]
      · simpa using h3
      · intro e he
        cases evs with
        | nil => simp at he
        | cons x xs =>
          rw [List.dropLast_cons_of_ne_nil (by simp)] at he
          rcases List.mem_cons.1 he with rfl | he
          · rfl
          · exact h4 e he
      · rcases h5 with h5 | ⟨e, h5, h7⟩
        · left; simp [h5]
        · right
          refine ⟨e, ?_, h7⟩
          cases evs with
          | nil => simp at h5
          | cons x xs => rw [List.getLast?_cons_cons]; exact h5
      · rw [h6]
        cases evs with
        | nil => rfl
        | cons x xs => rw [List.getLast?_cons_cons]

/-- A writer that accepts two writes only, and one byte of the third. -/
def twoWriter (log : List WEvent) (d : Bytes) : Nat × Option Err :=
  if log.any (·.err.isSome) then (0, some 7) else if log.length < 2 then (d.length, none) else (1, some 7)

/-- The sample environment with this writer. -/
def twoWrites : Env := { Sample.env with write := twoWriter }

theorem failed_iff (log : List WEvent) : Failed log ↔ log.any (·.err.isSome) = true := by
  rw [List.any_eq_true]
  constructor
  · rintro ⟨e, h1, h2⟩; exact ⟨e, h1, Option.isSome_iff_ne_none.2 h2⟩
  · rintro ⟨e, h1, h2⟩; exact ⟨e, h1, Option.isSome_iff_ne_none.1 h2⟩

theorem crashes_twoWriter : Crashes twoWriter := by
  refine ⟨fun log d hf he => ?_, fun log d hf => ?_⟩
  · rw [failed_iff] at hf
    unfold twoWriter at he ⊢
    rw [if_neg hf] at he ⊢
    split at he
    · rw [if_pos (by assumption)]
    · cases he
  · rw [failed_iff] at hf
    unfold twoWriter
    rw [if_pos hf]
    simp

example : ∃ s', exec twoWrites (writeSeq [b%"a", b%"b", b%"c", b%"d"]) Sample.st = some ((), s') ∧
    s'.out = b%"abc" ∧ s'.log.length = 3 ∧ s'.frame.err = some 7 := ⟨_, rfl, rfl, rfl, rfl⟩

/-! ### C22 — a failed write is reported by Render (false in general) -/

/-- The full claim. -/
def C22_claim : Prop := ∀ (env : Env) (n : Node) (s s' : St) (e : Option Err), Built n → s.frame.err = none →
  ¬ Failed s.log → Runs env n s e s' → Failed s'.log → e ≠ none

/-- A writer whose first write fails and which then recovers. -/
def firstFails : Env := { Sample.env with write := fun log d => if log.length < 1 then (0, some 7) else (d.length, none) }

/-- The claim is false for writers that recover: the second value of a text overwrites the error of the first. -/
theorem C22_false : ¬ C22_claim := by
  intro h
  refine h firstFails (Text (fun _ => []) [.str b%"a", .str b%"b"]) Sample.st _ none (.text _ _) rfl ?_ ⟨1, rfl⟩ ?_ rfl
  · rintro ⟨e, he, -⟩; cases he
  · exact ⟨⟨b%"a", 0, some 7⟩, List.mem_cons_self .., by simp⟩

/-- The claim restricted to writers that stay failed. -/
def C22_stays_claim : Prop := ∀ (env : Env) (n : Node) (s s' : St) (e : Option Err), Built n →
  StaysFailed env.write → s.frame.err = none → ¬ Failed s.log → Runs env n s e s' → Failed s'.log → e ≠ none

/-- A writer that always fails. -/
def alwaysFails : Env := { Sample.env with write := fun _ _ => (0, some 7) }

/-- Also this is false: an Imperative function that does not look at `ctx.Error` hides the failure. -/
theorem C22_stays_false : ¬ C22_stays_claim := by
  intro h
  refine h alwaysFails (Imperative (some 0)) Sample.st _ none (.imperative _) ?_ rfl ?_ ⟨1, rfl⟩ ?_ rfl
  · intro log d _; simp [alwaysFails]
  · rintro ⟨e, he, -⟩; cases he
  · exact ⟨⟨b%"<", 0, some 7⟩, List.mem_cons_self .., by simp⟩

/-- What holds: if the writer stays failed, user functions do not clear `ctx.Error` and set it when a write of their own
fails, and Imperative functions are not nil and return an error when `ctx.Error` is set, then a failed write makes Render return an error — for every node, also
with other user functions that change the state or supply nodes. -/
theorem C22_partial {env : Env} (S : StaysFailed env.write) (C : Careful env) (N : NoNilImpFns env) {n : Node}
    (hn : NoNilImp n) {s s' : St} {e : Option Err} (hs : ¬ Failed s.log)
    (hr : Runs env n s e s') (hf : Failed s'.log) : e ≠ none := by
  obtain ⟨fuel, hr⟩ := hr
  exact (Trip.renderProg S C N fuel n hn s e s' (fun h => (hs h).elim) hr).2 hf

/-- `twoWrites` with an Imperative function that returns `ctx.Error`. -/
def carefulEnv : Env := { twoWrites with
  imp := fun _ _ => .call (.writeString b%"x") fun s => .ret s.frame.err }

theorem carefulYield_yieldsOf : (its : List Any) → CarefulYield (yieldsOf its)
  | [] => .done
  | _ :: its => .yield fun _ => carefulYield_yieldsOf its

example : StaysFailed carefulEnv.write ∧ Careful carefulEnv ∧ NoNilImpFns carefulEnv := by
  refine ⟨fun log d h => (crashes_twoWriter.after log d h).2, ⟨fun _ _ h => h, fun _ _ h => h, fun _ _ h => h,
    fun _ _ h => h, fun _ _ => carefulYield_yieldsOf _, fun _ _ => .call fun _ => .ret fun h => h⟩, ⟨?_, ?_⟩⟩
  · intro f s n hn
    change some n ∈ (if f = 0 then _ else _) at hn
    split at hn
    · simp at hn; subst hn; trivial
    · simp at hn
  · exact fun _ _ => .call (fun _ _ h => by cases h) fun _ => .ret

/-- A function given to `IterateYield` that calls `ctx.Write(sep)` before each item but the first, and returns when that
fails. -/
def separatingCarefully (sep : Bytes) : List Any → YieldProg
  | [] => .done
  | it :: its => .write sep fun r _ =>
    match r.2 with
    | none => .yield it fun _ => separatingCarefully sep its
    | some e => .user (·.setErr (some e)) fun _ => .done

theorem carefulYield_separating (sep : Bytes) : (its : List Any) → CarefulYield (separatingCarefully sep its)
  | [] => .done
  | _ :: its => .write (fun _ _ => .yield fun _ => carefulYield_separating sep its)
    fun _ _ _ => .user (fun _ => by simp [St.setErr]) fun _ => .done

/-- Careful functions that write. -/
def listEnv : Env := { carefulEnv with yields := fun _ _ => .yield (.str b%"a") fun _ => separatingCarefully b%", " [.str b%"b", .str b%"c"] }

example : StaysFailed listEnv.write ∧ ∀ f s, CarefulYield (listEnv.yields f s) :=
  ⟨fun log d h => (crashes_twoWriter.after log d h).2, fun _ _ => .yield fun _ => carefulYield_separating _ _⟩

/-- An Imperative function that uses the writer, notes its error, and goes on. -/
def notingImp : ImpProg := .write b%"raw" fun r _ =>
  match r.2 with
  | none => .call (.writeString b%"x") fun s => .ret s.frame.err
  | some e => .user (·.setErr (some e)) fun _ => .call (.writeString b%"more") fun s => .ret s.frame.err

theorem carefulImp_noting (s : St) : CarefulImp s notingImp :=
  .write (fun _ _ => .call fun _ => .ret fun h => h)
    fun _ _ _ => .user (fun _ => by simp [St.setErr]) fun _ => .call fun _ => .ret fun h => h

/-- After two writes the writer has crashed: the third write, of the second item, fails, and the error comes out. -/
example : ∃ s', Runs listEnv (.yieldIterator [.text [.mk [] (some .cargo) []]] 0) Sample.st (some 7) s' ∧
    Failed s'.log := ⟨_, ⟨2, rfl⟩, (failed_iff _).2 rfl⟩

/-- A run in which a write fails: two writes succeed, the third fails, the error comes out of the Imperative node. -/
example : ∃ s', Runs carefulEnv (.element ⟨b%"p", [], [], []⟩ [.imperative (some 0)]) Sample.st (some 7) s' ∧
    Failed s'.log := ⟨_, ⟨2, rfl⟩, (failed_iff _).2 rfl⟩

/-- What Render returns with any writer, also one that fails and recovers: if no user function touches `ctx.Error`,
Imperative functions return it, and there is neither an `Imperative(nil)` nor an `IterateYield`, then the returned error
is exactly the result of the last write that was made. -/
theorem C22_last_partial {env : Env} (C : Neutral env) (N : DirectFns env) {n : Node} (hn : Direct n) {s s' : St}
    {e : Option Err} (hs : s.frame.err = lastErr s.log) (hr : Runs env n s e s') : e = lastErr s'.log := by
  obtain ⟨fuel, hr⟩ := hr
  obtain ⟨h1, h2⟩ := KL.renderProg' C N fuel n hn s e s' hs hr
  exact h2.trans h1

/-- A writer that fails at its second write and then recovers, with an Imperative function that returns `ctx.Error`. -/
def secondFails : Env := { Sample.env with
  write := fun log d => if log.length = 1 then (0, some 7) else (d.length, none)
  collect := fun _ s => ([], s)
  imp := fun _ _ => .call (.writeString b%"x") fun s => .ret s.frame.err }

example : Neutral secondFails ∧ DirectFns secondFails :=
  ⟨⟨fun _ _ => rfl, fun _ _ => rfl, fun _ _ => rfl, fun _ _ => rfl, fun _ _ => .call fun _ => .ret⟩,
    ⟨fun _ _ _ h => (List.not_mem_nil h).elim, fun _ _ => .call (fun _ _ h => by cases h) fun _ => .ret⟩⟩

/-- The last of two writes fails, and is reported; the failure of the second of three is not. -/
example : (∃ s', Runs secondFails (Text (fun _ => []) [.str b%"a", .str b%"b"]) Sample.st (some 7) s' ∧
      lastErr s'.log = some 7) ∧
    ∃ s', Runs secondFails (Text (fun _ => []) [.str b%"a", .str b%"b", .str b%"c"]) Sample.st none s' ∧
      Failed s'.log ∧ lastErr s'.log = none :=
  ⟨⟨_, ⟨1, rfl⟩, rfl⟩, _, ⟨1, rfl⟩, (failed_iff _).2 rfl, rfl⟩

/-! ### C23 — output after a crash is a prefix -/

/-- The same render, once with a writer that crashes at some point and once with a healthy one: what the first accepted
is a prefix of what the second accepted.  For every node and every behaviour of the user functions (they may see the
error and behave differently after it). -/
theorem C23_prefix (env : Env) (write : List WEvent → Bytes → Nat × Option Err) (C : Crashes write) (n : Node)
    (s s₁ s₂ : St) (e₁ e₂ : Option Err) (h₁ : Runs (withWriter env write) n s e₁ s₁)
    (h₂ : Runs (withWriter env healthyWriter) n s e₂ s₂) : s₁.out <+: s₂.out := by
  obtain ⟨f₁, h₁⟩ := h₁
  obtain ⟨f₂, h₂⟩ := h₂
  exact exec_prefix C ((Le.renderProg (Nat.le_max_left f₁ f₂) n).exec h₁) ((Le.renderProg (Nat.le_max_right f₁ f₂) n).exec h₂)

/-- The sample page: the writer crashes within the third write. -/
example : ∃ s₁ s₂, Runs (withWriter Sample.env twoWriter) (Text (fun _ => []) [.str b%"ab", .str b%"cd", .str b%"ef"])
      Sample.st (some 7) s₁ ∧
    Runs (withWriter Sample.env healthyWriter) (Text (fun _ => []) [.str b%"ab", .str b%"cd", .str b%"ef"])
      Sample.st none s₂ ∧ s₁.out = b%"abcde" ∧ s₂.out = b%"abcdef" :=
  ⟨_, _, ⟨1, rfl⟩, ⟨1, rfl⟩, rfl, rfl⟩

/-! ### C24 — an Imperative function's error surfaces (false in general) -/

/-- `n` occurs somewhere in the element contents of the second node. -/
inductive Inside : Node → Node → Prop
  | refl {n} : Inside n n
  | element {n h contents m} : m ∈ contents → Inside n m → Inside n (.element h contents)

/-- The full claim, already for nested elements. -/
def C24_claim : Prop := ∀ (env : Env) (f : FnId) (n : Node) (s s' : St) (e : Option Err), Built n → Healthy env →
  (∀ s, AlwaysErr (env.imp f s)) → Inside (.imperative (some f)) n → s.frame.err = none → Runs env n s e s' → e ≠ none

/-- An Imperative function that fails. -/
def failingImp : Env := { Sample.env with imp := fun _ _ => .ret (some 9) }

/-- The claim is false: a text following the Imperative node clears the error. -/
theorem C24_false : ¬ C24_claim := by
  intro h
  refine h failingImp 0 (NewElement b%"p" [.node (Imperative (some 0)), .str b%"text"] .empty).1 Sample.st _ none
    ?_ (fun _ _ => rfl) (fun _ => .ret) ?_ rfl ⟨2, rfl⟩ rfl
  · refine .newElement _ _ _ fun n hn => ?_
    simp [nodesIn] at hn; subst hn; exact .imperative _
  · exact .element (m := .imperative (some 0)) (List.mem_cons_self ..) .refl

/-- What holds: from the places in `Surfaces` the error reaches the outside, whatever the writer and the other user
functions do.  Missing: Imperative nodes followed by siblings that write values, below ContentCollect or WriteNodes,
or first of several elements of a document. -/
theorem C24_partial {env : Env} {f : FnId} (hf : ∀ s, AlwaysErr (env.imp f s)) {n : Node} (h : Surfaces env f n)
    {s s' : St} {e : Option Err} (hr : Runs env n s e s') : e ≠ none := by
  obtain ⟨fuel, hr⟩ := hr
  exact (surfaces hf h fuel).1 s e s' trivial hr

/-- Siblings that preserve errors: elements with boolean attributes and such contents; iterations. -/
theorem C24_siblings_partial (env : Env) : (∀ ns fn, Preserves env (.iterator ns fn)) ∧
    ∀ (name : Bytes) (as : List Bytes) (idx : List (Bytes × Nat)) (cs : List Node), (∀ p ∈ cs, Preserves env p) → Preserves env (.element ⟨name, as.map .bool, idx, []⟩ cs) :=
  ⟨preserves_iterator env, fun _ _ _ _ h => preserves_element h⟩

/-- An Imperative node below an element and a collection, with other nodes around it. -/
theorem surfacesSample : Surfaces failingImp 0 (.element ⟨b%"div", [], [], []⟩
    [.text [], .collection [.imperative (some 0), .text []], .element ⟨b%"hr", [.bool b%"hidden"], [], []⟩ []]) := by
  refine .element (pre := [.text []]) (m := .collection [.imperative (some 0), .text []]) (.collection (by simp) .imperative) ?_
  intro p hp
  simp at hp; subst hp
  exact (C24_siblings_partial failingImp).2 b%"hr" [b%"hidden"] [] [] (by simp)

example : (some 9 : Option Err) ≠ none :=
  C24_partial (env := failingImp) (s := Sample.st) (fun _ => .ret) surfacesSample ⟨3, rfl⟩

/-! ### C77 — ctx.Error is the first error of the rendering (false in general) -/

/-- The full claim (context/context.go:11), for user functions that have no errors and do not hide any. -/
def C77_claim : Prop := ∀ (env : Env) (n : Node) (s s' : St) (e : Option Err), Built n → Honest env → Careful env →
  StaysFailed env.write → s.frame.err = none → s.log = [] → Runs env n s e s' → s'.frame.err = firstErr s'.log

/-- A writer that fails with another error each time. -/
def numbersErrors : Env := { Sample.env with
  write := fun log _ => (0, some log.length)
  imp := fun _ _ => .call (.writeString b%"x") fun s => .ret s.frame.err }

theorem honestYield_yieldsOf : (its : List Any) → (s : St) → HonestYield s (yieldsOf its)
  | [], _ => .done
  | _ :: its, _ => .yield fun s => honestYield_yieldsOf its s

/-- The claim is false: the second value of a text overwrites the error of the first. -/
theorem C77_false : ¬ C77_claim := by
  intro h
  have := h numbersErrors (Text (fun _ => []) [.str b%"a", .str b%"b"]) Sample.st _ (some 1) (.text _ _)
    ⟨fun _ _ _ h => .inl h, fun _ _ _ h => .inl h, fun _ _ _ h => .inl h, fun _ _ _ h => .inl h, fun _ _ => honestYield_yieldsOf _ _,
      fun _ _ => .call fun _ => .ret fun _ h => .inl h⟩
    ⟨fun _ _ h => h, fun _ _ h => h, fun _ _ h => h, fun _ _ h => h, fun _ _ => carefulYield_yieldsOf _,
      fun _ _ => .call fun _ => .ret fun h => h⟩
    (fun _ _ _ => by simp [numbersErrors]) rfl rfl ⟨1, rfl⟩
  exact absurd this (by decide)

/-- What holds with any writer: errors are not made up.  If the user functions bring none, then the error Render returns
and the one in `ctx.Error` afterwards are errors that the writer returned during this rendering. -/
theorem C77_returned_partial {env : Env} (H : Honest env) {n : Node} {s s' : St} {e : Option Err}
    (hs : s.frame.err = none) (hp : s.parents = []) (hr : Runs env n s e s') :
    (∀ x, e = some x → Returned s'.log x) ∧ ∀ x, s'.frame.err = some x → Returned s'.log x := by
  obtain ⟨fuel, hr⟩ := hr
  obtain ⟨h1, h2⟩ := KO.renderProg' H fuel n s e s' ⟨fun x hx => (by rw [hs] at hx; cases hx), fun f hf => (by
    rw [hp] at hf; cases hf)⟩ hr
  exact ⟨h2, h1.1⟩

example := C77_returned_partial (env := numbersErrors) (s := Sample.st) (e := some 1)
  ⟨fun _ _ _ h => .inl h, fun _ _ _ h => .inl h, fun _ _ _ h => .inl h, fun _ _ _ h => .inl h, fun _ _ => honestYield_yieldsOf _ _,
    fun _ _ => .call fun _ => .ret fun _ h => .inl h⟩ rfl rfl
  (show Runs numbersErrors (Text (fun _ => []) [.str b%"a", .str b%"b"]) Sample.st (some 1) _ from ⟨1, rfl⟩)

/-- With any writer, if the user functions leave `ctx.Error` alone: `ctx.Error` and the returned error are those of the
last write, not of the first; so the claim holds exactly when the last write returned the first error, or none failed. -/
theorem C77_exact_partial {env : Env} (C : Neutral env) (N : DirectFns env) {n : Node} (hn : Direct n) {s s' : St}
    {e : Option Err} (hs : s.frame.err = lastErr s.log) (hr : Runs env n s e s') :
    s'.frame.err = lastErr s'.log ∧ e = lastErr s'.log ∧ (s'.frame.err = firstErr s'.log ↔ lastErr s'.log = firstErr s'.log) := by
  obtain ⟨fuel, hr⟩ := hr
  obtain ⟨h1, h2⟩ := KL.renderProg' C N fuel n hn s e s' hs hr
  have h3 : s'.frame.err = lastErr s'.log := h1
  exact ⟨h3, h2.trans h1, by rw [h3]⟩

/-- Three writes, the second of which fails: `ctx.Error` is nil in the end. -/
example : ∃ s', Runs secondFails (Text (fun _ => []) [.str b%"a", .str b%"b", .str b%"c"]) Sample.st none s' ∧
    s'.frame.err = none ∧ firstErr s'.log = some 7 ∧ lastErr s'.log = none := ⟨_, ⟨1, rfl⟩, rfl, rfl, rfl⟩

/-- With a writer that keeps returning the error of its first failure (a closed connection, a full disk): `ctx.Error`
and the returned error are the first error that occurred, nil if none did.  For every node, also with `IterateYield`
and with user functions that supply nodes. -/
theorem C77_first_partial {env : Env} (W : Repeats env.write) (H : Honest env) (C : Careful env) (N : NoNilImpFns env)
    {n : Node} (hn : NoNilImp n) {s s' : St} {e : Option Err} (hs : s.frame.err = none) (hp : s.parents = [])
    (hl : s.log = []) (hr : Runs env n s e s') : s'.frame.err = firstErr s'.log ∧ e = firstErr s'.log := by
  obtain ⟨h1, h2⟩ := C77_returned_partial H hs hp hr
  obtain ⟨fuel, hr⟩ := hr
  have h3 := Trip.renderProg (staysFailed_of_repeats W) C N fuel n hn s e s'
    (fun h => by rw [hl] at h; obtain ⟨_, h, _⟩ := h; cases h) hr
  have h4 : OneErr s'.log := exec_oneErr W (s := s) (fun x hx => by rw [hl] at hx; obtain ⟨_, h, _⟩ := hx; cases h) hr
  have key : ∀ o : Option Err, (∀ x, o = some x → Returned s'.log x) → (Failed s'.log → o ≠ none) →
      o = firstErr s'.log := by
    intro o ho hf
    cases o with
    | none =>
      cases h : firstErr s'.log with
      | none => rfl
      | some x => exact (hf ((failed_iff_firstErr _).2 (by rw [h]; simp)) rfl).elim
    | some x => exact (h4 x (ho x rfl)).symm
  exact ⟨key _ h2 h3.1, key _ h1 h3.2⟩

/-- A writer that accepts two writes and then fails with the error 7 for good. -/
def breaks : Env := { carefulEnv with
  write := fun log d =>
    match firstErr log with
    | some e => (0, some e)
    | none => if log.length < 2 then (d.length, none) else (1, some 7) }

example : Repeats breaks.write ∧ Honest breaks ∧ Careful breaks := by
  refine ⟨fun log d e h => ?_, ⟨fun _ _ _ h => .inl h, fun _ _ _ h => .inl h, fun _ _ _ h => .inl h, fun _ _ _ h => .inl h,
    fun _ _ => honestYield_yieldsOf _ _, fun _ _ => .call fun _ => .ret fun _ h => .inl h⟩,
    ⟨fun _ _ h => h, fun _ _ h => h, fun _ _ h => h, fun _ _ h => h, fun _ _ => carefulYield_yieldsOf _,
      fun _ _ => .call fun _ => .ret fun h => h⟩⟩
  simp [breaks, h]

theorem honestYield_separating (sep : Bytes) : (its : List Any) → (s : St) → HonestYield s (separatingCarefully sep its)
  | [], _ => .done
  | it :: its, _ => .write fun r s hr => by
    rcases r with ⟨n, _ | e⟩
    · exact .yield fun s => honestYield_separating sep its s
    · exact .user (fun x hx => .inr (hr x (by simpa [St.setErr] using hx))) fun _ => .done

theorem honestImp_noting (s : St) : HonestImp s notingImp :=
  .write fun r s hr => by
    rcases r with ⟨n, _ | e⟩
    · exact .call fun _ => .ret fun _ h => .inl h
    · exact .user (fun x hx => .inr (hr x (by simpa [St.setErr] using hx))) fun _ => .call fun _ => .ret fun _ h => .inl h

/-- The same writer; functions that write themselves, and note their errors. -/
def breaksOwn : Env := { breaks with
  yields := fun _ _ => separatingCarefully b%", " [.str b%"b", .str b%"c"]
  imp := fun _ _ => notingImp }

example : Repeats breaksOwn.write ∧ Honest breaksOwn ∧ Careful breaksOwn := by
  refine ⟨fun log d e h => ?_, ⟨fun _ _ _ h => .inl h, fun _ _ _ h => .inl h, fun _ _ _ h => .inl h, fun _ _ _ h => .inl h,
    fun _ _ => honestYield_separating _ _ _, fun _ s => honestImp_noting s⟩,
    ⟨fun _ _ h => h, fun _ _ h => h, fun _ _ h => h, fun _ _ h => h, fun _ _ => carefulYield_separating _ _,
      fun _ s => carefulImp_noting s⟩⟩
  simp [breaksOwn, breaks, h]

example : ∃ s', Runs breaksOwn (.yieldIterator [.text [.mk [] (some .cargo) []]] 0) Sample.st (some 7) s' ∧
    s'.frame.err = some 7 ∧ s'.log.length = 3 ∧ firstErr s'.log = some 7 := ⟨_, ⟨2, rfl⟩, rfl, rfl, rfl⟩

/-- The third write fails, a later value is refused as well; the error is that of the third write. -/
example : ∃ s', Runs breaks (.element ⟨b%"p", [], [], []⟩ [.imperative (some 0), .text [.mk b%"t" none []]]) Sample.st
    (some 7) s' ∧ s'.frame.err = some 7 ∧ s'.log.length = 4 ∧ firstErr s'.log = some 7 := ⟨_, ⟨2, rfl⟩, rfl, rfl, rfl⟩

end Aitch.Props
