import Verif.Spec.Obs
/-
Writers that fail, and user functions that take care of errors.
-/
namespace Aitch.Spec

/-- Some write so far has failed. -/
def Failed (log : List WEvent) : Prop := ∃ e ∈ log, e.err ≠ none

/-- After a failed write all writes fail. -/
def StaysFailed (write : List WEvent → Bytes → Nat × Option Err) : Prop :=
  ∀ log d, Failed log → (write log d).2 ≠ none

/-- A writer that crashes: until the first failure it accepts everything; the failing write may accept a part; after it
nothing is accepted and every write fails. -/
structure Crashes (write : List WEvent → Bytes → Nat × Option Err) : Prop where
  before : ∀ log d, ¬ Failed log → (write log d).2 = none → (write log d).1 = d.length
  after : ∀ log d, Failed log → (write log d).1 = 0 ∧ (write log d).2 ≠ none

/-- The same program with another writer. -/
def withWriter (env : Env) (write : List WEvent → Bytes → Nat × Option Err) : Env := { env with write := write }

/-- A writer that accepts everything. -/
def healthyWriter : List WEvent → Bytes → Nat × Option Err := fun _ d => (d.length, none)

/-- User code that does not clear `ctx.Error`. -/
def KeepsError (upd : St → St) : Prop := ∀ s, s.frame.err ≠ none → (upd s).frame.err ≠ none

mutual
/-- The function of an `IterateYield` does not clear `ctx.Error`, and when a write of its own fails the next thing it does
is to set `ctx.Error`. -/
inductive CarefulYield : YieldProg → Prop
  | done : CarefulYield .done
  | write {d k} : (∀ n s, CarefulYield (k (n, none) s)) → (∀ n e s, NotesYield (k (n, some e) s)) →
      CarefulYield (.write d k)
  | yield {it k} : (∀ s, CarefulYield (k s)) → CarefulYield (.yield it k)
  | user {upd k} : KeepsError upd → (∀ s, CarefulYield (k s)) → CarefulYield (.user upd k)
/-- The function sets `ctx.Error`, and goes on carefully. -/
inductive NotesYield : YieldProg → Prop
  | user {upd k} : (∀ s, (upd s).frame.err ≠ none) → (∀ s, CarefulYield (k s)) → NotesYield (.user upd k)
end

/-- Setting `ctx.Error` is careful. -/
theorem NotesYield.careful : {y : YieldProg} → NotesYield y → CarefulYield y
  | _, .user h1 h2 => .user (fun s _ => h1 s) h2

mutual
/-- The function of an `Imperative`, in state `s`, does not clear `ctx.Error`, does not return nil when `ctx.Error` is set,
and when a write of its own fails the next thing it does is to set `ctx.Error`. -/
inductive CarefulImp : St → ImpProg → Prop
  | ret {s e} : (s.frame.err ≠ none → e ≠ none) → CarefulImp s (.ret e)
  | call {s op k} : (∀ s', CarefulImp s' (k s')) → CarefulImp s (.call op k)
  | user {s upd k} : KeepsError upd → (∀ s', CarefulImp s' (k s')) → CarefulImp s (.user upd k)
  | render {s n k} : (∀ e s', CarefulImp s' (k e s')) → CarefulImp s (.render n k)
  | write {s d k} : (∀ n s', CarefulImp s' (k (n, none) s')) → (∀ n e s', NotesImp (k (n, some e) s')) →
      CarefulImp s (.write d k)
/-- The function sets `ctx.Error`, and goes on carefully. -/
inductive NotesImp : ImpProg → Prop
  | user {upd k} : (∀ s, (upd s).frame.err ≠ none) → (∀ s', CarefulImp s' (k s')) → NotesImp (.user upd k)
end

/-- All user functions are careful with `ctx.Error`. -/
structure Careful (env : Env) : Prop where
  dyn : ∀ f, KeepsError fun s => (env.dyn f s).2
  cond : ∀ f, KeepsError fun s => (env.cond f s).2
  collect : ∀ f, KeepsError fun s => (env.collect f s).2
  items : ∀ f, KeepsError fun s => (env.items f s).2
  yields : ∀ f s, CarefulYield (env.yields f s)
  imp : ∀ f s, CarefulImp s (env.imp f s)

mutual
/-- No `Imperative(nil)` in the node. -/
def NoNilImp : Node → Prop
  | .element _ contents => NoNilImpAll contents
  | .collection ns => NoNilImpAll ns
  | .conditional ns _ _ => NoNilImpAll ns
  | .iterator ns _ => NoNilImpAll ns
  | .yieldIterator ns _ => NoNilImpAll ns
  | .document none contents => NoNilImpAll contents
  | .document (some p) contents => NoNilImp p ∧ NoNilImpAll contents
  | .imperative f => f ≠ none
  | _ => True
/-- `NoNilImp` for every node of a list. -/
def NoNilImpAll : List Node → Prop
  | [] => True
  | n :: ns => NoNilImp n ∧ NoNilImpAll ns
end

/-- An `Imperative` function gives no `Imperative(nil)` to `WriteNodes`, and calls the `Render` of none. -/
inductive NoNilImpCalls : ImpProg → Prop
  | ret {e} : NoNilImpCalls (.ret e)
  | call {op k} : (∀ ns n, op = .writeNodes ns → some n ∈ ns → NoNilImp n) → (∀ s, NoNilImpCalls (k s)) →
      NoNilImpCalls (.call op k)
  | user {upd k} : (∀ s, NoNilImpCalls (k s)) → NoNilImpCalls (.user upd k)
  | render {n k} : NoNilImp n → (∀ e s, NoNilImpCalls (k e s)) → NoNilImpCalls (.render n k)
  | write {d k} : (∀ r s, NoNilImpCalls (k r s)) → NoNilImpCalls (.write d k)

/-- No user function supplies an `Imperative(nil)`. -/
structure NoNilImpFns (env : Env) : Prop where
  collect : ∀ f s n, some n ∈ (env.collect f s).1 → NoNilImp n
  imp : ∀ f s, NoNilImpCalls (env.imp f s)

/-! ### Errors of Imperative functions -/

/-- The function always returns an error. -/
inductive AlwaysErr : ImpProg → Prop
  | ret {e} : AlwaysErr (.ret (some e))
  | call {op k} : (∀ s, AlwaysErr (k s)) → AlwaysErr (.call op k)
  | user {upd k} : (∀ s, AlwaysErr (k s)) → AlwaysErr (.user upd k)
  | render {n k} : (∀ e s, AlwaysErr (k e s)) → AlwaysErr (.render n k)
  | write {d k} : (∀ r s, AlwaysErr (k r s)) → AlwaysErr (.write d k)

/-- The function yields at least once and does not clear `ctx.Error` afterwards. -/
inductive YieldsSome : YieldProg → Prop
  | yield {it k} : (∀ s, CarefulYield (k s)) → YieldsSome (.yield it k)
  | user {upd k} : (∀ s, YieldsSome (k s)) → YieldsSome (.user upd k)
  | write {d k} : (∀ r s, YieldsSome (k r s)) → YieldsSome (.write d k)

/-- Rendering `n` with `ctx.Error` set returns an error (and keeps `ctx.Error` set). -/
def Preserves (env : Env) (n : Node) : Prop :=
  ∀ s e s', s.frame.err ≠ none → Runs env n s e s' → e ≠ none ∧ s'.frame.err ≠ none

/-- Places for an Imperative node calling `f` from which its error reaches the outside. -/
inductive Surfaces (env : Env) (f : FnId) : Node → Prop
  | imperative : Surfaces env f (.imperative (some f))
  /-- in an element, before siblings that preserve errors -/
  | element {h pre m post} : Surfaces env f m → (∀ p ∈ post, Preserves env p) →
      Surfaces env f (.element h (pre ++ m :: post))
  /-- anywhere in a collection -/
  | collection {ns m} : m ∈ ns → Surfaces env f m → Surfaces env f (.collection ns)
  /-- anywhere under a condition that holds -/
  | conditional {ns as g m} : m ∈ ns → Surfaces env f m → (∀ s, (env.cond g s).1 = true) →
      Surfaces env f (.conditional ns as (.user g))
  /-- anywhere in an iteration over some items -/
  | iterate {ns g m} : m ∈ ns → Surfaces env f m → (∀ s, (env.items g s).1 ≠ []) →
      Surfaces env f (.iterator ns (.user g))
  | iterateYield {ns g m} : m ∈ ns → Surfaces env f m → (∀ s, YieldsSome (env.yields g s)) →
      Surfaces env f (.yieldIterator ns g)
  /-- below the last element of a document -/
  | document {p pre h contents} : Surfaces env f (.element h contents) →
      Surfaces env f (.document p (pre ++ [.element h contents]))

/-! ### The last write -/

/-- The result of the last write, nil before the first. -/
def lastErr (log : List WEvent) : Option Err := log.getLast?.bind (·.err)

/-- User code that leaves `ctx.Error` as it is. -/
def LeavesError (upd : St → St) : Prop := ∀ s, (upd s).frame.err = s.frame.err

/-- The function of an `Imperative`, in state `s`, leaves `ctx.Error` as it is and returns it in the end; it does not use
the writer directly. -/
inductive ReturnsError : St → ImpProg → Prop
  | ret {s} : ReturnsError s (.ret s.frame.err)
  | call {s op k} : (∀ s', ReturnsError s' (k s')) → ReturnsError s (.call op k)
  | user {s upd k} : LeavesError upd → (∀ s', ReturnsError s' (k s')) → ReturnsError s (.user upd k)
  | render {s n k} : (∀ s' : St, ReturnsError s' (k s'.frame.err s')) → ReturnsError s (.render n k)

/-- No user function touches `ctx.Error`; Imperative functions return it. -/
structure Neutral (env : Env) : Prop where
  dyn : ∀ f, LeavesError fun s => (env.dyn f s).2
  cond : ∀ f, LeavesError fun s => (env.cond f s).2
  collect : ∀ f, LeavesError fun s => (env.collect f s).2
  items : ∀ f, LeavesError fun s => (env.items f s).2
  imp : ∀ f s, ReturnsError s (env.imp f s)

mutual
/-- No `Imperative(nil)` and no `IterateYield` in the node. -/
def Direct : Node → Prop
  | .element _ contents => DirectAll contents
  | .collection ns => DirectAll ns
  | .conditional ns _ _ => DirectAll ns
  | .iterator ns _ => DirectAll ns
  | .yieldIterator _ _ => False
  | .document none contents => DirectAll contents
  | .document (some p) contents => Direct p ∧ DirectAll contents
  | .imperative f => f ≠ none
  | _ => True
/-- `Direct` for every node of a list. -/
def DirectAll : List Node → Prop
  | [] => True
  | n :: ns => Direct n ∧ DirectAll ns
end

/-- The nodes that an `Imperative` function gives to `WriteNodes`, or renders, are `Direct`. -/
inductive DirectCalls : ImpProg → Prop
  | ret {e} : DirectCalls (.ret e)
  | call {op k} : (∀ ns n, op = .writeNodes ns → some n ∈ ns → Direct n) → (∀ s, DirectCalls (k s)) →
      DirectCalls (.call op k)
  | user {upd k} : (∀ s, DirectCalls (k s)) → DirectCalls (.user upd k)
  | render {n k} : Direct n → (∀ e s, DirectCalls (k e s)) → DirectCalls (.render n k)
  | write {d k} : (∀ r s, DirectCalls (k r s)) → DirectCalls (.write d k)

/-- The nodes that user functions supply are `Direct`. -/
structure DirectFns (env : Env) : Prop where
  collect : ∀ f s n, some n ∈ (env.collect f s).1 → Direct n
  imp : ∀ f s, DirectCalls (env.imp f s)

/-! ### Where errors come from -/

/-- Some write has returned the error `e`. -/
def Returned (log : List WEvent) (e : Err) : Prop := ∃ w ∈ log, w.err = some e

/-- The first error that a write has returned. -/
def firstErr (log : List WEvent) : Option Err := log.findSome? (·.err)

/-- After a failed write all writes fail with the error of the first failure. -/
def Repeats (write : List WEvent → Bytes → Nat × Option Err) : Prop :=
  ∀ log d e, firstErr log = some e → (write log d).2 = some e

/-- User code that, in state `s`, does not set `ctx.Error` (it may clear it), unless to an error that a write has returned. -/
def NoNewError (s : St) (upd : St → St) : Prop :=
  ∀ e, (upd s).frame.err = some e → s.frame.err = some e ∨ Returned s.log e

/-- The function of an `IterateYield`, in state `s`, does not set `ctx.Error`, unless to an error that a write has returned. -/
inductive HonestYield : St → YieldProg → Prop
  | done {s} : HonestYield s .done
  | yield {s it k} : (∀ s', HonestYield s' (k s')) → HonestYield s (.yield it k)
  | user {s upd k} : NoNewError s upd → (∀ s', HonestYield s' (k s')) → HonestYield s (.user upd k)
  | write {s d k} : (∀ (r : Nat × Option Err) (s' : St), (∀ x, r.2 = some x → Returned s'.log x) → HonestYield s' (k r s')) →
      HonestYield s (.write d k)

/-- The function of an `Imperative`, in state `s`, does not set `ctx.Error`, unless to an error that a write has returned,
and returns nil, `ctx.Error`, or an error that a write has returned. -/
inductive HonestImp : St → ImpProg → Prop
  | ret {s e} : (∀ x, e = some x → s.frame.err = some x ∨ Returned s.log x) → HonestImp s (.ret e)
  | call {s op k} : (∀ s', HonestImp s' (k s')) → HonestImp s (.call op k)
  | user {s upd k} : NoNewError s upd → (∀ s', HonestImp s' (k s')) → HonestImp s (.user upd k)
  | render {s n k} : (∀ (e : Option Err) (s' : St), (∀ x, e = some x → Returned s'.log x) → HonestImp s' (k e s')) →
      HonestImp s (.render n k)
  | write {s d k} : (∀ (r : Nat × Option Err) (s' : St), (∀ x, r.2 = some x → Returned s'.log x) → HonestImp s' (k r s')) →
      HonestImp s (.write d k)

/-- No user function brings an error of its own. -/
structure Honest (env : Env) : Prop where
  dyn : ∀ f s, NoNewError s fun s => (env.dyn f s).2
  cond : ∀ f s, NoNewError s fun s => (env.cond f s).2
  collect : ∀ f s, NoNewError s fun s => (env.collect f s).2
  items : ∀ f s, NoNewError s fun s => (env.items f s).2
  yields : ∀ f s, HonestYield s (env.yields f s)
  imp : ∀ f s, HonestImp s (env.imp f s)

end Aitch.Spec
