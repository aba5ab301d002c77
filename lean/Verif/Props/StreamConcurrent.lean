import Verif.Proofs.StreamMachine
import Verif.Props.Concurrent
import Verif.Props.Stream
/-
C103: rendering in several goroutines at the same time, when user functions write and render nodes.
-/
namespace Aitch.Props
open Spec Spec.Stream Aitch.Stream

/-! For the examples. -/

/-- Two goroutines render the same element with a dynamic value, a conditional, a `ContentCollect` and an `IterateYield`;
their functions write and render. -/
def busyNode : Node := .element ⟨b%"p", [.delim b%"class" b%" " 0], [], []⟩
  [.text [.mk [] (some (.user 0)) []], .conditional [.text [.mk b%"c" none []]] [] (.user 0), .collector 0,
    .yieldIterator [.text [.mk b%"n" none []]] 0]

/-- The value function writes, renders an element with a delimited attribute, notes its error, and returns a text; the
condition writes; the function of `ContentCollect` writes and supplies an element; that of `IterateYield` writes, yields,
and renders. -/
def busyBodies : Bodies where
  dyn := fun _ _ => .write b%"d" fun _ _ => .render twoNode fun _ _ => .ret b%"e"
  cond := fun _ _ => .write b%"?" fun _ _ => .ret true
  collect := fun _ _ => .write b%"+" fun _ _ => .ret [some twoNode, none]
  items := fun _ _ => .ret []
  yields := fun _ _ => .write b%"1" fun _ _ => .yield (.str b%"i") fun _ => .render twoNode fun _ _ => .done

/-- Its functions. -/
def busyFns (a : Action) : Prop := a = .dyn 0 ∨ a = .cond 0 ∨ a = .collect 0 ∨ a = .yields 0

theorem busy_met : QuietBodies (SameFor fun r => r = 0) Sample.env busyBodies busyFns (fun r => r = 0) ∧
    NodeCalls busyFns (fun r => r = 0) busyNode ∧ HeapUses busyFns (fun r => r = 0) twoShared.dl := by
  refine ⟨⟨?_, ?_, ?_, ?_, ?_, ?_, ?_⟩, ⟨⟨?_, ?_⟩, ?_⟩, fun r _ => ⟨trivial, trivial, trivial⟩⟩
  · exact fun f _ => ⟨fun _ _ _ => rfl, fun _ => .write (fun _ _ _ _ => rfl) fun _ _ =>
      .render (twoNode_calls _) (fun _ _ _ _ => rfl) fun _ _ => .ret trivial⟩
  · exact fun f _ => ⟨fun _ _ _ => rfl, fun _ => .write (fun _ _ _ _ => rfl) fun _ _ => .ret trivial⟩
  · exact fun f h => by simp [busyFns] at h
  · refine fun f _ => ⟨fun _ _ _ => rfl, fun _ => .write (fun _ _ _ _ => rfl) fun _ _ => .ret fun n hn => ?_⟩
    simp at hn; subst hn; exact twoNode_calls _
  · exact fun f _ => ⟨fun _ _ _ => rfl, fun _ => .write (fun _ _ _ _ => rfl) fun _ _ => .yield (fun _ _ _ => rfl) fun _ =>
      .render (twoNode_calls _) (fun _ _ _ _ => rfl) fun _ _ => .done⟩
  · exact fun f h => by simp [busyFns] at h
  · rintro a (rfl | rfl | rfl | rfl) <;> trivial
  · intro a ha
    simp at ha; subst ha; rfl
  · intro ca h; cases h
  · refine ⟨⟨Or.inl rfl, trivial⟩, ⟨Or.inr (.inl rfl), ⟨trivial, trivial⟩, trivial⟩, Or.inr (.inr (.inl rfl)),
      ⟨Or.inr (.inr (.inr rfl)), ⟨trivial, trivial⟩, trivial⟩, trivial⟩

/-- A schedule that is long enough. -/
def busyMoves : List (Move Bool) := twoMoves ++ twoMoves ++ twoMoves

theorem busyMoves_harmless : ∀ m ∈ busyMoves, Harmless (SameFor fun r => r = 0) m := by
  intro m hm
  simp only [busyMoves, List.mem_append, or_self] at hm
  exact two_met.2.2 m hm

/-! ### C103 — concurrent renders do not interfere when user functions write and render -/

section
variable {ι : Type} [DecidableEq ι] {R : Shared → Shared → Prop} (hR : Equivalence R) {ρ : Nat → Prop}
  (hmem : ∀ sh sh', R sh sh' → SameFor ρ sh sh')
  (nodes : ι → Node) (envs : ι → Env) (B : ι → Bodies) (own : ι → Local) (sh : Shared)
  (q : ι → Action → Prop) (hq : ∀ i, QuietBodies R (envs i) (B i) (q i) ρ) (hn : ∀ i, NodeCalls (q i) ρ (nodes i))
  (hh : ∀ i, HeapUses (q i) ρ sh.dl) (fuel : ι → Nat) (moves : List (Move ι)) (hm : ∀ m ∈ moves, Harmless R m)
include hR hmem hq hn hh hm

theorem alone_streams :
    (∀ i, Alone R (fun c => HeapUses (q i) ρ c.dl) (NodeCalls (q i) ρ) (envs i)
      (renderWith (B i) (fuel i) (nodes i)) (joinSt (own i) sh) (turns i moves)
      (((Stream.startAll nodes envs B fuel own sh).run moves).threads i)
      ((Stream.startAll nodes envs B fuel own sh).run moves).shared) ∧
    R sh ((Stream.startAll nodes envs B fuel own sh).run moves).shared := by
  have := alone_run (I := fun i c => HeapUses (q i) ρ c.dl) (N := fun i => NodeCalls (q i) ρ) hR (fun i s s' hs h r hr => by
      have : s.dl r = s'.dl r := (hmem _ _ hs).2 r hr
      rw [← this]; exact h r hr)
    (progs := fun i => renderWith (B i) (fuel i) (nodes i)) (s₀ := fun i => joinSt (own i) sh) moves hm
    (Stream.startAll nodes envs B fuel own sh) (fun _ => 0) (envs := envs) (fun i =>
      ⟨rfl, uni_renderWith hR hmem (hq i) _ _ (hn i), _, rfl, hR.refl _, rfl, hh i, Or.inl rfl⟩)
  exact ⟨fun i => by simpa using this.1 i, this.2⟩

/-- Goroutines (any number of them) render nodes at the same time, each with its own context and writer; the nodes may
share elements and attributes, and their functions may write to the context and render other nodes to it.  Whatever the
interleaving of their steps, also of those within calls of functions, and whatever other code does meanwhile to memory
that does not matter (`R`): a goroutine that has finished has returned the error, and made the calls to its writer, that
it would have alone. -/
theorem C103_alone (i : ι) (e : Option Err)
    (he : (((Stream.startAll nodes envs B fuel own sh).run moves).threads i).prog = .pure e) :
    ∃ s', Spec.Stream.Ends (envs i) (B i) (nodes i) (joinSt (own i) sh) e s' ∧
      s'.own = (((Stream.startAll nodes envs B fuel own sh).run moves).threads i).own := by
  obtain ⟨h1, h2, s, h3, h4, h5, -⟩ := (alone_streams hR hmem nodes envs B own sh q hq hn hh fuel moves hm).1 i
  refine ⟨s, ⟨fuel i, ?_⟩, h3⟩
  rw [he] at h5
  exact h5.symm

set_option maxRecDepth 20000 in
omit hR hmem hq hn hh hm in
example := C103_alone (sameFor_equivalence fun r => r = 0) (fun _ _ h => h) (fun _ => busyNode) (fun _ => Sample.env)
  (fun _ => busyBodies) twoOwn twoShared (fun _ => busyFns) (fun _ => busy_met.1) (fun _ => busy_met.2.1)
  (fun _ => busy_met.2.2) (fun _ => 4) busyMoves busyMoves_harmless true none rfl

/-- Rendering leaves the shared memory alone: it is what other code made of it. -/
theorem C103_memory : R sh ((Stream.startAll nodes envs B fuel own sh).run moves).shared :=
  (alone_streams hR hmem nodes envs B own sh q hq hn hh fuel moves hm).2

omit hR hmem hq hn hh hm in
example := C103_memory (sameFor_equivalence fun r => r = 0) (fun _ _ h => h) (fun _ => busyNode) (fun _ => Sample.env)
  (fun _ => busyBodies) twoOwn twoShared (fun _ => busyFns) (fun _ => busy_met.1) (fun _ => busy_met.2.1)
  (fun _ => busy_met.2.2) (fun _ => 4) busyMoves busyMoves_harmless

end

/-- A goroutine that would finish alone finishes, and after a number of steps that does not depend on the others. -/
theorem C103_finishes {ι : Type} [DecidableEq ι] {R : Shared → Shared → Prop} (hR : Equivalence R) {ρ : Nat → Prop}
    (hmem : ∀ sh sh', R sh sh' → SameFor ρ sh sh')
    (nodes : ι → Node) (envs : ι → Env) (B : ι → Bodies) (own : ι → Local) (sh : Shared)
    (q : ι → Action → Prop) (hq : ∀ i, QuietBodies R (envs i) (B i) (q i) ρ) (hn : ∀ i, NodeCalls (q i) ρ (nodes i))
    (hh : ∀ i, HeapUses (q i) ρ sh.dl) (i : ι) {e : Option Err} {s' : St}
    (hr : Spec.Stream.Ends (envs i) (B i) (nodes i) (joinSt (own i) sh) e s') :
    ∃ F, ∀ fuel : ι → Nat, F ≤ fuel i → ∃ k, ∀ moves, (∀ m ∈ moves, Harmless R m) → k ≤ turns i moves →
      (((Stream.startAll nodes envs B fuel own sh).run moves).threads i).prog = .pure e ∧
      (((Stream.startAll nodes envs B fuel own sh).run moves).threads i).own = s'.own := by
  obtain ⟨F, hF⟩ := hr
  refine ⟨F, fun fuel hf => ⟨execSteps (envs i) (renderWith (B i) (fuel i) (nodes i)) (joinSt (own i) sh), fun moves hm hk => ?_⟩⟩
  have hr : exec (envs i) (renderWith (B i) (fuel i) (nodes i)) (joinSt (own i) sh) = some (e, s') :=
    (le_renderWith (B i) hf (nodes i)).exec hF
  obtain ⟨h1, h2, s, h4, -, h5, -, h3⟩ := (alone_streams hR hmem nodes envs B own sh q hq hn hh fuel moves hm).1 i
  have h6 := h5.trans hr
  generalize (((Stream.startAll nodes envs B fuel own sh).run moves).threads i).prog = p at *
  cases h2 with
  | pure a => cases h6; exact ⟨rfl, h4.symm⟩
  | stuck => cases h6
  | step a k hp he hu =>
    have e : execSteps (envs i) (Prog.step a k) s =
      1 + execSteps (envs i) (k (a.run (envs i) s).1) (a.run (envs i) s).2 := rfl
    omega

example := C103_finishes (sameFor_equivalence fun r => r = 0) (fun _ _ h => h) (fun _ => busyNode) (fun _ => Sample.env)
  (fun _ => busyBodies) twoOwn twoShared (fun _ => busyFns) (fun _ => busy_met.1) (fun _ => busy_met.2.1)
  (fun _ => busy_met.2.2) true (e := none) ⟨4, rfl⟩

/-- Both finish, each with its own output. -/
example : (fun (m : Machine Bool) => (accepted (m.threads true).own.log, accepted (m.threads false).own.log))
    ((Stream.startAll (fun _ => busyNode) (fun _ => Sample.env) (fun _ => busyBodies) (fun _ => 4) twoOwn twoShared).run
      busyMoves) =
    (b%"<p class=\"a b\">d<p class=\"a b\">y</p>e?c+<p class=\"a b\">y</p>1n<p class=\"a b\">y</p></p>",
     b%"<p class=\"a b\">d<p class=\"a b\">x</p>e?c+<p class=\"a b\">x</p>1n<p class=\"a b\">x</p></p>") := by
  decide +kernel

/-- A function that takes a number from shared memory, writes it, and only then sets the next. -/
def ticketBodies : Bodies :=
  { busyBodies with
    dyn := fun _ s => .write [UInt8.ofNat (48 + s.world)] fun _ _ =>
      .user (fun t => { t with world := s.world + 1 }) fun _ => .ret [] }

/-- First the one goroutine, then the other. -/
def ticketMoves (k : Nat) : List (Move Bool) :=
  List.replicate k (.run true) ++ List.replicate 8 (.run false) ++ List.replicate 8 (.run true)

/-- The goroutines, rendering a text with that function. -/
def tickets : Machine Bool := Stream.startAll (fun _ => countNode) (fun _ => Sample.env) (fun _ => ticketBodies) (fun _ => 2)
  (fun _ => countOwn) countShared

/-- The condition on functions is needed: with this one a goroutine that comes after the other has another output than it
would have alone, and one that comes while the other is within the function has the same number as it. -/
theorem C103_needed : (∀ k, ∀ m ∈ ticketMoves k, Harmless Eq m) ∧
    ((tickets.run (ticketMoves 8)).threads false).prog = .pure none ∧
    (∀ s', Spec.Stream.Ends Sample.env ticketBodies countNode (joinSt countOwn countShared) none s' →
      s'.log ≠ ((tickets.run (ticketMoves 8)).threads false).own.log) ∧
    accepted ((tickets.run (ticketMoves 8)).threads true).own.log = b%"0" ∧
    accepted ((tickets.run (ticketMoves 8)).threads false).own.log = b%"1" ∧
    accepted ((tickets.run (ticketMoves 3)).threads true).own.log = b%"0" ∧
    accepted ((tickets.run (ticketMoves 3)).threads false).own.log = b%"0" := by
  refine ⟨?_, rfl, ?_, by decide +kernel, by decide +kernel, by decide +kernel, by decide +kernel⟩
  · intro k m hm
    rcases List.mem_append.1 hm with hm | hm
    · rcases List.mem_append.1 hm with hm | hm <;> rw [List.eq_of_mem_replicate hm] <;> trivial
    · rw [List.eq_of_mem_replicate hm]; trivial
  · intro s' ⟨F, h⟩ hc
    have h2 : exec Sample.env (renderWith ticketBodies 2 countNode) (joinSt countOwn countShared) = some (none, _) := rfl
    have a := (le_renderWith ticketBodies (Nat.le_max_left F 2) countNode).exec h
    have b := (le_renderWith ticketBodies (Nat.le_max_right F 2) countNode).exec h2
    rw [a] at b
    cases b
    exact absurd (congrArg accepted hc) (by decide +kernel)

end Aitch.Props
