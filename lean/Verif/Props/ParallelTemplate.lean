import Verif.Proofs.Template
import Verif.Props.Concurrent
/-
C78: executing templates in several goroutines at the same time.
-/
namespace Aitch.Props
open Spec

/-! ### C78 — templates can be executed in parallel -/

theorem uni_execParts {R : Shared → Shared → Prop} {I : Ctx → Prop} {N : Node → Prop} {p q : Action → Prop}
    {ρ : Nat → Prop} (A : UniTree R I p q ρ) (hy : ∀ f, q (.yields f) → p (.yields f))
    (hN : ∀ n, N n ↔ NodeCalls q ρ n) (fuel : Nat) : (t : List Part) →
    (∀ n pl, .call n pl ∈ t → NodeCalls q ρ n) → Uni R I N p (execParts (renderProg fuel) t)
  | [], _ => .ret _
  | .text x :: ps, h => by
    have ih := uni_execParts A hy hN fuel ps fun n pl hn => h n pl (.tail _ hn)
    refine .bind (.act (a := .write x) (A.write _) trivial) fun r => ?_
    cases r.2 with
    | none => exact ih
    | some e => exact .ret _
  | .call n pl :: ps, h => by
    have ih := uni_execParts A hy hN fuel ps fun n pl hn => h n pl (.tail _ hn)
    refine .bind (.renderProg A hy hN fuel n (h n pl (.head _))) fun e => ?_
    cases e with
    | some e => exact .ret _
    | none =>
      refine .bind (.act (a := .write _) (A.write _) trivial) fun r => ?_
      cases r.2 with
      | none => exact ih
      | some e => exact .ret _

section
variable {ι : Type} [DecidableEq ι] {R : Shared → Shared → Prop} (hR : Equivalence R) {ρ : Nat → Prop}
  (hmem : ∀ sh sh', R sh sh' → SameFor ρ sh sh')
  (ts : ι → List Part) (data : ι → Option MapId) (cargo : ι → Any) (envs : ι → Env) (own : ι → Local) (sh : Shared)
  (q : ι → Action → Prop) (hq : ∀ i, QuietFns R (envs i) (q i) ρ)
  (hn : ∀ i n p, .call n p ∈ ts i → NodeCalls (q i) ρ n)
  (hh : ∀ i, HeapUses (q i) ρ sh.dl) (fuel : ι → Nat)
include hR hmem hq hn hh

theorem alone_execute (moves : List (Move ι)) (hm : ∀ m ∈ moves, Harmless R m) :
    (∀ i, Alone R (fun c => HeapUses (q i) ρ c.dl) (NodeCalls (q i) ρ) (envs i)
      (execParts (renderProg (fuel i)) (ts i)) (templateStart (joinSt (own i) sh) (data i) (cargo i)) (turns i moves)
      (((executeAll ts data cargo envs fuel own sh).run moves).threads i)
      ((executeAll ts data cargo envs fuel own sh).run moves).shared) ∧
    R sh ((executeAll ts data cargo envs fuel own sh).run moves).shared := by
  have := alone_run (I := fun i c => HeapUses (q i) ρ c.dl) (N := fun i => NodeCalls (q i) ρ) hR (fun i s s' hs h r hr => by
      have : s.dl r = s'.dl r := (hmem _ _ hs).2 r hr
      rw [← this]; exact h r hr)
    (progs := fun i => execParts (renderProg (fuel i)) (ts i))
    (s₀ := fun i => templateStart (joinSt (own i) sh) (data i) (cargo i)) moves hm
    (executeAll ts data cargo envs fuel own sh) (fun _ => 0) (envs := envs) (fun i =>
      ⟨rfl, uni_execParts (uniTree hR hmem (hq i)) (fun f h => respects_fn hR (hq i _ h)) (fun _ => Iff.rfl) _ _ (hn i), _, rfl, hR.refl _, rfl, hh i, Or.inl rfl⟩)
  exact ⟨fun i => by simpa using this.1 i, this.2⟩

/-- Goroutines (any number of them) execute templates at the same time, each with its own writer, data and cargo; it may
be the same template, and templates may share nodes.  Whatever the interleaving of their steps, and whatever other code
does meanwhile to memory that does not matter (`R`): an `Execute` that has returned has returned the error, and made the
calls to its writer, that it would have alone.  (The user functions are `QuietFns`, as in C50.) -/
theorem C78_alone (moves : List (Move ι)) (hm : ∀ m ∈ moves, Harmless R m) (i : ι) (e : Option Err)
    (he : (((executeAll ts data cargo envs fuel own sh).run moves).threads i).prog = .pure e) :
    ∃ s', Executes (envs i) (ts i) (data i) (cargo i) (joinSt (own i) sh) e s' ∧
      s'.own = (((executeAll ts data cargo envs fuel own sh).run moves).threads i).own := by
  obtain ⟨h1, h2, s, h3, h4, h5, -⟩ := (alone_execute hR hmem ts data cargo envs own sh q hq hn hh fuel moves hm).1 i
  refine ⟨s, ⟨fuel i, ?_⟩, h3⟩
  rw [he] at h5
  exact h5.symm

/-- The executions leave the shared memory alone. -/
theorem C78_memory (moves : List (Move ι)) (hm : ∀ m ∈ moves, Harmless R m) :
    R sh ((executeAll ts data cargo envs fuel own sh).run moves).shared :=
  (alone_execute hR hmem ts data cargo envs own sh q hq hn hh fuel moves hm).2

/-- An execution that would end alone ends, after a number of steps that does not depend on the others. -/
theorem C78_finishes (i : ι) {e : Option Err} {s' : St}
    (hr : Execute (envs i) (fuel i) (ts i) (data i) (cargo i) (joinSt (own i) sh) = some (e, s')) :
    ∃ k, ∀ moves, (∀ m ∈ moves, Harmless R m) → k ≤ turns i moves →
      (((executeAll ts data cargo envs fuel own sh).run moves).threads i).prog = .pure e ∧
      (((executeAll ts data cargo envs fuel own sh).run moves).threads i).own = s'.own := by
  refine ⟨execSteps (envs i) (execParts (renderProg (fuel i)) (ts i)) (templateStart (joinSt (own i) sh) (data i) (cargo i)),
    fun moves hm hk => ?_⟩
  obtain ⟨h1, h2, s, h4, -, h5, -, h3⟩ := (alone_execute hR hmem ts data cargo envs own sh q hq hn hh fuel moves hm).1 i
  have h6 := h5.trans hr
  generalize (((executeAll ts data cargo envs fuel own sh).run moves).threads i).prog = p at *
  cases h2 with
  | pure a => cases h6; exact ⟨rfl, h4.symm⟩
  | stuck => cases h6
  | step a k hp he hu =>
    have e : execSteps (envs i) (Prog.step a k) s =
      1 + execSteps (envs i) (k (a.run (envs i) s).1) (a.run (envs i) s).2 := rfl
    omega

end

/-- One template, with an attribute and an element, executed by two goroutines for different data. -/
def twoParts : List Part :=
  [.text b%"<div", .call (.attr (.delim b%"class" b%" " 0)) .tag, .text b%">", .call twoNode .text, .text b%"</div>"]

example : (∀ n p, .call n p ∈ twoParts → NodeCalls (fun _ => False) (fun r => r = 0) n) ∧
    HeapUses (fun _ => False) (fun r => r = 0) twoShared.dl := by
  refine ⟨?_, fun r _ => ⟨trivial, trivial, trivial⟩⟩
  intro n p hn
  simp only [twoParts, List.mem_cons, reduceCtorEq, Part.call.injEq, false_or, List.not_mem_nil, or_false] at hn
  rcases hn with ⟨rfl, -⟩ | ⟨rfl, -⟩
  · rfl
  · exact twoNode_calls _

/-- Both finish, each with its own output. -/
example : (fun (m : Machine Bool) => (accepted (m.threads true).own.log, accepted (m.threads false).own.log))
    ((executeAll (fun _ => twoParts) (fun i => some (if i then 1 else 0)) (fun _ => .nil) (fun _ => Sample.env)
      (fun _ => 2) twoOwn twoShared).run twoMoves) =
    (b%"<div class=\"a b\"><p class=\"a b\">y</p></div>", b%"<div class=\"a b\"><p class=\"a b\">x</p></div>") := by
  decide +kernel

end Aitch.Props
