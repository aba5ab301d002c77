import Verif.Proofs.Machine
import Verif.Proofs.Ends
import Verif.Proofs.Quiet
import Verif.Spec.Sample
/-
C50: rendering in several goroutines at the same time.
-/
namespace Aitch.Props
open Spec

/-! For the examples. -/

theorem sameFor_equivalence (ρ : Nat → Prop) : Equivalence (SameFor ρ) where
  refl _ := ⟨rfl, fun _ _ => rfl⟩
  symm h := ⟨h.1.symm, fun r hr => (h.2 r hr).symm⟩
  trans h h' := ⟨h.1.trans h'.1, fun r hr => (h.2 r hr).trans (h'.2 r hr)⟩

/-- Two goroutines render the same element (with a dynamic value and a delimited attribute) for different data.  While
they do so, other code builds an element with other attributes. -/
def twoNode : Node := (NewElement b%"p" [.node (.attr (.delim b%"class" b%" " 0)), .dynKey b%"k"]
  ⟨fun _ => [.mk b%"a" none [], .mk b%"b" none []], 1⟩).1

/-- Their contexts: the data of goroutine `i` is map `i`. -/
def twoOwn (i : Bool) : Local :=
  ⟨{ err := none, data := some (if i then 1 else 0), cargo := .nil }, [], [], 0⟩

/-- The shared memory: key `k` is `x` in map 0 and `y` in map 1. -/
def twoShared : Shared :=
  ⟨fun m => [(b%"k", .str (if m = 0 then b%"x" else b%"y"))], fun _ => [.mk b%"a" none [], .mk b%"b" none []], 1, 0⟩

/-- A schedule: turn and turn about, with other code in between that makes new attributes. -/
def twoMoves : List (Move Bool) :=
  (List.range 100).flatMap fun k => [.run true, .run false,
    .other fun sh => { sh with dl := fun r => if r = 0 then sh.dl r else [.mk [UInt8.ofNat k] none []], dlNext := k }]

theorem twoNode_calls (q : Action → Prop) : NodeCalls q (fun r => r = 0) twoNode := by
  refine ⟨⟨?_, by intro ca h; cases h⟩, ⟨trivial, trivial⟩, trivial⟩
  intro a ha
  change a ∈ [Attr.delim b%"class" b%" " 0] at ha
  simp at ha; subst ha; rfl

/-- Functions that are not called. -/
def noFns (_ : Action) : Prop := False

theorem two_met : (∀ _ : Bool, QuietFns (SameFor fun r => r = 0) Sample.env noFns fun r => r = 0) ∧
    HeapUses noFns (fun r => r = 0) twoShared.dl ∧ (∀ m ∈ twoMoves, Harmless (SameFor fun r => r = 0) m) := by
  refine ⟨fun _ _ h => h.elim, ?_, ?_⟩
  · intro r _; exact ⟨trivial, trivial, trivial⟩
  · intro m hm
    obtain ⟨k, -, hk⟩ := List.mem_flatMap.1 hm
    simp at hk
    rcases hk with rfl | rfl | rfl
    · trivial
    · trivial
    · intro sh
      refine ⟨rfl, ?_⟩
      rintro r rfl
      rfl

/-- The functions of the example with `ContentCollect` and `Imperative`: `ContentCollect` supplies `twoNode`;
`Imperative` starts a `b` element with the class attribute, writes `ContentCollect` of it, and ends all. -/
def supplyEnv : Env :=
  { Sample.env with
    collect := fun _ s => ([some twoNode, none], s)
    imp := fun _ _ => .call (.start b%"b" false [some (.attr (.delim b%"class" b%" " 0))]) fun _ =>
      .call (.writeNodes [some (.collector 0)]) fun _ => .call .endAll fun _ => .ret none }

/-- The function of `ContentCollect` and that of `Imperative`. -/
def supplyFns (a : Action) : Prop := a = .collect 0 ∨ a = .imp 0

theorem supply_met : QuietFns (SameFor fun r => r = 0) supplyEnv supplyFns (fun r => r = 0) ∧
    NodeCalls supplyFns (fun r => r = 0) (.imperative (some 0)) ∧ HeapUses supplyFns (fun r => r = 0) twoShared.dl := by
  refine ⟨?_, Or.inr rfl, fun r _ => ⟨trivial, trivial, trivial⟩⟩
  rintro a (rfl | rfl)
  · refine ⟨⟨fun s => ⟨rfl, fun _ _ => rfl⟩, fun s s' h => ⟨rfl, congrArg Local.frame h.1⟩⟩, fun s n hn => ?_⟩
    change some n ∈ [some twoNode, none] at hn
    simp at hn; subst hn
    exact twoNode_calls _
  · refine ⟨fun _ _ _ => rfl, fun _ => .call ⟨fun n hn => ?_, by decide⟩ (fun _ _ _ => rfl) fun _ =>
      .call (fun n hn => ?_) (fun _ _ _ => rfl) fun _ => .call trivial (fun _ _ _ => rfl) fun _ => .ret⟩
    · simp at hn; subst hn; rfl
    · simp at hn; subst hn; exact Or.inl rfl

theorem supply_ends : Ends supplyEnv (.imperative (some 0)) := by
  refine .imperative fun s n hn => ?_
  have : n = .collector 0 := by
    cases hn with
    | later hn =>
      cases hn with
      | now hn => simpa using hn
      | later hn => cases hn with | later hn => cases hn
  subst this
  refine .collector fun s n hn => ?_
  change some n ∈ [some twoNode, none] at hn
  simp at hn; subst hn
  exact ends_of_fixed _ ⟨trivial, trivial⟩

/-! ### C50 — concurrent renders do not interfere -/

section
variable {ι : Type} [DecidableEq ι] {R : Shared → Shared → Prop} (hR : Equivalence R) {ρ : Nat → Prop}
  (hmem : ∀ sh sh', R sh sh' → SameFor ρ sh sh')
  (nodes : ι → Node) (envs : ι → Env) (own : ι → Local) (sh : Shared)
  (q : ι → Action → Prop) (hq : ∀ i, QuietFns R (envs i) (q i) ρ) (hn : ∀ i, NodeCalls (q i) ρ (nodes i))
  (hh : ∀ i, HeapUses (q i) ρ sh.dl) (fuel : ι → Nat) (moves : List (Move ι)) (hm : ∀ m ∈ moves, Harmless R m)
include hR hmem hq hn hh hm

theorem alone_start :
    (∀ i, Alone R (fun c => HeapUses (q i) ρ c.dl) (NodeCalls (q i) ρ) (envs i)
      (renderProg (fuel i) (nodes i)) (joinSt (own i) sh) (turns i moves) (((startAll nodes envs fuel own sh).run moves).threads i)
      ((startAll nodes envs fuel own sh).run moves).shared) ∧
    R sh ((startAll nodes envs fuel own sh).run moves).shared := by
  have := alone_run (I := fun i c => HeapUses (q i) ρ c.dl) (N := fun i => NodeCalls (q i) ρ) hR (fun i s s' hs h r hr => by
      have : s.dl r = s'.dl r := (hmem _ _ hs).2 r hr
      rw [← this]; exact h r hr)
    (progs := fun i => renderProg (fuel i) (nodes i)) (s₀ := fun i => joinSt (own i) sh) moves hm
    (startAll nodes envs fuel own sh) (fun _ => 0) (envs := envs) (fun i =>
      ⟨rfl, .renderProg (uniTree hR hmem (hq i)) (fun f h => respects_fn hR (hq i _ h)) (fun _ => Iff.rfl) _ _ (hn i), _, rfl, hR.refl _, rfl, hh i, Or.inl rfl⟩)
  exact ⟨fun i => by simpa using this.1 i, this.2⟩

/-- Goroutines (any number of them) render nodes at the same time, each with its own context and writer; the nodes may
share elements and attributes.  Whatever the interleaving of their steps, and whatever other code does meanwhile to
memory that does not matter (`R`): a goroutine that has finished has returned the error, and made the calls to its
writer, that it would have alone.  (All user functions in the nodes are `QuietFns`, and those in nodes supplied by
`ContentCollect` and `Imperative` functions.) -/
theorem C50_alone (i : ι) (e : Option Err)
    (he : (((startAll nodes envs fuel own sh).run moves).threads i).prog = .pure e) :
    ∃ s', Runs (envs i) (nodes i) (joinSt (own i) sh) e s' ∧
      s'.own = (((startAll nodes envs fuel own sh).run moves).threads i).own := by
  obtain ⟨h1, h2, s, h3, h4, h5, -⟩ := (alone_start hR hmem nodes envs own sh q hq hn hh fuel moves hm).1 i
  refine ⟨s, ⟨fuel i, ?_⟩, h3⟩
  rw [he] at h5
  exact h5.symm

set_option maxRecDepth 20000 in
omit hR hmem hq hn hh hm in
example := C50_alone (sameFor_equivalence fun r => r = 0) (fun _ _ h => h) (fun _ => twoNode) (fun _ => Sample.env) twoOwn
  twoShared (fun _ => noFns) two_met.1 (fun _ => twoNode_calls _) (fun _ => two_met.2.1) (fun _ => 2) twoMoves two_met.2.2
  true none rfl

/-- Rendering leaves the shared memory alone: it is what other code made of it. -/
theorem C50_memory : R sh ((startAll nodes envs fuel own sh).run moves).shared :=
  (alone_start hR hmem nodes envs own sh q hq hn hh fuel moves hm).2

omit hR hmem hq hn hh hm in
example := C50_memory (sameFor_equivalence fun r => r = 0) (fun _ _ h => h) (fun _ => .imperative (some 0))
  (fun _ => supplyEnv) twoOwn twoShared (fun _ => supplyFns) (fun _ => supply_met.1) (fun _ => supply_met.2.1)
  (fun _ => supply_met.2.2) (fun _ => 4) twoMoves two_met.2.2

end

/-- A goroutine that would finish alone finishes, and after a number of steps that does not depend on the others. -/
theorem C50_finishes {ι : Type} [DecidableEq ι] {R : Shared → Shared → Prop} (hR : Equivalence R) {ρ : Nat → Prop}
    (hmem : ∀ sh sh', R sh sh' → SameFor ρ sh sh')
    (nodes : ι → Node) (envs : ι → Env) (own : ι → Local) (sh : Shared)
    (q : ι → Action → Prop) (hq : ∀ i, QuietFns R (envs i) (q i) ρ) (hn : ∀ i, NodeCalls (q i) ρ (nodes i))
    (hh : ∀ i, HeapUses (q i) ρ sh.dl) (fuel : ι → Nat) (i : ι) {e : Option Err} {s' : St}
    (hr : render (envs i) (fuel i) (nodes i) (joinSt (own i) sh) = some (e, s')) :
    ∃ k, ∀ moves, (∀ m ∈ moves, Harmless R m) → k ≤ turns i moves →
      (((startAll nodes envs fuel own sh).run moves).threads i).prog = .pure e ∧
      (((startAll nodes envs fuel own sh).run moves).threads i).own = s'.own := by
  refine ⟨execSteps (envs i) (renderProg (fuel i) (nodes i)) (joinSt (own i) sh), fun moves hm hk => ?_⟩
  obtain ⟨h1, h2, s, h4, -, h5, -, h3⟩ := (alone_start hR hmem nodes envs own sh q hq hn hh fuel moves hm).1 i
  have h6 := h5.trans hr
  generalize (((startAll nodes envs fuel own sh).run moves).threads i).prog = p at *
  cases h2 with
  | pure a => cases h6; exact ⟨rfl, h4.symm⟩
  | stuck => cases h6
  | step a k hp he hu =>
    have e : execSteps (envs i) (Prog.step a k) s =
      1 + execSteps (envs i) (k (a.run (envs i) s).1) (a.run (envs i) s).2 := rfl
    omega

example := C50_finishes (sameFor_equivalence fun r => r = 0) (fun _ _ h => h) (fun _ => .imperative (some 0))
  (fun _ => supplyEnv) twoOwn twoShared (fun _ => supplyFns) (fun _ => supply_met.1) (fun _ => supply_met.2.1)
  (fun _ => supply_met.2.2) (fun _ => 4) true (e := none) rfl

/-- It finishes in particular if `ContentCollect` and `Imperative` functions do not supply nodes without end (`Ends`). -/
theorem C50_ends {ι : Type} [DecidableEq ι] {R : Shared → Shared → Prop} (hR : Equivalence R) {ρ : Nat → Prop}
    (hmem : ∀ sh sh', R sh sh' → SameFor ρ sh sh')
    (nodes : ι → Node) (envs : ι → Env) (own : ι → Local) (sh : Shared)
    (q : ι → Action → Prop) (hq : ∀ i, QuietFns R (envs i) (q i) ρ) (hn : ∀ i, NodeCalls (q i) ρ (nodes i))
    (hh : ∀ i, HeapUses (q i) ρ sh.dl) (i : ι) (he : Ends (envs i) (nodes i)) :
    ∃ F, ∀ fuel : ι → Nat, F ≤ fuel i → ∃ k, ∀ moves, (∀ m ∈ moves, Harmless R m) → k ≤ turns i moves →
      ∃ e, (((startAll nodes envs fuel own sh).run moves).threads i).prog = .pure e := by
  obtain ⟨⟨e, s'⟩, F, h⟩ := halts_of_ends he (joinSt (own i) sh)
  refine ⟨F, fun fuel hf => ?_⟩
  obtain ⟨k, hk⟩ := C50_finishes hR hmem nodes envs own sh q hq hn hh fuel i (h _ hf)
  exact ⟨k, fun moves hm ht => ⟨_, (hk moves hm ht).1⟩⟩

example := C50_ends (sameFor_equivalence fun r => r = 0) (fun _ _ h => h) (fun _ => .imperative (some 0))
  (fun _ => supplyEnv) twoOwn twoShared (fun _ => supplyFns) (fun _ => supply_met.1) (fun _ => supply_met.2.1)
  (fun _ => supply_met.2.2) true supply_ends

mutual
theorem nodeCalls_of_uses {q : Action → Prop} {ρ : Nat → Prop} : (n : Node) → NodeUses q ρ n → NodeCalls q ρ n
  | .element _ cs, hn => ⟨hn.1, nodesCall_of_uses cs hn.2⟩
  | .voidElement _, hn => hn
  | .attr _, hn => hn
  | .text _, hn => hn
  | .comment _, hn => hn
  | .fragment _, hn => hn
  | .pi _ _, hn => hn
  | .collection ns, hn => nodesCall_of_uses ns hn
  | .conditional ns _ _, hn => ⟨hn.1, nodesCall_of_uses ns hn.2⟩
  | .iterator ns _, hn => ⟨hn.1, nodesCall_of_uses ns hn.2⟩
  | .yieldIterator ns _, hn => ⟨hn.1, nodesCall_of_uses ns hn.2⟩
  | .document none cs, hn => nodesCall_of_uses cs hn
  | .document (some p) cs, hn => ⟨nodeCalls_of_uses p hn.1, nodesCall_of_uses cs hn.2⟩
  | .collector _, hn => hn.elim
  | .imperative _, hn => by cases hn; trivial
theorem nodesCall_of_uses {q : Action → Prop} {ρ : Nat → Prop} : (ns : List Node) → NodesUse q ρ ns → NodesCall q ρ ns
  | [], _ => trivial
  | n :: ns, hn => ⟨nodeCalls_of_uses n hn.1, nodesCall_of_uses ns hn.2⟩
end

/-- For nodes that call no user functions: other code may change all memory but the maps and those delimited
attributes that hold no user functions (`C50_alone` with the weakest condition for them). -/
theorem C50_callbackFree {ι : Type} [DecidableEq ι] (nodes : ι → Node) (envs : ι → Env) (own : ι → Local) (sh : Shared)
    (hn : ∀ i, CallbackFree sh.dl (nodes i)) (moves : List (Move ι))
    (hm : ∀ m ∈ moves, Harmless (SameFor fun r => ValuesUse (fun _ => False) (sh.dl r)) m) (i : ι) (e : Option Err)
    (he : (((startAll nodes envs (fun i => depth (nodes i)) own sh).run moves).threads i).prog = .pure e) :
    ∃ s', Runs (envs i) (nodes i) (joinSt (own i) sh) e s' ∧
      s'.log = (((startAll nodes envs (fun i => depth (nodes i)) own sh).run moves).threads i).own.log := by
  obtain ⟨s', h1, h2⟩ := C50_alone (sameFor_equivalence fun r => ValuesUse (fun _ => False) (sh.dl r)) (fun _ _ h => h)
    nodes envs own sh (fun _ _ => False) (fun _ _ h => h.elim) (fun i => nodeCalls_of_uses _ (hn i)) (fun i r hr => hr) _ moves
    hm i e he
  exact ⟨s', h1, congrArg Local.log h2⟩

/-- Both finish, each with its own output. -/
example : (fun (m : Machine Bool) => (accepted (m.threads true).own.log, accepted (m.threads false).own.log))
    ((startAll (fun _ => twoNode) (fun _ => Sample.env) (fun _ => 2) twoOwn twoShared).run twoMoves) =
    (b%"<p class=\"a b\">y</p>", b%"<p class=\"a b\">x</p>") := by
  decide +kernel

/-- Both goroutines finish, each with its own output. -/
example : (fun (m : Machine Bool) => (accepted (m.threads true).own.log, accepted (m.threads false).own.log))
    ((startAll (fun _ => .imperative (some 0)) (fun _ => supplyEnv) (fun _ => 4) twoOwn twoShared).run twoMoves) =
    (b%"<b class=\"a b\"><p class=\"a b\">y</p></b>", b%"<b class=\"a b\"><p class=\"a b\">x</p></b>") := by
  decide +kernel

/-- A function that counts its calls in shared memory. -/
def countEnv : Env :=
  { Sample.env with dyn := fun _ s => ([UInt8.ofNat (48 + s.world)], { s with world := s.world + 1 }) }

/-- A text showing it. -/
def countNode : Node := .text [.mk [] (some (.user 0)) []]

/-- A goroutine's own memory. -/
def countOwn : Local := ⟨{ err := none, data := none, cargo := .nil }, [], [], 0⟩

/-- The shared memory: the count is 0. -/
def countShared : Shared := ⟨fun _ => [], fun _ => [], 0, 0⟩

/-- First the one goroutine, then the other. -/
def countMoves : List (Move Bool) := List.replicate 4 (.run true) ++ List.replicate 4 (.run false)

/-- The condition on user functions is needed: with this function the second goroutine has another output than it
would have alone. -/
theorem C50_needed : (∀ m ∈ countMoves, Harmless Eq m) ∧
    (((startAll (fun _ => countNode) (fun _ => countEnv) (fun _ => 1) (fun _ => countOwn) countShared).run
      countMoves).threads false).prog = .pure none ∧
    ∀ s', Runs countEnv countNode (joinSt countOwn countShared) none s' →
      s'.log ≠ (((startAll (fun _ => countNode) (fun _ => countEnv) (fun _ => 1) (fun _ => countOwn) countShared).run
        countMoves).threads false).own.log := by
  refine ⟨?_, rfl, ?_⟩
  · intro m hm
    rcases List.mem_append.1 hm with hm | hm <;> rw [List.eq_of_mem_replicate hm] <;> trivial
  · intro s' h
    have h2 : Runs countEnv countNode (joinSt countOwn countShared) none _ := ⟨1, rfl⟩
    obtain ⟨-, rfl⟩ := runs_unique h h2
    intro hc
    exact absurd (congrArg accepted hc) (by decide +kernel)

end Aitch.Props
