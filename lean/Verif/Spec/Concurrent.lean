import Verif.Model.Machine
import Verif.Spec.Finite
import Verif.Spec.Obs
/-
What other goroutines may do while a node is rendered.  `R` relates two shared memories that are the same as far as
the renders are concerned.
-/
namespace Aitch.Spec

/-- Nothing of interest differs: the same maps, and the same delimited attributes as far as they are in `ρ`. -/
def SameFor (ρ : Nat → Prop) (sh sh' : Shared) : Prop := sh.maps = sh'.maps ∧ ∀ r, ρ r → sh.dl r = sh'.dl r

/-- Two states that differ in their shared memory only, and there only within `R`. -/
def Sim (R : Shared → Shared → Prop) (s s' : St) : Prop := s.own = s'.own ∧ R s.shared s'.shared

/-- A function that leaves the shared memory alone and depends on its own context and on `R`-equal parts of the
shared memory only. -/
structure QuietCall (R : Shared → Shared → Prop) {α : Type} (f : St → α × St) : Prop where
  keeps : ∀ s, R s.shared (f s).2.shared
  same : ∀ s s', Sim R s s' → (f s).1 = (f s').1 ∧ (f s).2.frame = (f s').2.frame

/-- The same for the body of a function given to `IterateYield`. -/
inductive QuietYield (R : Shared → Shared → Prop) : YieldProg → Prop
  | done : QuietYield R .done
  | yield {it k} : (∀ s s', Sim R s s' → k s = k s') → (∀ s, QuietYield R (k s)) → QuietYield R (.yield it k)
  | user {upd k} : QuietCall R (fun s => ((), upd s)) → (∀ s s', Sim R s s' → k s = k s') →
      (∀ s, QuietYield R (k s)) → QuietYield R (.user upd k)
  | write {d k} : (∀ r s s', Sim R s s' → k r s = k r s') → (∀ r s, QuietYield R (k r s)) → QuietYield R (.write d k)

mutual
/-- The user functions in the node (of values, conditions, iterations, `ContentCollect` and `Imperative`) are among `q`,
and its delimited attributes among `ρ`. -/
def NodeCalls (q : Action → Prop) (ρ : Nat → Prop) : Node → Prop
  | .element h contents => HeadUses q ρ h ∧ NodesCall q ρ contents
  | .voidElement h => HeadUses q ρ h
  | .attr a => AttrUses q ρ a
  | .text vs => ValuesUse q vs
  | .comment vs => ValuesUse q vs
  | .fragment vs => ValuesUse q vs
  | .pi _ vs => ValuesUse q vs
  | .collection ns => NodesCall q ρ ns
  | .conditional ns _ fn => CondUses q fn ∧ NodesCall q ρ ns
  | .iterator ns fn => SrcUses q fn ∧ NodesCall q ρ ns
  | .yieldIterator ns f => q (.yields f) ∧ NodesCall q ρ ns
  | .document none contents => NodesCall q ρ contents
  | .document (some p) contents => NodeCalls q ρ p ∧ NodesCall q ρ contents
  | .collector f => q (.collect f)
  | .imperative none => True
  | .imperative (some f) => q (.imp f)
/-- `NodeCalls` for every node of a list. -/
def NodesCall (q : Action → Prop) (ρ : Nat → Prop) : List Node → Prop
  | [] => True
  | n :: ns => NodeCalls q ρ n ∧ NodesCall q ρ ns
end

/-- The names of the attributes among some nodes. -/
def attrNames : List (Option Node) → List Bytes
  | [] => []
  | some (.attr a) :: ns => a.name :: attrNames ns
  | _ :: ns => attrNames ns

/-- A call on an `ImperativeContext` with nodes in `N`.  `Start` gets every attribute once.  (Otherwise it appends to the
slices of the attributes, which goroutines may share: see C73.) -/
def OpIn (N : Node → Prop) : ImpOp → Prop
  | .writeNodes ns => ∀ n, some n ∈ ns → N n
  | .start _ _ attrs => (∀ n, some n ∈ attrs → N n) ∧ (attrNames attrs).Nodup
  | _ => True

/-- The body of a function given to `Imperative` that leaves the shared memory alone, depends on `R`-equal parts of it
only, and writes nodes in `N`. -/
inductive QuietImp (R : Shared → Shared → Prop) (N : Node → Prop) : ImpProg → Prop
  | ret {e} : QuietImp R N (.ret e)
  | call {op k} : OpIn N op → (∀ s s', Sim R s s' → k s = k s') → (∀ s, QuietImp R N (k s)) → QuietImp R N (.call op k)
  | user {upd k} : QuietCall R (fun s => ((), upd s)) → (∀ s s', Sim R s s' → k s = k s') →
      (∀ s, QuietImp R N (k s)) → QuietImp R N (.user upd k)
  | render {n k} : N n → (∀ e s s', Sim R s s' → k e s = k e s') → (∀ e s, QuietImp R N (k e s)) →
      QuietImp R N (.render n k)
  | write {d k} : (∀ r s s', Sim R s s' → k r s = k r s') → (∀ r s, QuietImp R N (k r s)) → QuietImp R N (.write d k)

/-- The user function is quiet, and the nodes that it supplies are in `N`. -/
def QuietFn (R : Shared → Shared → Prop) (N : Node → Prop) (env : Env) : Action → Prop
  | .dyn f => QuietCall R (env.dyn f)
  | .cond f => QuietCall R (env.cond f)
  | .items f => QuietCall R (env.items f)
  | .yields f => (∀ s s', Sim R s s' → env.yields f s = env.yields f s') ∧ ∀ s, QuietYield R (env.yields f s)
  | .collect f => QuietCall R (env.collect f) ∧ ∀ s n, some n ∈ (env.collect f s).1 → N n
  | .imp f => (∀ s s', Sim R s s' → env.imp f s = env.imp f s') ∧ ∀ s, QuietImp R N (env.imp f s)
  | _ => False

/-- All functions in `q` are quiet, also those in the nodes that they supply. -/
def QuietFns (R : Shared → Shared → Prop) (env : Env) (q : Action → Prop) (ρ : Nat → Prop) : Prop :=
  ∀ a, q a → QuietFn R (NodeCalls q ρ) env a

/-- Other code changes the shared memory within `R` only. -/
def Harmless {ι : Type} (R : Shared → Shared → Prop) : Move ι → Prop
  | .run _ => True
  | .other upd => ∀ sh, R sh (upd sh)

/-- How often goroutine `i` moves. -/
def turns {ι : Type} [DecidableEq ι] (i : ι) : List (Move ι) → Nat
  | [] => 0
  | .run j :: as => (if j = i then 1 else 0) + turns i as
  | .other _ :: as => turns i as

end Aitch.Spec
