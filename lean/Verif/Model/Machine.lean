import Verif.Model.Render
/-
Several goroutines rendering at the same time.  Every goroutine has its own context, its own writer and its own
program; maps, delimited attributes and all other memory are shared.  One step is one effect (`Action`) of one
goroutine, so every interleaving of the effects is a run.  (Simplification: a call of a user function is one step.
Only sequentially consistent executions are described; by `C50_memory` rendering writes no shared memory.
The slices that `Start` may append to are those of C73.)
-/
namespace Aitch

/-- context/context.go:14, attribute.go:99-103 — The memory that goroutines share: the parts of `Ctx` that belong to
no context. -/
structure Shared where
  maps : MapId → List (Bytes × Any)
  dl : Nat → List Value
  dlNext : Nat
  world : Nat

/-- What a goroutine has for itself: its context with the parents (context/context.go:10-18), its writer (the calls
it got) and its count of `range` loops. -/
structure Local where
  frame : Frame
  parents : List Frame
  log : List WEvent
  tick : Nat

/-- context/context.go:14, attribute.go:99-103 — The shared part of a state. -/
def St.shared (s : St) : Shared := ⟨s.maps, s.dl, s.dlNext, s.world⟩

/-- context/context.go:10-21 — The own part of a state. -/
def St.own (s : St) : Local := ⟨s.frame, s.parents, s.log, s.tick⟩

/-- context/context.go:10-21, attribute.go:99-103 — The state that a goroutine sees. -/
def joinSt (l : Local) (sh : Shared) : St :=
  { frame := l.frame, parents := l.parents, maps := sh.maps, dl := sh.dl, dlNext := sh.dlNext, world := sh.world,
    log := l.log, tick := l.tick }

/-- aitch.go:18 (`Render`, called in a goroutine) — A goroutine: its writer, functions and map orders, what it has
still to do, and its own memory. -/
structure Thread where
  env : Env
  prog : Prog (Option Err)
  own : Local

/-- aitch.go:18 — One effect of a goroutine; nothing if it has finished. -/
def Thread.step (t : Thread) (sh : Shared) : Thread × Shared :=
  match t.prog with
  | .step a k =>
    let r := a.run t.env (joinSt t.own sh)
    ({ t with prog := k r.1, own := r.2.own }, r.2.shared)
  | .pure _ => (t, sh)
  | .stuck => (t, sh)

/-- aitch.go:18 — All goroutines and the shared memory. -/
structure Machine (ι : Type) where
  threads : ι → Thread
  shared : Shared

/-- aitch.go:18 — What can happen next: a goroutine performs its next effect, or other code changes shared memory. -/
inductive Move (ι : Type) where
  | run (i : ι)
  | other (upd : Shared → Shared)

/-- aitch.go:18 — One move. -/
def Machine.move {ι : Type} [DecidableEq ι] (m : Machine ι) : Move ι → Machine ι
  | .run i =>
    let r := (m.threads i).step m.shared
    { threads := fun j => if j = i then r.1 else m.threads j, shared := r.2 }
  | .other upd => { m with shared := upd m.shared }

/-- aitch.go:18 — A sequence of moves. -/
def Machine.run {ι : Type} [DecidableEq ι] (m : Machine ι) : List (Move ι) → Machine ι
  | [] => m
  | a :: as => (m.move a).run as

/-- aitch.go:18 — Goroutine `i` calls `nodes[i].Render` with its own context `own i`.  `fuel` bounds the depth to
which the program is unfolded. -/
def startAll {ι : Type} (nodes : ι → Node) (envs : ι → Env) (fuel : ι → Nat) (own : ι → Local) (sh : Shared) :
    Machine ι :=
  { threads := fun i => ⟨envs i, renderProg (fuel i) (nodes i), own i⟩, shared := sh }

end Aitch
