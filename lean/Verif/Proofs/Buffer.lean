import Verif.Spec.Buffer
import Verif.Proofs.Built
import Verif.Proofs.Quiet
import Verif.Proofs.Errors
/-
Rendering into a buffer: what is written does not depend on the parent contexts, if the functions do not look at them.
-/
namespace Aitch
open Spec

set_option linter.unusedSectionVars false

section
variable {P : Fns} (I : IgnoresParent P)
include I

theorem dynBytes_parents (c : Ctx) (ps : List Frame) : (d : Dyn) → dynBytes P { c with parents := ps } d = dynBytes P c d
  | .user f => I.dyn f c ps
  | .key _ => rfl
  | .cargo => rfl

mutual
theorem valueBytes_parents (c : Ctx) (ps : List Frame) : (v : Value) →
    valueBytes P { c with parents := ps } v = valueBytes P c v
  | .mk _ (some d) _ => by unfold valueBytes; exact dynBytes_parents I c ps d
  | .mk _ none [] => by unfold valueBytes; rfl
  | .mk _ none (x :: xs) => by
    unfold valueBytes; rw [valueBytes_parents c ps x, valuesBytes_parents c ps xs]
theorem valuesBytes_parents (c : Ctx) (ps : List Frame) : (vs : List Value) →
    valuesBytes P { c with parents := ps } vs = valuesBytes P c vs
  | [] => by unfold valuesBytes; rfl
  | v :: vs => by unfold valuesBytes; rw [valueBytes_parents c ps v, valuesBytes_parents c ps vs]
end

theorem valueBytes_parents' (c : Ctx) (ps : List Frame) : valueBytes P { c with parents := ps } = valueBytes P c :=
  funext (valueBytes_parents I c ps)

theorem valuesBytes_parents' (c : Ctx) (ps : List Frame) : valuesBytes P { c with parents := ps } = valuesBytes P c :=
  funext (valuesBytes_parents I c ps)

theorem shown_parents (c : Ctx) (ps : List Frame) : shown P { c with parents := ps } = shown P c := by
  funext a
  cases a with
  | plain n vs => simp only [shown, valuesBytes_parents I]
  | bool n => rfl
  | delim n d r => simp only [shown, valueBytes_parents' I]

theorem shownMerged_parents (c : Ctx) (ps : List Frame) :
    shownMerged P { c with parents := ps } = shownMerged P c := by
  funext a more last
  cases a <;> simp only [shownMerged, shown_parents I, valueBytes_parents' I]

theorem holds_parents (c : Ctx) (ps : List Frame) : holds P { c with parents := ps } = holds P c := by
  funext d
  cases d with
  | user f => exact I.cond f c ps
  | has k => rfl
  | hasNot k => rfl

theorem tagShows_parents (c : Ctx) (ps : List Frame) (h : ElemHead) (l : List Shown) :
    TagShows P { c with parents := ps } h l ↔ TagShows P c h l := by
  have h1 : active P { c with parents := ps } = active P c := by
    funext cas; simp only [active, holds_parents I]
  have h2 : shownStatics P { c with parents := ps } = shownStatics P c := by
    funext a b; simp only [shownStatics, shown_parents I, shownMerged_parents I]
  have h3 : shownExtras P { c with parents := ps } = shownExtras P c := by
    funext a b; simp only [shownExtras, shownMerged_parents I]
  unfold TagShows
  rw [h1, h2, h3, shown_parents I]

theorem srcItems_parents (c : Ctx) (ps : List Frame) : (fn : ItemSrc) →
    srcItems P { c with parents := ps } fn = srcItems P c fn
  | .user f => I.items f c ps
  | .key _ => rfl

mutual
theorem out_parents : {c : Ctx} → {n : Node} → {w : Bytes} → Out P c n w → (ps : List Frame) →
    Out P { c with parents := ps } n w
  | _, _, _, .element h1 h2, ps => .element (by rw [tagShows_parents I]; exact h1) (outAll_parents h2 ps)
  | _, _, _, .voidElement h1, _ => .voidElement (by rw [tagShows_parents I]; exact h1)
  | c, _, _, .attr, ps => by rw [← shown_parents I c ps]; exact .attr
  | c, _, _, .text, ps => by rw [← valuesBytes_parents I c ps]; exact .text
  | c, _, _, .comment, ps => by rw [← valuesBytes_parents I c ps]; exact .comment
  | c, _, _, .fragment, ps => by rw [← valuesBytes_parents I c ps]; exact .fragment
  | c, _, _, .pi, ps => by rw [← valuesBytes_parents I c ps]; exact .pi
  | _, _, _, .collection h1, ps => .collection (outAll_parents h1 ps)
  | _, _, _, .conditionalOn h1 h2, ps => .conditionalOn (by rw [holds_parents I]; exact h1) (outAll_parents h2 ps)
  | _, _, _, .conditionalOff h1, _ => .conditionalOff (by rw [holds_parents I]; exact h1)
  | c, _, _, .collector (f := f) h1, ps => .collector (by rw [I.collect f c ps]; exact outAll_parents h1 ps)
  | _, _, _, .imperativeNil, _ => .imperativeNil
  | c, _, _, .imperative (f := f) h1, ps => .imperative (by rw [I.imp f c ps]; exact outOps_parents h1 ps)
  | c, _, _, .iterator (fn := fn) h1, ps => .iterator (by rw [srcItems_parents I c ps fn]; exact outItems_parents h1 ps)
  | c, _, _, .yieldIterator (f := f) h1, ps => .yieldIterator (by rw [I.yields f c ps]; exact outYields_parents h1 ps)
  | _, _, _, .document h1, ps => .document (outAll_parents h1 ps)
theorem outAll_parents : {c : Ctx} → {ns : List Node} → {w : Bytes} → OutAll P c ns w → (ps : List Frame) →
    OutAll P { c with parents := ps } ns w
  | _, _, _, .nil, _ => .nil
  | _, _, _, .cons h1 h2, ps => .cons (out_parents h1 ps) (outAll_parents h2 ps)
theorem outItems_parents : {c : Ctx} → {ns : List Node} → {its : List Any} → {w : Bytes} → OutItems P c ns its w →
    (ps : List Frame) → OutItems P { c with parents := ps } ns its w
  | _, _, _, _, .nil, _ => .nil
  | c, _, _, _, .cons h1 h2, ps => .cons (outAll_parents h1 (c.frame :: ps)) (outItems_parents h2 ps)
theorem outYields_parents : {c : Ctx} → {ns : List Node} → {d : Option MapId} → {its : List Any} → {w : Bytes} →
    OutYields P c ns d its w → (ps : List Frame) → OutYields P { c with parents := ps } ns d its w
  | _, _, _, _, _, .nil, _ => .nil
  | c, _, _, _, _, .cons h1 h2, ps => .cons (outAll_parents h1 (c.frame :: ps)) (outYields_parents h2 ps)
theorem outOps_parents : {c : Ctx} → {ops : List ImpOp} → {st : List Bytes} → {w : Bytes} → OutOps P c ops st w →
    (ps : List Frame) → OutOps P { c with parents := ps } ops st w
  | _, _, _, _, .nil, _ => .nil
  | _, _, _, _, .writeString h, ps => .writeString (outOps_parents h ps)
  | _, _, _, _, .writeRaw h, ps => .writeRaw (outOps_parents h ps)
  | _, _, _, _, .writeNodes h1 h2, ps => .writeNodes (outAll_parents h1 ps) (outOps_parents h2 ps)
  | c, _, _, _, .startVoid h, ps => by
    rw [← valuesBytes_parents' I c ps]; exact .startVoid (outOps_parents h ps)
  | c, _, _, _, .start h, ps => by
    rw [← valuesBytes_parents' I c ps]; exact .start (outOps_parents h ps)
  | _, _, _, _, .endNone h, ps => .endNone (outOps_parents h ps)
  | _, _, _, _, .endSome h, ps => .endSome (outOps_parents h ps)
  | _, _, _, _, .endAll h, ps => .endAll (outOps_parents h ps)
end

end

/-- Running a component whose method starts with a buffered rendering. -/
theorem exec_inBuffer {env : Env} {f : FnId} {s t : St} {k : ImpProg} (fuel : Nat)
    (h : env.imp f s = .user (fun _ => backFrom s t) fun _ => k) :
    render env (fuel + 1) (component f) s = exec env (runImp (renderProg fuel) k []) (backFrom s t) := by
  have e1 : render env (fuel + 1) (component f) s = exec env (runImp (renderProg fuel) (env.imp f s) []) s := rfl
  rw [e1, h]
  rfl

/-- `ctx.Write(out); return ctx.Error`. -/
theorem exec_writeRaw {env : Env} {rec : Render} {out : Bytes} {stack : List Bytes} {s : St} (he : s.frame.err = none) :
    exec env (runImp rec (.call (.writeRaw out) fun s => .ret s.frame.err) stack) s =
      some ((env.write s.log out).2, (s.wrote out (env.write s.log out)).setErr (env.write s.log out).2) := by
  have e1 : exec env (runImp rec (.call (.writeRaw out) fun s => .ret s.frame.err) stack) s =
      exec env ((ctxWrite out >>= fun _ => Pure.pure stack) >>= fun st => Do.look >>= fun s =>
        runImp rec (.ret s.frame.err) st) s := rfl
  rw [e1]
  obtain ⟨⟨⟨err, _, _⟩, _, _, _, _, _⟩, _, _⟩ := s
  cases he
  rfl

theorem exec_writeRaw_err {env : Env} {rec : Render} {out : Bytes} {stack : List Bytes} {s : St} {e : Err}
    (he : s.frame.err = some e) :
    exec env (runImp rec (.call (.writeRaw out) fun s => .ret s.frame.err) stack) s = some (some e, s) := by
  have e1 : exec env (runImp rec (.call (.writeRaw out) fun s => .ret s.frame.err) stack) s =
      exec env ((ctxWrite out >>= fun _ => Pure.pure stack) >>= fun st => Do.look >>= fun s =>
        runImp rec (.ret s.frame.err) st) s := rfl
  rw [e1]
  obtain ⟨⟨⟨err, _, _⟩, _, _, _, _, _⟩, _, _⟩ := s
  cases he
  rfl

/-! ### Programs that write something and change nothing -/

/-- The program, started in `s`, ends, writes `w` and leaves memory and the clock of map orders as they were. -/
def Puts {α : Type} (env : Env) (m : Prog α) (s : St) (w : Bytes) : Prop :=
  ∃ a s', exec env m s = some (a, s') ∧ s'.toCtx = s.toCtx ∧ s'.tick = s.tick ∧ s'.out = s.out ++ w

theorem Puts.bind {α β : Type} {env : Env} {m : Prog α} {k : α → Prog β} {s : St} {w w' : Bytes} (h : Puts env m s w)
    (hk : ∀ a s', s'.toCtx = s.toCtx → s'.tick = s.tick → Puts env (k a) s' w') : Puts env (m >>= k) s (w ++ w') := by
  obtain ⟨a, s', h1, h2, h3, h4⟩ := h
  obtain ⟨b, s'', k1, k2, k3, k4⟩ := hk a s' h2 h3
  refine ⟨b, s'', ?_, k2.trans h2, k3.trans h3, ?_⟩
  · rw [exec_bind, h1]; exact k1
  · rw [k4, h4, List.append_assoc]

theorem puts_pure {α : Type} (env : Env) (a : α) (s : St) : Puts env (Pure.pure a) s [] :=
  ⟨a, s, rfl, rfl, rfl, (List.append_nil _).symm⟩

theorem out_put {env : Env} (H : Healthy env) (d : Bytes) (s : St) (e : Option Err) :
    ((s.wrote d (env.write s.log d)).setErr e).out = s.out ++ d := by
  rw [H]; simp [St.out, St.setErr, St.wrote, accepted]

theorem ctx_put {env : Env} (H : Healthy env) (d : Bytes) {s : St} (he : s.frame.err = none) :
    ((s.wrote d (env.write s.log d)).setErr (env.write s.log d).2).toCtx = s.toCtx := by
  rw [H]
  obtain ⟨⟨⟨err, _, _⟩, _, _, _, _, _⟩, _, _⟩ := s
  cases he
  rfl

theorem puts_ctxWrite {env : Env} (H : Healthy env) (d : Bytes) {s : St} (he : s.frame.err = none) :
    Puts env (ctxWrite d) s d := by
  refine ⟨(), _, ?_, ctx_put H d he, rfl, out_put H d s _⟩
  rw [exec_ctxWrite, he]

theorem puts_dyn {env : Env} (H : Healthy env) {f : FnId} {w : Bytes} {s x : St} (he : s.frame.err = none)
    (h : env.dyn f s = (w, x) ∧ s.confine x = s) : Puts env (renderValue (.mk [] (some (.user f)) [])) s w := by
  refine ⟨decide ((env.write s.log w).1 > 0), _, ?_, ctx_put H w he, rfl, out_put H w s _⟩
  have e1 : exec env (renderValue (.mk [] (some (.user f)) [])) s =
      exec env (valueWrite (env.dyn f s).1) (s.confine (env.dyn f s).2) := by
    unfold renderValue; rfl
  rw [e1, h.1, h.2]
  rfl

theorem puts_dynValues {env : Env} (H : Healthy env) {f : FnId} {w : Bytes} {s x : St} (he : s.frame.err = none)
    (h : env.dyn f s = (w, x) ∧ s.confine x = s) : Puts env (renderValues [.mk [] (some (.user f)) []]) s w := by
  have := (puts_dyn H he h).bind (k := fun _ => (Pure.pure () : Prog Unit)) fun _ s' _ _ => puts_pure env () s'
  rw [List.append_nil] at this
  exact this

/-- A `Render` method that writes `w` and returns `ctx.Error`. -/
theorem Puts.writes {env : Env} {n : Node} {m : Prog Unit} {s : St} {w : Bytes} (h : Puts env m s w)
    (he : s.frame.err = none) (hn : exec env (renderProg 1 n) s = exec env (m >>= fun _ => retErr) s) : Writes env n s w := by
  obtain ⟨a, s', h1, h2, _, h4⟩ := h
  refine ⟨s', ⟨1, ?_⟩, h4, h2⟩
  rw [render, hn, exec_bind, h1]
  have : s'.frame = s.frame := congrArg Ctx.frame h2
  rw [← this] at he
  exact (exec_retErr env s').trans (by rw [he])

theorem exec_assoc {α β γ : Type} (env : Env) (m : Prog α) (k : α → Prog β) (l : β → Prog γ) (s : St) :
    exec env (m >>= fun a => k a >>= l) s = exec env ((m >>= k) >>= l) s := by
  simp only [exec_bind, Option.bind_assoc]

/-- The dynamic value of a buffer, in states that differ from `s` only in what has been written. -/
theorem dyn_buffer {env inner : Env} {f : FnId} {n : Node} (B : ReturnsBuffer env inner f n) {e : Option Err} {s t : St}
    (h : Runs inner n (inBuffer s) e t) (hc : t.toCtx = (inBuffer s).toCtx) {s' : St} (h1 : s'.toCtx = s.toCtx)
    (h2 : s'.tick = s.tick) : env.dyn f s' = (t.out, backFrom s' t) ∧ s'.confine (backFrom s' t) = s' := by
  have e1 : inBuffer s' = inBuffer s := by
    obtain ⟨c, l, k⟩ := s; obtain ⟨c', l', k'⟩ := s'
    cases h1; cases h2; rfl
  obtain ⟨e', t', r1, r2⟩ := B.2 s'
  rw [e1] at r1
  obtain ⟨rfl, rfl⟩ := runs_unique h r1
  refine ⟨r2, ?_⟩
  rw [← e1] at hc
  obtain ⟨⟨f1, p1, m1, d1, n1, w1⟩, l1, k1⟩ := t
  obtain ⟨⟨f2, p2, m2, d2, n2, w2⟩, l2, k2⟩ := s'
  simp only [inBuffer, contextNew, Ctx.mk.injEq] at hc
  obtain ⟨_, _, rfl, rfl, rfl, rfl⟩ := hc
  rfl

end Aitch
