import Verif.Spec.StreamConcurrent
import Verif.Proofs.Machine
import Verif.Proofs.Stream
/-
Goroutines do what they would do alone, also when their functions write and render.
-/
namespace Aitch.Stream
open Aitch Spec Spec.Stream

section
variable {R : Shared → Shared → Prop} {I : Ctx → Prop} {N : Node → Prop} {p q : Action → Prop} {ρ : Nat → Prop}

/-- The effects of a rendering in which the calls of functions are still to be replaced by their bodies. -/
def Calling (p q : Action → Prop) : Action → Prop
  | .dyn f => q (.dyn f)
  | .cond f => q (.cond f)
  | .items f => q (.items f)
  | .collect f => q (.collect f)
  | a => p a

/-- The effects that are needed for the bodies. -/
structure UniBody (R : Shared → Shared → Prop) (p : Action → Prop) : Prop where
  write : ∀ d, p (.write d)
  look : p .look
  user : ∀ u, QuietCall R (fun s => ((), u s)) → p (.user u)

theorem assoc {α β γ : Type} (m : Prog α) (f : α → Prog β) (g : β → Prog γ) :
    m >>= f >>= g = m >>= fun a => f a >>= g := by
  change (m.bind f).bind g = m.bind fun a => (f a).bind g
  induction m with
  | pure a => rfl
  | stuck => rfl
  | step a k ih => simp only [Prog.bind, ih]

theorem uni_run (A : UniBody R p) {rr : Render} (hr : ∀ n, N n → Uni R I N p (rr n)) {α β : Type} {P : α → Prop}
    {b : FnProg α} (hb : QuietBody R N P b) {f : α → Prog β} (hf : ∀ a, P a → Uni R I N p (f a)) :
    Uni R I N p (b.run rr >>= f) := by
  induction hb with
  | ret h => exact hf _ h
  | user hu hk _ ih =>
    exact .bindUser (f := fun s => FnProg.run rr _ >>= f) (A.user _ hu) (fun s s' hs => by simp only [hk s s' hs]) fun s => ih s
  | write hk _ ih =>
    exact .step _ _ (A.write _) (fun r r' h => by cases h; rfl) fun r _ =>
      .bindLook (f := fun s => FnProg.run rr _ >>= f) A.look (fun s s' hs => by simp only [hk r s s' hs]) fun s => ih r s
  | @render n k hn hk _ ih =>
    have : (FnProg.run rr (.render n k) >>= f) = (rr n >>= fun e => Do.look >>= fun s => (k e s).run rr >>= f) := by
      exact assoc _ _ _
    rw [this]
    exact .bind (hr _ hn) fun e => .bindLook A.look (fun s s' hs => by simp only [hk e s s' hs]) fun s => ih e s

variable {env : Env} {B : Bodies}

theorem uni_fn (A : UniBody R p) {rr : Render} (hr : ∀ n, N n → Uni R I N p (rr n)) {α β : Type} {P : α → Prop}
    {body : St → FnProg α} (hb : QuietAt R N P body) {f : α → Prog β} (hf : ∀ a, P a → Uni R I N p (f a)) :
    Uni R I N p (do let s ← Do.look; let r ← (body s).run rr; f r) :=
  .bindLook A.look (fun s s' hs => by simp only [hb.1 s s' hs]) fun s => uni_run A hr (hb.2 s) hf

theorem uni_inlined (A : UniBody R p) (Q : QuietBodies R env B q ρ) {rr : Render}
    (hr : ∀ n, NodeCalls q ρ n → Uni R I (NodeCalls q ρ) p (rr n)) {α : Type} {m : Prog α}
    (hm : Uni R I (NodeCalls q ρ) (Calling p q) m) : Uni R I (NodeCalls q ρ) p (inlined B rr m) := by
  induction hm with
  | pure a => exact .pure a
  | stuck => exact .stuck
  | step a k ha hk _ ih =>
    cases a with
    | dyn f => exact uni_fn A hr (Q.dyn f ha) fun r _ => ih r trivial
    | cond f => exact uni_fn A hr (Q.cond f ha) fun r _ => ih r trivial
    | items f => exact uni_fn A hr (Q.items f ha) fun r _ => ih r trivial
    | collect f => exact uni_fn A hr (Q.collect f ha) fun r h => ih r h
    | _ => exact .step _ _ ha (fun r r' h => by rw [hk r r' h]) fun r h => ih r h

theorem uni_runYield (A : UniTree R I p q ρ) {rec : Render} (ns : List Node) (h : ∀ n ∈ ns, Uni R I N p (rec n))
    (hr : ∀ n, N n → Uni R I N p (rec n)) (b : YieldBody) (hb : QuietYields R N b) (child : Frame) :
    Uni R I N p (runYield rec ns b child) := by
  induction hb generalizing child with
  | done => exact .ret _
  | user hu hk _ ih =>
    exact .bindUser (A.user _ hu) (fun s s' hs => by simp only [hk s s' hs]) fun s => ih s child
  | write hk _ ih =>
    exact .bind (.act (A.write _) trivial) fun r =>
      .bindLook A.look (fun s s' hs => by simp only [hk r s s' hs]) fun s => ih r s child
  | render hn hk _ ih =>
    exact .bind (hr _ hn) fun e => .bindLook A.look (fun s s' hs => by simp only [hk e s s' hs]) fun s => ih e s child
  | yield hk _ ih =>
    exact .bind (.act (A.enter _) trivial) fun _ => .bind (.act (A.setItem _ _) trivial) fun _ =>
      .bind (.iterNodes A ns h) fun e => .bind (.act A.leave trivial) fun child => .bind (.setErrIf A _) fun _ =>
      .bindLook (A.look) (fun s s' hs => by simp only [hk s s' hs]) fun s => ih s child

theorem uni_nested (A : UniTree R I p q ρ) (Q : QuietBodies R env B q ρ) (fuel : Nat) :
    ∀ n, NodeCalls q ρ n → Uni R I (NodeCalls q ρ) p (nested B fuel n) := by
  induction fuel with
  | zero => intro n _; exact .stuck
  | succ fuel ih =>
    intro n hn
    by_cases hy : ∃ ns f, n = .yieldIterator ns f
    · obtain ⟨ns, f, rfl⟩ := hy
      change Uni R I (NodeCalls q ρ) p (renderYield B (nested B fuel) ns f)
      unfold renderYield
      refine .bindCtx A.ctx (fun c c' h => by simp only [h.1]) fun c _ => ?_
      split
      · exact .ret _
      · exact .bindLook A.look (fun s s' hs => by simp only [(Q.yields f hn.1).1 s s' hs]) fun s =>
          .bind (uni_runYield A ns (fun m hm => ih m ((nodesCall_iff ns).1 hn.2 m hm)) ih _ ((Q.yields f hn.1).2 s) _)
            fun _ => .retErr A.toUniLeaf
    · have : nested B (fuel + 1) n = renderStep (nested B fuel) n := by
        cases n <;> first | rfl | exact (hy ⟨_, _, rfl⟩).elim
      rw [this]
      exact .renderStep A (fun _ => Iff.rfl) ih n hn fun ns f e => (hy ⟨ns, f, e⟩).elim

end

section
variable {R : Shared → Shared → Prop} (hR : Equivalence R) {env : Env} {B : Bodies} {ρ : Nat → Prop} {q : Action → Prop}
  (hmem : ∀ sh sh', R sh sh' → SameFor ρ sh sh') (Q : QuietBodies R env B q ρ)
include hR hmem Q

theorem uniTree_calling : UniTree R (fun c => HeapUses q ρ c.dl)
    (Calling (Respects R (fun c => HeapUses q ρ c.dl) (NodeCalls q ρ) env) q) q ρ := by
  have A : UniTree R (fun c => HeapUses (fun _ => False) ρ c.dl)
    (Respects R (fun c => HeapUses (fun _ => False) ρ c.dl) (NodeCalls (fun _ => False) ρ) env) (fun _ => False) ρ :=
    uniTree hR hmem fun _ h => h.elim
  have up : ∀ a, Strict a → (∀ f, a ≠ .yields f) → (∀ f, a ≠ .collect f) → (∀ f, a ≠ .imp f) →
      Respects R (fun c => HeapUses (fun _ => False) ρ c.dl) (NodeCalls (fun _ => False) ρ) env a →
      Respects R (fun c => HeapUses q ρ c.dl) (NodeCalls q ρ) env a := by
    intro a hs h1 h2 h3 h
    refine ⟨h.1, fun s _ => ?_⟩
    cases a <;> first | trivial | exact hs.elim | exact (h1 _ rfl).elim | exact (h2 _ rfl).elim | exact (h3 _ rfl).elim
  exact
  { ctx := ⟨A.ctx.1, fun s h => h⟩
    write := fun d => up _ trivial nofun nofun nofun (A.write d)
    setErr := fun e => up _ trivial nofun nofun nofun (A.setErr e)
    heap := fun c h => h
    fns := fun a h hy => by
      have hc := Q.calls a h
      cases a with
      | dyn f => exact h
      | cond f => exact h
      | items f => exact h
      | collect f => exact h
      | yields f => exact (hy f rfl).elim
      | imp f => exact show Respects R (fun c => HeapUses q ρ c.dl) (NodeCalls q ρ) env (.imp f) from
          respects_fn hR (Q.imp f h)
      | _ => exact hc.elim
    maps := A.maps
    dl := A.dl
    order := fun ks => up _ trivial nofun nofun nofun (A.order ks)
    enter := fun f => up _ trivial nofun nofun nofun (A.enter f)
    setItem := fun i d => up _ trivial nofun nofun nofun (A.setItem i d)
    leave := up _ trivial nofun nofun nofun A.leave
    look := ⟨A.look.1, fun s _ => trivial⟩
    user := fun u hu => ⟨(A.user u hu).1, fun s _ => trivial⟩ }

theorem uni_renderWith (fuel : Nat) : ∀ n, NodeCalls q ρ n →
    Uni R (fun c => HeapUses q ρ c.dl) (NodeCalls q ρ)
      (Respects R (fun c => HeapUses q ρ c.dl) (NodeCalls q ρ) env) (renderWith B fuel n) := by
  have A := uniTree_calling hR hmem Q
  induction fuel with
  | zero => intro n _; exact .stuck
  | succ fuel ih =>
    intro n hn
    have A' : UniBody R (Respects R (fun c => HeapUses q ρ c.dl) (NodeCalls q ρ) env) :=
      ⟨fun d => A.write d, A.look, fun u hu => A.user u hu⟩
    exact uni_inlined A' Q ih (uni_nested A Q (fuel + 1) n hn)

end

end Aitch.Stream
