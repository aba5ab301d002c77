import Verif.Proofs.StreamFinite
import Verif.Props.StreamConcurrent
/-
C104: rendering ends, when user functions write and render nodes.
-/
namespace Aitch.Props
open Spec Spec.Stream Aitch.Stream

/-! For the examples. -/

/-- No functions in delimited attributes. -/
def noneIn (_ : Nat) (_ : FnId) : Prop := False

theorem within_twoNode {m : Node} (h : Within m twoNode) : m = .text [.mk [] (some (.key b%"k")) []] := by
  cases h with
  | element h =>
    exact List.mem_singleton.1 h

theorem founded_static {env : Env} {B : Bodies} {vs : List Value} (h : valuesFns vs = []) :
    Founded env B noneIn (.text vs) := by
  refine .intro _ fun m hm => ?_
  cases hm with
  | within h => cases h
  | given h _ => cases h with | text hf => rw [h] at hf; cases hf

theorem founded_twoNode {env : Env} {B : Bodies} : Founded env B noneIn twoNode := by
  refine .intro _ fun m hm => ?_
  cases hm with
  | within h => rw [within_twoNode h]; exact founded_static rfl
  | given h _ =>
    cases h with
    | element h =>
      cases h with
      | attr ha hc =>
        change _ ∈ [Attr.delim b%"class" b%" " 0] at ha
        simp at ha; subst ha
        cases hc with | delim h => exact h.elim
      | condAttr ha => cases ha
      | cond ha => cases ha

theorem busy_founded : Founded Sample.env busyBodies noneIn busyNode := by
  have dyn : ∀ f n, Gives Sample.env busyBodies (.dyn f) n → n = twoNode := by
    intro f n h
    cases h with
    | dyn h => cases h with | write h => cases h with
      | now => rfl
      | rendered h => cases h
  have cond : ∀ f n, ¬ Gives Sample.env busyBodies (.cond f) n := by
    intro f n h
    cases h with | cond h => cases h with | write h => cases h
  have collect : ∀ f n, Gives Sample.env busyBodies (.collect f) n → n = twoNode := by
    intro f n h
    cases h with
    | collect h => cases h with | write h => cases h
    | collected h hn => cases h with | write h => cases h with | now => simpa using hn
  have yields : ∀ f n, Gives Sample.env busyBodies (.yields f) n → n = twoNode := by
    intro f n h
    cases h with
    | yields h => cases h with | write h => cases h with | yield h => cases h with
      | now => rfl
      | rendered h => cases h
  refine .intro _ fun m hm => ?_
  cases hm with
  | given h _ =>
    cases h with
    | element h =>
      cases h with
      | attr ha hc =>
        simp at ha; subst ha
        cases hc with | delim h => exact h.elim
      | condAttr ha => cases ha
      | cond ha => cases ha
  | within h =>
    cases h with
    | element h =>
      simp at h
      rcases h with rfl | rfl | rfl | rfl
      · refine .intro _ fun m hm => ?_
        cases hm with
        | within h => cases h
        | given h g => cases h with | text hf => rw [dyn _ _ g]; exact founded_twoNode
      · refine .intro _ fun m hm => ?_
        cases hm with
        | within h => cases h with | conditional h => simp at h; subst h; exact founded_static rfl
        | given h g => cases h with | conditional => exact (cond _ _ g).elim
      · refine .intro _ fun m hm => ?_
        cases hm with
        | within h => cases h
        | given h g => cases h with | collector => rw [collect _ _ g]; exact founded_twoNode
      · refine .intro _ fun m hm => ?_
        cases hm with
        | within h => cases h with | yieldIterator h => simp at h; subst h; exact founded_static rfl
        | given h g => cases h with | yieldIterator => rw [yields _ _ g]; exact founded_twoNode

theorem impOf_noChange (ops : List ImpOp) (u : St → St) : ¬ ImpMayChange (impOf ops) u := by
  induction ops with
  | nil => intro h; cases h
  | cons op ops ih => intro h; cases h with | call h => exact ih h

theorem busy_steady : Steady Sample.env busyBodies noneIn where
  dyn _ _ _ h := by cases h with | write h => cases h with | rendered h => cases h
  cond _ _ _ h := by cases h with | write h => cases h
  items _ _ _ h := by cases h
  collect _ _ _ h := by cases h with | write h => cases h
  yields _ _ _ h := by cases h with | write h => cases h with | yield h => cases h with | rendered h => cases h
  imp _ _ _ h := (impOf_noChange _ _ h).elim

theorem busy_heap : HeapIn noneIn twoShared.dl := by
  intro r f h
  cases h

/-! ### C104 — rendering ends, also when user functions render -/

/-- Rendering ends, in whatever state and with whatever writer, if following the nodes in the node, and those that its
functions render or supply, always comes to an end (`Founded`).  (`D` are the functions that delimited attributes may hold,
which user functions do not change.) -/
theorem C104_ends {env : Env} {B : Bodies} {D : Nat → FnId → Prop} (S : Steady env B D) {n : Node}
    (h : Founded env B D n) {s : St} (hs : HeapIn D s.dl) : ∃ e s', Spec.Stream.Ends env B n s e s' :=
  ends_of_founded S h hs

example (s : St) (hs : s.dl = twoShared.dl) :=
  C104_ends busy_steady busy_founded (s := s) (hs ▸ busy_heap)

/-- So do goroutines, if their functions are quiet (C103), after a number of steps that does not depend on the others. -/
theorem C104_goroutines {ι : Type} [DecidableEq ι] {R : Shared → Shared → Prop} (hR : Equivalence R) {ρ : Nat → Prop}
    (hmem : ∀ sh sh', R sh sh' → SameFor ρ sh sh')
    (nodes : ι → Node) (envs : ι → Env) (B : ι → Bodies) (own : ι → Local) (sh : Shared)
    (q : ι → Action → Prop) (hq : ∀ i, QuietBodies R (envs i) (B i) (q i) ρ) (hn : ∀ i, NodeCalls (q i) ρ (nodes i))
    (hh : ∀ i, HeapUses (q i) ρ sh.dl) (i : ι) {D : Nat → FnId → Prop} (S : Steady (envs i) (B i) D)
    (h : Founded (envs i) (B i) D (nodes i)) (hs : HeapIn D sh.dl) :
    ∃ F, ∀ fuel : ι → Nat, F ≤ fuel i → ∃ k, ∀ moves, (∀ m ∈ moves, Harmless R m) → k ≤ turns i moves →
      ∃ e, (((Stream.startAll nodes envs B fuel own sh).run moves).threads i).prog = .pure e := by
  obtain ⟨e, s', he⟩ := C104_ends S h (s := joinSt (own i) sh) hs
  obtain ⟨F, hF⟩ := C103_finishes hR hmem nodes envs B own sh q hq hn hh i he
  refine ⟨F, fun fuel hf => ?_⟩
  obtain ⟨k, hk⟩ := hF fuel hf
  exact ⟨k, fun moves hm ht => ⟨e, (hk moves hm ht).1⟩⟩

example := C104_goroutines (sameFor_equivalence fun r => r = 0) (fun _ _ h => h) (fun _ => busyNode) (fun _ => Sample.env)
  (fun _ => busyBodies) twoOwn twoShared (fun _ => busyFns) (fun _ => busy_met.1) (fun _ => busy_met.2.1)
  (fun _ => busy_met.2.2) true busy_steady busy_founded busy_heap

/-- A function that renders the text it is the value of. -/
def endlessBodies : Bodies := { busyBodies with dyn := fun _ _ => .render countNode fun _ _ => .ret [] }

/-- The condition is needed: such a function never returns. -/
theorem C104_needed (env : Env) (s s' : St) (e : Option Err) : ¬ Spec.Stream.Ends env endlessBodies countNode s e s' := by
  rintro ⟨fuel, h⟩
  induction fuel generalizing s s' e with
  | zero => cases h
  | succ fuel ih =>
    change exec env (((Stream.FnProg.render countNode fun _ _ => .ret []).run (renderWith endlessBodies fuel)) >>= _) s = _ at h
    rw [exec_bind] at h
    simp only [FnProg.run, exec_bind] at h
    cases hr : exec env (renderWith endlessBodies fuel countNode) s with
    | none => rw [hr] at h; cases h
    | some p => exact ih s p.2 p.1 hr

end Aitch.Props
