import Verif.Proofs.StreamComplete
import Verif.Proofs.Built
import Verif.Proofs.Trip
import Verif.Proofs.Checked
import Verif.Spec.Sample
/-
C100: functions that write, and render, while the document is written.
-/
namespace Aitch.Stream
open Spec Spec.Stream

theorem le_run {α : Type} {rec rec' : Render} (R : ∀ n, Le (rec n) (rec' n)) (p : FnProg α) : Le (p.run rec) (p.run rec') := by
  induction p with
  | ret a => exact .refl _
  | user upd k ih => exact .bindR fun s => ih s
  | write d k ih => exact .bindR fun r => .bindR fun s => ih r s
  | render n k ih => exact .bind (R n) fun e => .bindR fun s => ih e s

theorem le_inlined {α : Type} {B : Bodies} {rec rec' : Render} (R : ∀ n, Le (rec n) (rec' n)) {m m' : Prog α}
    (h : Le m m') : Le (inlined B rec m) (inlined B rec' m') := by
  induction h with
  | pure a => exact .refl _
  | stuck m => exact .stuck _
  | step a k k' _ ih =>
    cases a with
    | dyn f => exact .bindR fun s => .bind (le_run R _) fun r => ih r
    | cond f => exact .bindR fun s => .bind (le_run R _) fun r => ih r
    | collect f => exact .bindR fun s => .bind (le_run R _) fun r => ih r
    | items f => exact .bindR fun s => .bind (le_run R _) fun r => ih r
    | _ => exact .step _ _ _ ih

theorem le_runYield {rec rec' : Render} (R : ∀ n, Le (rec n) (rec' n)) (ns : List Node) (p : YieldBody) (child : Frame) :
    Le (runYield rec ns p child) (runYield rec' ns p child) := by
  induction p generalizing child with
  | done => exact .refl _
  | user upd k ih => exact .bindR fun s => ih s child
  | write d k ih => exact .bindR fun r => .bindR fun s => ih r s child
  | render n k ih => exact .bind (R n) fun e => .bindR fun s => ih e s child
  | yield it k ih =>
    exact .bindR fun _ => .bindR fun _ => .bind (Le.iterNodes R ns) fun e => .bindR fun child =>
      .bindR fun _ => .bindR fun s => ih s child

theorem step_eq (B : Bodies) (rec : Render) {n : Node} (hn : ∀ ns f, n ≠ .yieldIterator ns f) :
    step B rec n = renderStep rec n := by
  cases n with
  | yieldIterator ns f => exact absurd rfl (hn ns f)
  | _ => rfl

theorem le_step (B : Bodies) {rec rec' : Render} (R : ∀ n, Le (rec n) (rec' n)) (n : Node) :
    Le (step B rec n) (step B rec' n) := by
  cases n with
  | yieldIterator ns f =>
    refine .bindR fun c => ?_
    cases c.frame.err with
    | some e => exact .refl _
    | none => exact .bindR fun s => .bind (le_runYield R ns _ _) fun _ => .refl _
  | _ =>
    rw [step_eq, step_eq]
    · exact Le.renderStep R _
    all_goals nofun

theorem le_nested (B : Bodies) {f f' : Nat} (h : f ≤ f') (n : Node) : Le (nested B f n) (nested B f' n) := by
  induction f generalizing f' n with
  | zero => exact .stuck _
  | succ f ih =>
    obtain ⟨f', rfl⟩ : ∃ k, f' = k + 1 := ⟨f' - 1, by omega⟩
    exact le_step B (fun n => ih (by omega) n) n

theorem le_renderWith (B : Bodies) {f f' : Nat} (h : f ≤ f') (n : Node) : Le (renderWith B f n) (renderWith B f' n) := by
  induction f generalizing f' n with
  | zero => exact .stuck _
  | succ f ih =>
    obtain ⟨f', rfl⟩ : ∃ k, f' = k + 1 := ⟨f' - 1, by omega⟩
    exact le_inlined (fun n => ih (by omega) n) (le_nested B h n)

/-- The body of a function given to `IterateYield` that does not render. -/
def bodyOf : YieldProg → YieldBody
  | .done => .done
  | .yield it k => .yield it fun s => bodyOf (k s)
  | .user upd k => .user upd fun s => bodyOf (k s)
  | .write d k => .write d fun r s => bodyOf (k r s)

/-- The bodies of functions that only return a result and a new state; those of `IterateYield` yield and write. -/
def silentBodies (env : Env) : Bodies where
  dyn f s := .user (fun _ => (env.dyn f s).2) fun _ => .ret (env.dyn f s).1
  cond f s := .user (fun _ => (env.cond f s).2) fun _ => .ret (env.cond f s).1
  collect f s := .user (fun _ => (env.collect f s).2) fun _ => .ret (env.collect f s).1
  items f s := .user (fun _ => (env.items f s).2) fun _ => .ret (env.items f s).1
  yields f s := bodyOf (env.yields f s)

theorem exec_silent (env : Env) (rec : Render) {α : Type} (m : Prog α) (s : St) :
    exec env (inlined (silentBodies env) rec m) s = exec env m s := by
  induction m generalizing s with
  | pure a => rfl
  | stuck => rfl
  | step a k ih =>
    cases a with
    | dyn f => exact ih _ _
    | cond f => exact ih _ _
    | collect f => exact ih _ _
    | items f => exact ih _ _
    | _ => exact ih _ _

theorem exec_of_same {α : Type} {env : Env} {m m' : Prog α} (h : Checked.Same env m m') (s : St) :
    exec env m s = exec env m' s := by
  have : ∀ (m : Prog α) (s : St), exec env m s = (reach env m s).1.map fun a => (a, (reach env m s).2) := by
    intro m
    induction m with
    | pure a => exact fun _ => rfl
    | stuck => exact fun _ => rfl
    | step a k ih => exact fun s => ih _ _
  rw [this, this, h s]

open Checked in
theorem runImp_same {env : Env} {rec rec' : Render} (h : ∀ n, Same env (rec n) (rec' n)) (p : ImpProg) (stack : List Bytes) :
    Same env (Aitch.runImp rec p stack) (Aitch.runImp rec' p stack) := by
  induction p generalizing stack with
  | ret e => exact Same.refl _
  | user upd k ih => exact Same.seq fun s => ih s stack
  | call op k ih =>
    refine Same.bind ?_ fun stack => Same.seq fun s => ih s stack
    cases op with
    | writeNodes ns => exact Same.bind (ignoreLoop_same ns fun n _ => h n) fun _ => Same.refl _
    | _ => exact Same.refl _
  | render n k ih => exact Same.bind (h n) fun e => Same.seq fun s => ih e s stack
  | write d k ih => exact Same.seq fun r => Same.seq fun s => ih r s stack

open Checked in
theorem renderStep_same {env : Env} {rec rec' : Render} (h : ∀ n, Same env (rec n) (rec' n)) (n : Node) :
    Same env (renderStep rec n) (renderStep rec' n) := by
  cases n with
  | element _ ns => exact Same.seq fun _ => Same.bind (contentLoop_same ns fun n _ => h n) fun _ => Same.refl _
  | voidElement _ => exact Same.refl _
  | attr _ => exact Same.refl _
  | text _ => exact Same.refl _
  | comment _ => exact Same.refl _
  | fragment _ => exact Same.refl _
  | pi _ _ => exact Same.refl _
  | collection ns => exact Same.bind (collectionLoop_same ns fun n _ => h n) fun _ => Same.refl _
  | conditional ns _ fn =>
    refine Same.seq fun b => Same.bind ?_ fun _ => Same.refl _
    cases b with
    | false => exact Same.refl _
    | true => exact conditionalLoop_same ns fun n _ => h n
  | collector f => exact Same.seq fun ns => Same.bind (ignoreLoop_same ns fun n _ => h n) fun _ => Same.refl _
  | imperative f =>
    cases f with
    | none => exact Same.refl _
    | some f => exact Same.seq fun p => runImp_same h p []
  | iterator ns fn => exact renderIterator_same ns (fun n _ => h n) fn
  | yieldIterator ns f => exact renderYield_same ns (fun n _ => h n) f
  | document _ ns => exact Same.bind (documentLoop_same _ fun n _ => h n) fun _ => Same.refl _

open Checked in
theorem runYield_bodyOf {env : Env} {rec rec' : Render} (h : ∀ n, Same env (rec n) (rec' n)) (ns : List Node) (p : YieldProg)
    (child : Frame) : Same env (runYield rec ns (bodyOf p) child) (Aitch.runYield rec' ns p child) := by
  induction p generalizing child with
  | done => exact Same.refl _
  | user upd k ih => exact Same.seq fun s => ih s child
  | write data k ih => exact Same.seq fun r => Same.seq fun s => ih r s child
  | «yield» it k ih =>
    exact Same.seq fun _ => Same.seq fun _ => Same.bind (iterNodes_same ns fun n _ => h n) fun e => Same.seq fun child =>
      Same.seq fun _ => Same.seq fun s => ih s child

open Checked in
theorem nested_same (env : Env) (fuel : Nat) (n : Node) :
    Same env (nested (silentBodies env) fuel n) (renderProg fuel n) := by
  induction fuel generalizing n with
  | zero => exact Same.refl _
  | succ fuel ih =>
    cases n with
    | yieldIterator ns f =>
      refine Same.seq fun c => ?_
      cases c.frame.err with
      | some e => exact Same.refl _
      | none => exact fun s => Same.bind (runYield_bodyOf ih ns (env.yields f s) _) (fun _ => Same.refl _) s
    | _ =>
      rw [nested, step_eq]
      · exact renderStep_same ih _
      · nofun

theorem CanG.adds {α : Type} {E : Tellers} (K : Spec.Stream.Calm E) {M : Bodies → Nat → Nat → Prog α} {r : α} {t t' : Tape}
    (h : CanG E t M r t') : ∃ w, t'.out = t.out ++ w := by
  obtain ⟨os, f0, h⟩ := h
  obtain ⟨s', h1, rfl, -⟩ := h f0 (Nat.le_refl _) f0 (Nat.le_refl _) (envOfTellers E os) (bodiesOf E) (stateOf t)
    (alive_envOfTellers K os) (tape_stateOf t) (by
      intro i o hi ks hk
      have : (stateOf t).tick = 0 := rfl
      simp [envOfTellers, hi, hk.symm, this])
  obtain ⟨l, hl⟩ := exec_log h1
  have ht := congrArg Tape.out (tape_stateOf t)
  refine ⟨accepted l, ?_⟩
  rw [← ht]
  simp only [tape, St.out, ← hl]
  simp [accepted]

theorem CanAll.adds {E : Tellers} (K : Spec.Stream.Calm E) {ns : List Node} {t t' : Tape} (h : CanAll E ns t t') :
    ∃ w, t'.out = t.out ++ w := by
  induction h with
  | nil => exact ⟨[], by simp⟩
  | cons _ h _ ih =>
    obtain ⟨w, hw⟩ := CanG.adds K h
    obtain ⟨v, hv⟩ := ih
    exact ⟨w ++ v, by rw [hv, hw, List.append_assoc]⟩

end Aitch.Stream

namespace Aitch.Props
open Spec Spec.Stream Aitch.Stream

/-! ### C100 — what functions write stands where they stand -/

/-- A render under a healthy writer, with user functions that change memory, write, and render nodes, but report no error,
returns nil, and its output is the document written from start to end, part after part. -/
theorem C100_order {env : Env} {B : Bodies} {E : Tellers} (H : Healthy env) (A : Behaves env B E)
    (K : Spec.Stream.Calm E) {n : Node} (b : Built n) {s s' : St} {e : Option Err} (he : s.frame.err = none)
    (hr : Ends env B n s e s') : e = none ∧ Streams E n (tape s) (tape s') := by
  obtain ⟨fuel, hr⟩ := hr
  obtain ⟨h1, -, h3⟩ := recStreams ⟨H, A, K⟩ fuel n (tape s) b.wf he s e s' rfl hr
  exact ⟨h1, h3⟩

/-- And nothing more than that is meant by it: whatever the document allows is what some render does. -/
theorem C100_exact {E : Tellers} (K : Spec.Stream.Calm E) {n : Node} (b : Built n) {t t' : Tape}
    (he : t.frame.err = none) :
    Streams E n t t' ↔ ∃ env B, Healthy env ∧ Behaves env B E ∧ ∃ s s', tape s = t ∧ Ends env B n s none s' ∧ tape s' = t' := by
  constructor
  · intro h
    obtain ⟨env, B, A, s, s', hs, hr, ht⟩ := run_of_streams K b.wf he h
    exact ⟨env, B, A.healthy, A.behaves, s, s', hs, hr, ht⟩
  · rintro ⟨env, B, H, A, s, s', rfl, hr, rfl⟩
    exact (C100_order H A K b he hr).2

/-- A render has one outcome. -/
theorem C100_determined {env : Env} {B : Bodies} {n : Node} {s s₁ s₂ : St} {e₁ e₂ : Option Err}
    (h₁ : Ends env B n s e₁ s₁) (h₂ : Ends env B n s e₂ s₂) : e₁ = e₂ ∧ s₁ = s₂ := by
  obtain ⟨f, h₁⟩ := h₁
  obtain ⟨g, h₂⟩ := h₂
  have h₁ := (le_renderWith B (Nat.le_max_left f g) n).exec h₁
  have h₂ := (le_renderWith B (Nat.le_max_right f g) n).exec h₂
  rw [h₁] at h₂
  cases h₂
  exact ⟨rfl, rfl⟩

/-- With functions that do not write or render, it is what all other properties speak about. -/
theorem C100_same {env : Env} {n : Node} {s s' : St} {e : Option Err} :
    Ends env (silentBodies env) n s e s' ↔ Runs env n s e s' := by
  constructor
  · rintro ⟨fuel, h⟩
    cases fuel with
    | zero => cases h
    | succ fuel =>
      refine ⟨fuel + 1, ?_⟩
      rw [renderWith, exec_silent, exec_of_same (nested_same env _ n)] at h
      exact h
  · rintro ⟨fuel, h⟩
    cases fuel with
    | zero => cases h
    | succ fuel =>
      refine ⟨fuel + 1, ?_⟩
      rw [renderWith, exec_silent, exec_of_same (nested_same env _ n)]
      exact h

/-- What has been written is not taken back: rendering a node only adds to the tape. -/
theorem C100_adds {env : Env} {B : Bodies} {n : Node} {s s' : St} {e : Option Err} (hr : Ends env B n s e s') :
    ∃ w, s'.out = s.out ++ w := by
  obtain ⟨fuel, hr⟩ := hr
  obtain ⟨l, hl⟩ := exec_log hr
  exact ⟨accepted l, by rw [St.out, St.out, ← hl]; simp [accepted]⟩

theorem streamsAll_append {E : Tellers} {ns ns' : List Node} {t t' : Tape} (h : StreamsAll E (ns ++ ns') t t') :
    ∃ t1, StreamsAll E ns t t1 ∧ StreamsAll E ns' t1 t' := by
  induction ns generalizing t with
  | nil => exact ⟨t, .nil, h⟩
  | cons n ns ih =>
    cases h with
    | cons h hs =>
      obtain ⟨t1, h1, h2⟩ := ih hs
      exact ⟨t1, .cons h h1, h2⟩

theorem wfAll_append {ns ns' : List Node} (h : WFAll (ns ++ ns')) : WFAll ns ∧ WFAll ns' := by
  induction ns with
  | nil => exact ⟨trivial, h⟩
  | cons n ns ih => exact ⟨⟨h.1, (ih h.2).1⟩, (ih h.2).2⟩

/-- A function given to `Text` among the contents of an element: when it is called, the start tag and all contents before it
are written, and nothing after it is; what it writes comes next, then what it returns, then the contents after it. -/
theorem C100_place {env : Env} {B : Bodies} {E : Tellers} (H : Healthy env) (A : Behaves env B E)
    (K : Spec.Stream.Calm E) {h : ElemHead} {before after : List Node} {dl : Nat → List Value} {f : FnId} {named : Bool}
    (b : Built (.element h (before ++ Text dl [.dynFunc named (some f)] :: after)))
    {s s' : St} {e : Option Err} (he : s.frame.err = none)
    (hr : Ends env B (.element h (before ++ Text dl [.dynFunc named (some f)] :: after)) s e s') :
    ∃ t0 t1 w t2 t3, StreamsTag E h (tape s) t0 ∧ StreamsAll E before t0 t1 ∧ Tells E (E.dyn f t1) t1 w t2 ∧
      StreamsAll E after (t2.put w) t3 ∧ tape s' = t3.put (endBytes h.name) ∧
      (∃ v, t1.out = s.out ++ v) ∧ (∃ v, t2.out = t1.out ++ v) ∧ ∃ v, s'.out = t2.out ++ w ++ v := by
  have hS := (C100_order H A K b he hr).2
  have wf := b.wf
  generalize ht' : tape s' = t' at hS
  cases hS with
  | @element _ _ _ t0 t3 htag hs =>
    obtain ⟨t1, hb, hs⟩ := streamsAll_append hs
    obtain ⟨wb, wt⟩ := wfAll_append wf.2
    obtain ⟨m0, c0⟩ := can_tag K htag he wf.1
    have c1 := Aitch.Stream.can_nodes K hb (m0.1 he) wb
    have he1 := c1.moves.1 (m0.1 he)
    obtain ⟨v0, hv0⟩ := CanG.adds K c0
    obtain ⟨v1, hv1⟩ := c1.adds K
    cases hs with
    | @cons _ _ _ t2' _ hx hs =>
      cases hx with
      | text hx =>
        cases hx with
        | cons hx hn =>
          cases hn
          cases hx with
          | own hd => exact absurd rfl (hd f)
          | @fn _ _ _ _ w t2 hx =>
            obtain ⟨m2, -, c2⟩ := can_tells K hx _ he1 (K.dyn f t1)
            obtain ⟨v2, hv2⟩ := CanG.adds K c2
            obtain ⟨v3, hv3⟩ := (Aitch.Stream.can_nodes K hs (m2.1 he1) wt.2).adds K
            refine ⟨t0, t1, w, t2, t3, htag, hb, hx, hs, rfl, ⟨v0 ++ v1, ?_⟩, ⟨v2, hv2⟩, v3 ++ endBytes h.name, ?_⟩
            · rw [hv1, hv0, List.append_assoc]; rfl
            · have := congrArg Tape.out ht'
              change s'.out = t3.out ++ endBytes h.name at this
              rw [this, hv3]
              simp [Tape.put]

/-- A function that renders a node and returns nothing is the node, standing where the function stands. -/
theorem C100_inside {E : Tellers} {n : Node} {dl : Nat → List Value} {f : FnId} {named : Bool}
    (hf : ∀ t, E.dyn f t = .render n fun _ => .ret []) (t t' : Tape) :
    Streams E (Text dl [.dynFunc named (some f)]) t t' ↔ Streams E n t t' := by
  have put_nil : ∀ t : Tape, t.put [] = t := fun t => by simp [Tape.put]
  constructor
  · intro h
    cases h with
    | text hx =>
      cases hx with
      | cons hx hn =>
        cases hn
        cases hx with
        | own hd => exact absurd rfl (hd f)
        | fn hx =>
          rw [hf] at hx
          cases hx with
          | render hn hx => cases hx; rw [put_nil]; exact hn
  · intro h
    have h1 : Tells E (E.dyn f t) t [] t' := by rw [hf]; exact .render h .ret
    have h2 := StreamsValue.fn (v := []) (vs := []) h1
    rw [put_nil] at h2
    exact .text (.cons h2 .nil)

theorem exec_write_nil {env : Env} (H : Healthy env) (s : St) :
    ∃ s', exec env (valueWrite []) s = some (false, s') ∧ tape s' = tape (s.setErr none) ∧ s'.tick = s.tick := by
  refine ⟨(s.wrote [] (0, none)).setErr none, ?_, ?_, rfl⟩
  · have := H s.log []
    simp only [valueWrite, Do.write, Do.setErr, exec_bind, exec, Action.run, this]
    rfl
  · have := out_wrote s []
    simp only [List.append_nil] at this
    simp only [tape, St.setErr]
    exact congrArg (Tape.mk _) this

/-- The same of runs, whatever the node does, also when it fails: rendering the function renders the node, in the same state.
Only an error is not passed on: the function's place sets `ctx.Error` to the error of its own write, which is nil. -/
theorem C100_inside_runs {env : Env} {B : Bodies} (H : Healthy env) {n : Node} {dl : Nat → List Value} {f : FnId} {named : Bool}
    (hf : ∀ s, B.dyn f s = .render n fun _ _ => .ret []) {s s' : St} {e : Option Err}
    (hr : Ends env B (Text dl [.dynFunc named (some f)]) s e s') :
    e = none ∧ ∃ e₁ s₁, Ends env B n s e₁ s₁ ∧ tape s' = tape (s₁.setErr none) := by
  obtain ⟨fuel, hr⟩ := hr
  cases fuel with
  | zero => cases hr
  | succ fuel =>
    have hp : renderWith B (fuel + 1) (Text dl [.dynFunc named (some f)]) = (do
        let s ← Do.look
        let r ← (B.dyn f s).run (renderWith B fuel)
        inlined B (renderWith B fuel) (do
          let _ ← valueWrite r
          retErr)) := rfl
    rw [hp] at hr
    simp only [Do.look, exec_bind, exec, Action.run, hf, FnProg.run, Option.bind_some] at hr
    cases hn : exec env (renderWith B fuel n) s with
    | none => rw [hn] at hr; cases hr
    | some p =>
      rw [hn] at hr
      obtain ⟨e₁, s₁⟩ := p
      obtain ⟨s2, h1, h2, -⟩ := exec_write_nil H s₁
      have h3 : exec env (valueWrite [] >>= fun _ => retErr) s₁ = some (e, s') := hr
      rw [exec_bind, h1] at h3
      have h4 : some (s2.frame.err, s2) = some (e, s') := h3
      cases h4
      exact ⟨congrArg (fun t : Tape => t.frame.err) h2, e₁, s₁, ⟨fuel, hn⟩, h2⟩

/-! Functions that do all of this. -/

/-- Function 0 writes "a" and returns "b", function 1 renders a text and returns nothing, function 2 returns the number of
bytes that it finds written, any other renders a paragraph with itself one less inside; conditions write and hold; the
function of `ContentCollect` writes and returns a text that calls function 0; that of `Iterate` writes and returns two items;
that of `IterateYield` writes and renders between its items; that of `Imperative` opens an element, writes, and renders. -/
def writing : Tellers where
  dyn f t := match f with
    | 0 => .write b%"a" fun _ => .ret b%"b"
    | 1 => .render (.text [.mk b%"n" none []]) fun _ => .ret []
    | 2 => .ret (valueToBytes (.int .int t.out.length))
    | f + 3 => .write b%"(" fun _ => .render (.text [.mk [] (some (.user f)) []]) fun _ => .ret b%")"
  cond _ _ := .write b%" data-c" fun _ => .ret true
  collect _ _ := .write b%"<hr>" fun _ => .ret [some (.text [.mk [] (some (.user 0)) []]), none]
  items _ _ := .write b%":" fun _ => .ret [.str b%"x", .str b%"y"]
  yields _ _ := .yield (.str b%"x") fun _ => .write b%"," fun _ => .render (.text [.mk [] (some (.user 0)) []]) fun _ =>
    .yield (.str b%"y") fun _ => .done
  imp _ _ := .call (.start b%"i" false []) fun _ => .write b%"raw" fun _ =>
    .render (.text [.mk [] (some (.user 2)) []]) fun _ => .call .endAll fun _ => .done

theorem calm_writing : Spec.Stream.Calm writing where
  dyn f t := by
    match f with
    | 0 => exact fun _ => trivial
    | 1 => exact ⟨trivial, fun _ => trivial⟩
    | 2 => exact trivial
    | f + 3 => exact fun _ => ⟨trivial, fun _ => trivial⟩
  cond _ _ := fun _ => trivial
  collect _ _ := fun _ n hn => by
    have : n = .text [.mk [] (some (.user 0)) []] := by simpa using hn
    subst this
    trivial
  items _ _ := fun _ => trivial
  yields _ _ := fun _ _ => ⟨trivial, fun _ _ => trivial⟩
  imp _ _ := ⟨fun _ _ h => by simp at h, fun _ _ => ⟨trivial, fun _ => ⟨fun _ _ h => by simp at h, fun _ => trivial⟩⟩⟩

/-- A healthy writer, and loops over Go maps in a fixed order. -/
def writingEnv : Env where
  write _ d := (d.length, none)
  dyn _ s := ([], s)
  cond _ s := (false, s)
  collect _ s := ([], s)
  items _ s := ([], s)
  yields _ _ := .done
  imp f s := (writing.imp f (tape s)).body
  order _ ks := ks
  order_perm _ ks := List.Perm.refl ks

theorem behaves_writing : Behaves writingEnv (bodiesOf writing) writing :=
  ⟨fun _ _ => rfl, fun _ _ => rfl, fun _ _ => rfl, fun _ _ => rfl, fun _ _ => rfl, fun _ _ => rfl⟩

theorem healthy_writing : Healthy writingEnv := fun _ _ => rfl

/-- `Text(fn)` with function `f`. -/
def told (f : FnId) : Node := Text (fun _ => []) [.dynFunc true (some f)]

/-- An element with an attribute from function 0, a conditional attribute, and all kinds of contents that call functions. -/
def written : Node :=
  (NewElement b%"div" [.node (NewAttribute (fun _ => []) b%"id" [.dynFunc true (some 0)]),
    .node (.conditional [] [.bool b%"hidden"] (.user 0)), .node (told 2), .node (told 1), .node (told 6),
    .node (.iterator [Text (fun _ => []) [.dynKey b%"."]] (.user 0)), .node (.yieldIterator [told 0] 0),
    .node (ContentCollect (some 0)), .node (Imperative (some 0))] .empty).1

theorem built_written : Built written := by
  refine Built.newElement _ _ _ ?_
  intro n hn
  simp only [nodesIn, List.filterMap_cons, List.filterMap_nil, List.mem_cons, List.not_mem_nil, or_false] at hn
  rcases hn with rfl | rfl | rfl | rfl | rfl | rfl | rfl | rfl | rfl
  · exact .newAttribute _ _ _
  · refine .conditional (some 0) [some (.attr (.bool b%"hidden"))] _ ?_ rfl
    intro n hn
    have : n = .attr (.bool b%"hidden") := by simpa using hn
    subst this
    exact .newBooleanAttribute _
  · exact .text _ _
  · exact .text _ _
  · exact .text _ _
  · refine .iterate (some 0) [some (Text (fun _ => []) [.dynKey b%"."])] _ ?_ rfl
    intro n hn
    have : n = Text (fun _ => []) [.dynKey b%"."] := by simpa using hn
    subst this
    exact .text _ _
  · refine .iterateYield (some 0) [some (told 0)] _ ?_ rfl
    intro n hn
    have : n = told 0 := by simpa using hn
    subst this
    exact .text _ _
  · exact .contentCollect _
  · exact .imperative _

/-- What it writes.  (A condition over attributes is asked twice, once in the tag and once among the contents.) -/
theorem ends_written : ∃ s', Ends writingEnv (bodiesOf writing) written Sample.st none s' ∧ s'.out =
    b%"<div data-c id=\"ab\" hidden> data-c34n((ab)):xyab,abab<hr>ab<i>raw65</i></div>" := by
  have h : ((exec writingEnv (renderWith (bodiesOf writing) 8 written) Sample.st).map fun p => (p.1.isNone, p.2.out)) =
      some (true, b%"<div data-c id=\"ab\" hidden> data-c34n((ab)):xyab,abab<hr>ab<i>raw65</i></div>") := by
    decide +kernel
  cases hx : exec writingEnv (renderWith (bodiesOf writing) 8 written) Sample.st with
  | none => rw [hx] at h; cases h
  | some p =>
    rw [hx] at h
    obtain ⟨e, s'⟩ := p
    simp only [Option.map_some, Option.some.injEq, Prod.mk.injEq, Option.isNone_iff_eq_none] at h
    obtain ⟨rfl, h⟩ := h
    exact ⟨s', ⟨8, hx⟩, h⟩

example : ∃ s', Streams writing written (tape Sample.st) (tape s') := by
  obtain ⟨s', h, -⟩ := ends_written
  exact ⟨s', (C100_order healthy_writing behaves_writing calm_writing built_written rfl h).2⟩

example {t' : Tape} := C100_exact calm_writing built_written (t := tape Sample.st) (t' := t') rfl

example {s₁ s₂ : St} {e₁ e₂ : Option Err} (h₁ : Ends writingEnv (bodiesOf writing) written Sample.st e₁ s₁) :=
  C100_determined (s₂ := s₂) (e₂ := e₂) h₁

example {s' : St} (h : Ends writingEnv (bodiesOf writing) written Sample.st none s') : ∃ w, s'.out = Sample.st.out ++ w :=
  C100_adds h

/-- An element with function 2 between other contents. -/
def between : Node := .element ⟨b%"p", [], [], []⟩ ([Text (fun _ => []) [.str b%"12345678"], told 0] ++
  Text (fun _ => []) [.dynFunc true (some 2)] :: [Text (fun _ => []) [.str b%"z"]])

theorem built_between : Built between := by
  refine Built.newElement b%"p" [.node (Text (fun _ => []) [.str b%"12345678"]), .node (told 0), .node (told 2),
    .node (Text (fun _ => []) [.str b%"z"])] .empty ?_
  intro n hn
  simp only [nodesIn, List.filterMap_cons, List.filterMap_nil, List.mem_cons, List.not_mem_nil, or_false] at hn
  rcases hn with rfl | rfl | rfl | rfl <;> exact .text _ _

/-- Function 2 finds the tag, the text before it, and what function 0 wrote and returned; so it returns 13. -/
example : ((exec writingEnv (renderWith (bodiesOf writing) 3 between) Sample.st).map fun p => (p.1.isNone, p.2.out)) =
    some (true, b%"<p>12345678ab13z</p>") := by
  decide +kernel

example {s' : St} {e : Option Err} (hr : Ends writingEnv (bodiesOf writing) between Sample.st e s') :
    ∃ t0 t1 w t2 t3, StreamsTag writing ⟨b%"p", [], [], []⟩ (tape Sample.st) t0 ∧
      StreamsAll writing [Text (fun _ => []) [.str b%"12345678"], told 0] t0 t1 ∧
      Tells writing (.ret (valueToBytes (.int .int t1.out.length))) t1 w t2 ∧
      StreamsAll writing [Text (fun _ => []) [.str b%"z"]] (t2.put w) t3 ∧ tape s' = t3.put b%"</p>" ∧
      (∃ v, t1.out = Sample.st.out ++ v) ∧ (∃ v, t2.out = t1.out ++ v) ∧ ∃ v, s'.out = t2.out ++ w ++ v :=
  C100_place healthy_writing behaves_writing calm_writing built_between rfl hr

/-- Function 1 stands for the text that it renders. -/
example (t t' : Tape) : Streams writing (told 1) t t' ↔ Streams writing (.text [.mk b%"n" none []]) t t' :=
  C100_inside (fun _ => rfl) t t'

example {s' : St} {e : Option Err} (hr : Ends writingEnv (bodiesOf writing) (told 1) Sample.st e s') :=
  C100_inside_runs (B := bodiesOf writing) healthy_writing (f := 1) (fun _ => rfl) hr

example {s' : St} {e : Option Err} : Ends Sample.env (silentBodies Sample.env) written Sample.st e s' ↔
    Runs Sample.env written Sample.st e s' := C100_same

end Aitch.Props
