import Verif.Spec.StreamDoes
import Verif.Proofs.StreamErrors
import Verif.Props.Stream
/-
What user functions do, exactly, with any writer.
-/
namespace Aitch.Stream
open Aitch Spec Spec.Stream Props

section
variable {env : Env} {B : Bodies}

/-- With large enough bounds, `M` runs like `R` says. -/
structure Means {α : Type} (env : Env) (B : Bodies) (M : Nat → Prog α) (R : St → α → St → Prop) : Prop where
  sound : ∀ {g g' s a s'}, exec env (inlined B (renderWith B g) (M g')) s = some (a, s') → R s a s'
  complete : ∀ {s a s'}, R s a s' → ∃ f, ∀ g g', f ≤ g → f ≤ g' →
    exec env (inlined B (renderWith B g) (M g')) s = some (a, s')

namespace Means

theorem bind {α β : Type} {M : Nat → Prog α} {R : St → α → St → Prop} {K : α → Nat → Prog β} {S : α → St → β → St → Prop}
    (h : Means env B M R) (k : ∀ a, Means env B (K a) (S a)) :
    Means env B (fun g => M g >>= fun a => K a g) fun s b s' => ∃ a s₁, R s a s₁ ∧ S a s₁ b s' where
  sound {g g' s a s'} hx := by
    rw [inlined_bind, exec_bind] at hx
    cases hm : exec env (inlined B (renderWith B g) (M g')) s with
    | none => rw [hm] at hx; cases hx
    | some p =>
      rw [hm] at hx
      exact ⟨p.1, p.2, h.sound hm, (k p.1).sound hx⟩
  complete := by
    rintro s b s' ⟨a, s₁, hr, hs⟩
    obtain ⟨f, hf⟩ := h.complete hr
    obtain ⟨f', hf'⟩ := (k a).complete hs
    refine ⟨max f f', fun g g' hg hg' => ?_⟩
    rw [inlined_bind, exec_bind, hf g g' (by omega) (by omega)]
    exact hf' g g' (by omega) (by omega)

theorem iff {α : Type} {M : Nat → Prog α} {R R' : St → α → St → Prop} (h : Means env B M R)
    (hR : ∀ s a s', R s a s' ↔ R' s a s') : Means env B M R' where
  sound hx := (hR _ _ _).1 (h.sound hx)
  complete hx := h.complete ((hR _ _ _).2 hx)

/-- Programs without bounds. -/
theorem det {α : Type} {m : Prog α} {F : St → α × St} (h : ∀ s g, exec env (inlined B (renderWith B g) m) s = some (F s)) :
    Means env B (fun _ => m) fun s a s' => (a, s') = F s where
  sound hx := by rw [h] at hx; exact (Option.some.inj hx).symm
  complete hx := ⟨0, fun g _ _ _ => by rw [h, hx]⟩

theorem pure {α : Type} (a : α) : Means env B (fun _ => (Pure.pure a : Prog α)) fun s b s' => b = a ∧ s' = s :=
  (det (F := fun s => (a, s)) fun _ _ => rfl).iff fun s b s' => by simp

theorem setErr (e : Option Err) : Means env B (fun _ => Do.setErr e) fun s _ s' => s' = s.setErr e :=
  (det (F := fun s => ((), s.setErr e)) fun _ _ => rfl).iff fun s b s' => by simp

theorem retErr : Means env B (fun _ => retErr) fun s e s' => e = s.frame.err ∧ s' = s :=
  (det (F := fun s => (s.frame.err, s)) fun _ _ => rfl).iff fun s b s' => by simp

theorem ctx : Means env B (fun _ => Do.ctx) fun s c s' => c = s.toCtx ∧ s' = s :=
  (det (F := fun s => (s.toCtx, s)) fun _ _ => rfl).iff fun s b s' => by simp

theorem look : Means env B (fun _ => Do.look) fun s c s' => c = s ∧ s' = s :=
  (det (F := fun s => (s, s)) fun _ _ => rfl).iff fun s b s' => by simp

theorem valueWrite (d : Bytes) : Means env B (fun _ => valueWrite d) fun s b s' =>
    b = decide ((env.write s.log d).1 > 0) ∧ s' = (s.wrote d (env.write s.log d)).setErr (env.write s.log d).2 :=
  (det (F := fun s => (decide ((env.write s.log d).1 > 0), (s.wrote d (env.write s.log d)).setErr (env.write s.log d).2))
    fun _ _ => rfl).iff fun s b s' => by simp

end Means

theorem le_both (B : Bodies) {f f' g g' : Nat} (hf : f ≤ f') (hg : g ≤ g') (n : Node) :
    Le (inlined B (renderWith B f) (nested B g n)) (inlined B (renderWith B f') (nested B g' n)) :=
  le_inlined (fun n => le_renderWith B hf n) (le_nested B hg n)

/-- Nodes rendered from within the rendering. -/
theorem means_node (n : Node) : Means env B (fun g => nested B g n) fun s e s' => Ends env B n s e s' where
  sound {g g' s e s'} h := ⟨max g g' + 1, (le_both B (Nat.le_max_left g g') (by omega) n).exec h⟩
  complete := by
    rintro s e s' ⟨f, h⟩
    cases f with
    | zero => cases h
    | succ f => exact ⟨f + 1, fun g g' hg hg' => (le_both B (by omega) hg' n).exec h⟩

/-- What `Render` of a node means. -/
theorem ends_iff {n : Node} {R : St → Option Err → St → Prop} (h : Means env B (fun g => step B (nested B g) n) R)
    {s s' : St} {e : Option Err} : Ends env B n s e s' ↔ R s e s' := by
  constructor
  · rintro ⟨f, hx⟩
    cases f with
    | zero => cases hx
    | succ f => exact h.sound (g := f) (g' := f) hx
  · intro hx
    obtain ⟨f, hf⟩ := h.complete hx
    exact ⟨f + 1, hf f f (Nat.le_refl f) (Nat.le_refl f)⟩

theorem does_of_run {α : Type} {g : Nat} : (p : FnProg α) → {s s' : St} → {a : α} →
    exec env (p.run (renderWith B g)) s = some (a, s') → Does env B p s a s'
  | .ret _, _, _, _, h => by cases h; exact .ret
  | .user _ k, _, _, _, h => .user (does_of_run (k _) h)
  | .write _ k, _, _, _, h => .write rfl (does_of_run (k _ _) h)
  | .render n k, s, s', a, h => by
    simp only [FnProg.run, exec_bind] at h
    cases hn : exec env (renderWith B g n) s with
    | none => rw [hn] at h; cases h
    | some p =>
      rw [hn] at h
      exact .render ⟨g, hn⟩ (does_of_run (k _ _) h)

theorem run_of_does {α : Type} {p : FnProg α} {s s' : St} {a : α} (h : Does env B p s a s') :
    ∃ f, ∀ g, f ≤ g → exec env (p.run (renderWith B g)) s = some (a, s') := by
  induction h with
  | ret => exact ⟨0, fun _ _ => rfl⟩
  | user _ ih => obtain ⟨f, ih⟩ := ih; exact ⟨f, ih⟩
  | write hr _ ih =>
    obtain ⟨f, ih⟩ := ih
    subst hr
    exact ⟨f, ih⟩
  | render hn _ ih =>
    obtain ⟨f, ih⟩ := ih
    obtain ⟨f', hn⟩ := hn
    refine ⟨max f f', fun g hg => ?_⟩
    simp only [FnProg.run, exec_bind]
    rw [(le_renderWith B (Nat.le_trans (Nat.le_max_right f f') hg) _).exec hn]
    exact ih g (by omega)

theorem means_fn {α : Type} {m : Prog α} {body : St → FnProg α}
    (h : ∀ rr, inlined B rr m = (do let s ← Do.look; (body s).run rr)) :
    Means env B (fun _ => m) fun s a s' => Does env B (body s) s a s' where
  sound {g _ s a s'} hx := by
    rw [h] at hx
    exact does_of_run (body s) hx
  complete {s a s'} hx := by
    obtain ⟨f, hf⟩ := run_of_does hx
    refine ⟨f, fun g _ hg _ => ?_⟩
    rw [h]
    exact hf g hg

theorem bind_pure' {α : Type} (m : Prog α) : (m >>= fun a => (Pure.pure a : Prog α)) = m := by
  change m.bind Prog.pure = m
  induction m with
  | pure a => rfl
  | stuck => rfl
  | step a k ih => exact congrArg (Prog.step a) (funext ih)

theorem means_dyn (f : FnId) : Means env B (fun _ => Do.dyn f) fun s a s' => Does env B (B.dyn f s) s a s' :=
  means_fn fun _ => congrArg (Do.look >>= ·) (funext fun _ => bind_pure' _)

theorem means_cond (f : FnId) : Means env B (fun _ => Do.cond f) fun s a s' => Does env B (B.cond f s) s a s' :=
  means_fn fun _ => congrArg (Do.look >>= ·) (funext fun _ => bind_pure' _)

theorem means_collect (f : FnId) : Means env B (fun _ => Do.collect f) fun s a s' => Does env B (B.collect f s) s a s' :=
  means_fn fun _ => congrArg (Do.look >>= ·) (funext fun _ => bind_pure' _)

theorem means_items (f : FnId) : Means env B (fun _ => Do.items f) fun s a s' => Does env B (B.items f s) s a s' :=
  means_fn fun _ => congrArg (Do.look >>= ·) (funext fun _ => bind_pure' _)

/-! ### The loops -/

theorem means_each : (ns : List Node) → Means env B (fun g => iterNodes (nested B g) ns) fun s e s' => Each env B ns s e s'
  | [] => (Means.pure _).iff fun s e s' => ⟨by rintro ⟨rfl, rfl⟩; exact .nil, by rintro ⟨⟩; exact ⟨rfl, rfl⟩⟩
  | n :: ns => by
    refine (Means.bind (means_node n) (K := fun e g => match e with
      | some e => return some e
      | none => iterNodes (nested B g) ns) (S := fun o s e s' => match o with
      | some x => e = some x ∧ s' = s
      | none => Each env B ns s e s') fun o => ?_).iff fun s e s' => ⟨?_, ?_⟩
    · cases o with
      | none => exact means_each ns
      | some x => exact Means.pure _
    · rintro ⟨o, s₁, h1, h2⟩
      cases o with
      | none => exact .ok h1 h2
      | some x =>
        obtain ⟨rfl, rfl⟩ := h2
        exact .err h1
    · intro h
      cases h with
      | ok h1 h2 => exact ⟨none, _, h1, h2⟩
      | err h1 => exact ⟨some _, _, h1, rfl, rfl⟩

theorem means_noting : (ns : List Node) → Means env B (fun g => conditionalLoop (nested B g) ns) fun s _ s' =>
    Noting env B ns s s'
  | [] => (Means.pure _).iff fun s e s' => ⟨by rintro ⟨rfl, rfl⟩; exact .nil, by rintro ⟨⟩; exact ⟨rfl, rfl⟩⟩
  | n :: ns => by
    refine (Means.bind (means_node n) (K := fun e g => do
      Do.setErr e
      match e with
      | some _ => return ()
      | none => conditionalLoop (nested B g) ns) fun o => Means.bind (Means.setErr o) (K := fun _ g => match o with
      | some _ => return ()
      | none => conditionalLoop (nested B g) ns) (S := fun _ s _ s' => match o with
      | some _ => s' = s
      | none => Noting env B ns s s') fun _ => ?_).iff fun s e s' => ⟨?_, ?_⟩
    · cases o with
      | none => exact means_noting ns
      | some x => exact (Means.pure _).iff fun _ _ _ => by simp
    · rintro ⟨o, s₁, h1, _, s₂, rfl, h2⟩
      cases o with
      | none => exact .ok h1 h2
      | some x =>
        obtain rfl := h2
        exact .err h1
    · intro h
      cases h with
      | ok h1 h2 => exact ⟨none, _, h1, (), _, rfl, h2⟩
      | err h1 => exact ⟨some _, _, h1, (), _, rfl, rfl⟩

theorem means_all : (ns : List (Option Node)) → Means env B (fun g => ignoreLoop (nested B g) ns) fun s _ s' =>
    All env B ns s s'
  | [] => (Means.pure _).iff fun s e s' => ⟨by rintro ⟨rfl, rfl⟩; exact .nil, by rintro ⟨⟩; exact ⟨rfl, rfl⟩⟩
  | none :: ns => (means_all ns).iff fun _ _ _ => ⟨.skip, by rintro ⟨⟩; assumption⟩
  | some n :: ns => by
    cases hn : n.isAttr with
    | true =>
      obtain ⟨a, rfl⟩ : ∃ a, n = .attr a := by cases n <;> first | exact ⟨_, rfl⟩ | cases hn
      refine (means_all ns).iff fun _ _ _ => ⟨.attr, fun h => ?_⟩
      cases h with
      | attr h => exact h
      | node h1 => exact (h1 a rfl).elim
    | false =>
      have h0 : ∀ g, ignoreLoop (nested B g) (some n :: ns) = (do
          let _ ← nested B g n
          ignoreLoop (nested B g) ns) := fun g => by simp [ignoreLoop, hn]
      simp only [h0]
      refine (Means.bind (means_node n) fun _ => means_all ns).iff fun s e s' => ⟨?_, fun h => ?_⟩
      · rintro ⟨o, s₁, h1, h2⟩
        exact .node (fun a ha => by subst ha; cases hn) h1 h2
      · cases h with
        | attr => cases hn
        | node _ h1 h2 => exact ⟨_, _, h1, h2⟩

theorem means_over (ns : List Node) (data : Option MapId) : (its : List Any) →
    Means env B (fun g => iterItems (nested B g) ns data its) fun s e s' => Over env B ns data its s e s'
  | [] => (Means.pure _).iff fun s e s' => ⟨by rintro ⟨rfl, rfl⟩; exact .nil, by rintro ⟨⟩; exact ⟨rfl, rfl⟩⟩
  | it :: its => by
    have h0 : Means env B (fun _ => Do.setItem it (match it with
        | .map m => some m
        | _ => data)) fun s _ s' => s' = { s with frame := withItem s.frame data it } :=
      (Means.det (F := fun s => ((), { s with frame := withItem s.frame data it })) fun _ _ => rfl).iff fun s b s' => by simp
    refine (Means.bind h0 fun _ => Means.bind (means_each ns) (K := fun e g => match e with
      | some e => return some e
      | none => iterItems (nested B g) ns data its) (S := fun o s e s' => match o with
      | some x => e = some x ∧ s' = s
      | none => Over env B ns data its s e s') fun o => ?_).iff fun s e s' => ⟨?_, ?_⟩
    · cases o with
      | none => exact means_over ns data its
      | some x => exact Means.pure _
    · rintro ⟨_, s₁, rfl, o, s₂, h1, h2⟩
      cases o with
      | none => exact .ok h1 h2
      | some x =>
        obtain ⟨rfl, rfl⟩ := h2
        exact .err h1
    · intro h
      cases h with
      | ok h1 h2 => exact ⟨(), _, rfl, none, _, h1, h2⟩
      | err h1 => exact ⟨(), _, rfl, some _, _, h1, rfl, rfl⟩

/-- Running in a child context. -/
theorem means_within {α : Type} {M : Nat → Prog α} {R : St → α → St → Prop} (hM : ∀ g, KeepsParents (M g))
    (h : Means env B M R) (child : Frame) :
    Means env B (fun g => do
      Do.enter child
      let a ← M g
      let fr ← Do.leave
      return (a, fr)) fun s p s' => ∃ t, R (within s child) p.1 t ∧ p.2 = t.frame ∧
        s' = { t with frame := s.frame, parents := s.parents } := by
  have key : ∀ g g' s, exec env (inlined B (renderWith B g) (do
      Do.enter child
      let a ← M g'
      let fr ← Do.leave
      return (a, fr))) s = (exec env (inlined B (renderWith B g) (M g')) (within s child)).bind fun p =>
        some ((p.1, p.2.frame), { p.2 with frame := s.frame, parents := s.parents }) := by
    intro g g' s
    simp only [inlined_bind, exec_bind]
    have h0 : exec env (inlined B (renderWith B g) (Do.enter child)) s = some ((), within s child) := rfl
    rw [h0]
    simp only [Option.bind_some]
    cases hx : exec env (inlined B (renderWith B g) (M g')) (within s child) with
    | none => rfl
    | some p =>
      obtain ⟨a, t⟩ := p
      have hp : t.parents = s.frame :: s.parents :=
        KeepsParents.keeps (balanced_inlined (balanced_renderWith g) (hM g')) hx
      have h3 : exec env (inlined B (renderWith B g) Do.leave) t =
          some (t.frame, { t with frame := s.frame, parents := s.parents }) := by
        change exec env Do.leave t = _
        simp only [Do.leave, exec, Action.run, hp]
      simp only [Option.bind_some, h3]
      rfl
  constructor
  · intro g g' s a s' hx
    rw [key] at hx
    cases hm : exec env (inlined B (renderWith B g) (M g')) (within s child) with
    | none => rw [hm] at hx; cases hx
    | some p =>
      rw [hm] at hx
      cases hx
      exact ⟨p.2, h.sound hm, rfl, rfl⟩
  · rintro s ⟨a, fr⟩ s' ⟨t, h1, h2, rfl⟩
    obtain ⟨f, hf⟩ := h.complete h1
    refine ⟨f, fun g g' hg hg' => ?_⟩
    rw [key, hf g g' hg hg']
    cases h2
    rfl

theorem means_yields (ns : List Node) : (p : YieldBody) → (child : Frame) →
    Means env B (fun g => runYield (nested B g) ns p child) fun s _ s' => Yields env B ns p child s s'
  | .done, child => (Means.pure _).iff fun s e s' => ⟨by rintro ⟨rfl, rfl⟩; exact .done, by rintro ⟨⟩; exact ⟨rfl, rfl⟩⟩
  | .user upd k, child => by
    have h0 : Means env B (fun _ => Do.user upd) fun s a s' => a = s.confine (upd s) ∧ s' = s.confine (upd s) :=
      (Means.det (F := fun s => (s.confine (upd s), s.confine (upd s))) fun _ _ => rfl).iff fun s b s' => by simp
    refine (Means.bind h0 fun a => means_yields ns (k a) child).iff fun s e s' => ⟨?_, fun h => ?_⟩
    · rintro ⟨a, s₁, ⟨rfl, rfl⟩, h⟩
      exact .user h
    · cases h with
      | user h => exact ⟨_, _, ⟨rfl, rfl⟩, h⟩
  | .write d k, child => by
    have h0 : Means env B (fun _ => Do.write d) fun s a s' => a = env.write s.log d ∧ s' = s.wrote d (env.write s.log d) :=
      (Means.det (F := fun s => (env.write s.log d, s.wrote d (env.write s.log d))) fun _ _ => rfl).iff fun s b s' => by simp
    refine (Means.bind h0 fun r => Means.bind .look fun a => means_yields ns (k r a) child).iff fun s e s' => ⟨?_, fun h => ?_⟩
    · rintro ⟨a, s₁, ⟨rfl, rfl⟩, _, _, ⟨rfl, rfl⟩, h⟩
      exact .write rfl h
    · cases h with
      | write hr h => subst hr; exact ⟨_, _, ⟨rfl, rfl⟩, _, _, ⟨rfl, rfl⟩, h⟩
  | .render n k, child => by
    refine (Means.bind (means_node n) fun r => Means.bind .look fun a => means_yields ns (k r a) child).iff
      fun s e s' => ⟨?_, fun h => ?_⟩
    · rintro ⟨a, s₁, h1, _, _, ⟨rfl, rfl⟩, h⟩
      exact .render h1 h
    · cases h with
      | render h1 h => exact ⟨_, _, h1, _, _, ⟨rfl, rfl⟩, h⟩
  | .yield it k, child => by
    have h0 : Means env B (fun _ => Do.setItem it (itemData child.data it)) fun s _ s' =>
        s' = { s with frame := withItem s.frame child.data it } :=
      (Means.det (F := fun s => ((), { s with frame := withItem s.frame child.data it })) fun s _ => by
        cases it <;> rfl).iff fun s b s' => by simp
    have h1 : ∀ e : Option Err, Means env B (fun _ => setErrIf e) fun s _ s' =>
        s' = { s with frame := { s.frame with err := e.or s.frame.err } } := fun e =>
      (Means.det (F := fun s => ((), { s with frame := { s.frame with err := e.or s.frame.err } })) fun s _ => by
        cases e <;> rfl).iff fun s b s' => by simp
    have h2 : ∀ g, runYield (nested B g) ns (.yield it k) child = ((do
        Do.enter child
        let e ← (do
          Do.setItem it (itemData child.data it)
          iterNodes (nested B g) ns)
        let fr ← Do.leave
        return (e, fr)) >>= fun p => do
          setErrIf p.1
          let s ← Do.look
          runYield (nested B g) ns (k s) p.2) := fun g => by
      rw [runYield_scope]
      simp only [prog_assoc]
      rfl
    simp only [h2]
    refine (Means.bind (means_within (fun g => .bind (.setItem _ _) fun _ => KeepsParents.iterNodes (balanced_nested g) ns)
      (Means.bind h0 fun _ => means_each ns) child) fun p => Means.bind (h1 p.1) fun _ => Means.bind .look fun a =>
        means_yields ns (k a) p.2).iff fun s e s' => ⟨?_, fun h => ?_⟩
    · rintro ⟨⟨e, fr⟩, s₁, ⟨t, ⟨_, _, rfl, h⟩, rfl, rfl⟩, _, _, rfl, _, _, ⟨rfl, rfl⟩, h'⟩
      exact .yield h h'
    · cases h with
      | yield h h' => exact ⟨(_, _), _, ⟨_, ⟨(), _, rfl, h⟩, rfl, rfl⟩, (), _, rfl, _, _, ⟨rfl, rfl⟩, h'⟩

theorem means_imp : (p : FnProg (Option Err)) → (stack : List Bytes) →
    Means env B (fun g => runImp (nested B g) (asImp p) stack) fun s e s' => Does env B p s e s'
  | .ret e, stack => (Means.pure _).iff fun s e s' => ⟨by rintro ⟨rfl, rfl⟩; exact .ret, by rintro ⟨⟩; exact ⟨rfl, rfl⟩⟩
  | .user upd k, stack => by
    have h0 : Means env B (fun _ => Do.user upd) fun s a s' => a = s.confine (upd s) ∧ s' = s.confine (upd s) :=
      (Means.det (F := fun s => (s.confine (upd s), s.confine (upd s))) fun _ _ => rfl).iff fun s b s' => by simp
    refine (Means.bind h0 fun a => means_imp (k a) stack).iff fun s e s' => ⟨?_, fun h => ?_⟩
    · rintro ⟨a, s₁, ⟨rfl, rfl⟩, h⟩
      exact .user h
    · cases h with
      | user h => exact ⟨_, _, ⟨rfl, rfl⟩, h⟩
  | .write d k, stack => by
    have h0 : Means env B (fun _ => Do.write d) fun s a s' => a = env.write s.log d ∧ s' = s.wrote d (env.write s.log d) :=
      (Means.det (F := fun s => (env.write s.log d, s.wrote d (env.write s.log d))) fun _ _ => rfl).iff fun s b s' => by simp
    refine (Means.bind h0 fun r => Means.bind .look fun a => means_imp (k r a) stack).iff fun s e s' => ⟨?_, fun h => ?_⟩
    · rintro ⟨a, s₁, ⟨rfl, rfl⟩, _, _, ⟨rfl, rfl⟩, h⟩
      exact .write rfl h
    · cases h with
      | write hr h => subst hr; exact ⟨_, _, ⟨rfl, rfl⟩, _, _, ⟨rfl, rfl⟩, h⟩
  | .render n k, stack => by
    refine (Means.bind (means_node n) fun r => Means.bind .look fun a => means_imp (k r a) stack).iff
      fun s e s' => ⟨?_, fun h => ?_⟩
    · rintro ⟨a, s₁, h1, _, _, ⟨rfl, rfl⟩, h⟩
      exact .render h1 h
    · cases h with
      | render h1 h => exact ⟨_, _, h1, _, _, ⟨rfl, rfl⟩, h⟩

/-- Nothing is called if the context has an error. -/
theorem means_guard {M : Ctx → Nat → Prog (Option Err)} {R : Ctx → St → Option Err → St → Prop}
    (h : ∀ c : Ctx, c.frame.err = none → Means env B (M c) (R c)) :
    Means env B (fun g => do
      let c ← Do.ctx
      match c.frame.err with
      | some e => return some e
      | none => M c g) fun s e s' => (∃ x, s.frame.err = some x ∧ e = some x ∧ s' = s) ∨
        s.frame.err = none ∧ R s.toCtx s e s' := by
  refine (Means.bind .ctx (S := fun c s e s' => (∃ x, c.frame.err = some x ∧ e = some x ∧ s' = s) ∨
    c.frame.err = none ∧ R c s e s') fun c => ?_).iff fun s e s' => ⟨?_, fun h => ?_⟩
  · cases hc : c.frame.err with
    | none => exact (h c hc).iff fun s e s' => by simp
    | some x => exact (Means.pure (some x)).iff fun s e s' => by simp
  · rintro ⟨c, s₁, ⟨rfl, rfl⟩, h⟩
    exact h
  · exact ⟨_, _, ⟨rfl, rfl⟩, h⟩

theorem means_iterate (ns : List Node) (f : FnId) : Means env B (fun g => renderIterator (nested B g) ns (.user f))
    fun s e s' => (∃ x, s.frame.err = some x ∧ e = some x ∧ s' = s) ∨ s.frame.err = none ∧
      ∃ its s₁, Does env B (B.items f s) s its s₁ ∧ (its = [] ∧ e = none ∧ s' = s₁ ∨ its ≠ [] ∧ ∃ t, s' = back s₁ t e ∧
        Over env B ns s₁.frame.data its (within s₁ ⟨s₁.frame.err, none, .nil⟩) e t) := by
  refine means_guard (M := fun _ g => do
    let items ← runItems (.user f)
    match items with
    | [] => return none
    | items => do
      let c ← Do.ctx
      Do.enter { err := c.frame.err, data := none, cargo := .nil }
      let e ← iterItems (nested B g) ns c.frame.data items
      let _ ← Do.leave
      match e with
      | some e => do
        Do.setErr (some e)
        return some e
      | none => return none) (R := fun _ s e s' => ∃ its s₁, Does env B (B.items f s) s its s₁ ∧ (its = [] ∧ e = none ∧ s' = s₁ ∨
        its ≠ [] ∧ ∃ t, s' = back s₁ t e ∧
        Over env B ns s₁.frame.data its (within s₁ ⟨s₁.frame.err, none, .nil⟩) e t)) fun c _ => ?_
  refine Means.bind (means_items f) (S := fun its s₁ e s' => (its = [] ∧ e = none ∧ s' = s₁ ∨
        its ≠ [] ∧ ∃ t, s' = back s₁ t e ∧
        Over env B ns s₁.frame.data its (within s₁ ⟨s₁.frame.err, none, .nil⟩) e t)) fun its => ?_
  cases its with
  | nil => exact (Means.pure none).iff fun s e s' => by simp
  | cons it its =>
    have h2 : ∀ g (c : Ctx), (do
        Do.enter { err := c.frame.err, data := none, cargo := .nil }
        let e ← iterItems (nested B g) ns c.frame.data (it :: its)
        let _ ← Do.leave
        match e with
        | some e => do
          Do.setErr (some e)
          return some e
        | none => return none : Prog (Option Err)) = ((do
        Do.enter { err := c.frame.err, data := none, cargo := .nil }
        let e ← iterItems (nested B g) ns c.frame.data (it :: its)
        let fr ← Do.leave
        return (e, fr)) >>= fun p => match p.1 with
        | some e => do
          Do.setErr (some e)
          return some e
        | none => return none) := fun g c => by
      simp only [prog_assoc]
      rfl
    simp only [h2]
    have h3 : ∀ p : Option Err × Frame, Means env B (fun _ => match p.1 with
        | some e => do
          Do.setErr (some e)
          return some e
        | none => return none) fun s e s' => e = p.1 ∧ s' = { s with frame := { s.frame with err := e.or s.frame.err } } := by
      rintro ⟨o, fr⟩
      cases o with
      | none => exact (Means.pure none).iff fun s e s' => ⟨by rintro ⟨rfl, rfl⟩; exact ⟨rfl, rfl⟩, by
          rintro ⟨rfl, rfl⟩; exact ⟨rfl, rfl⟩⟩
      | some x => exact (Means.bind (Means.setErr _) fun _ => Means.pure (some x)).iff fun s e s' =>
          ⟨by rintro ⟨_, _, rfl, rfl, rfl⟩; exact ⟨rfl, rfl⟩, by rintro ⟨rfl, rfl⟩; exact ⟨(), _, rfl, rfl, rfl⟩⟩
    refine (Means.bind .ctx fun c => Means.bind (means_within (fun g => KeepsParents.iterItems (balanced_nested g) ns _ _)
      (means_over ns c.frame.data (it :: its)) _) h3).iff fun s e s' => ⟨?_, ?_⟩
    · rintro ⟨_, _, ⟨rfl, rfl⟩, ⟨o, fr⟩, _, ⟨t, h, rfl, rfl⟩, rfl, rfl⟩
      exact .inr ⟨nofun, t, rfl, h⟩
    · rintro (⟨h, -⟩ | ⟨-, t, rfl, h⟩)
      · cases h
      · exact ⟨_, _, ⟨rfl, rfl⟩, (e, _), _, ⟨t, h, rfl, rfl⟩, rfl, rfl⟩

theorem means_yielding (ns : List Node) (f : FnId) : Means env B (fun g => renderYield B (nested B g) ns f)
    fun s e s' => (∃ x, s.frame.err = some x ∧ e = some x ∧ s' = s) ∨ s.frame.err = none ∧
      Yields env B ns (B.yields f s) ⟨none, none, .nil⟩ s s' ∧ e = s'.frame.err := by
  refine means_guard (M := fun c g => do
    let s ← Do.look
    runYield (nested B g) ns (B.yields f s) { err := c.frame.err, data := none, cargo := .nil }
    retErr) (R := fun _ s e s' => Yields env B ns (B.yields f s) ⟨none, none, .nil⟩ s s' ∧ e = s'.frame.err) fun c hc => ?_
  simp only [hc]
  refine (Means.bind .look fun a => Means.bind (means_yields ns (B.yields f a) _) fun _ => .retErr).iff
    fun s e s' => ⟨?_, ?_⟩
  · rintro ⟨_, _, ⟨rfl, rfl⟩, _, _, h, rfl, rfl⟩
    exact ⟨h, rfl⟩
  · rintro ⟨h, rfl⟩
    exact ⟨_, _, ⟨rfl, rfl⟩, (), _, h, rfl, rfl⟩

end

end Aitch.Stream
