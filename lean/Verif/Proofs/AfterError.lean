import Verif.Proofs.Trip
import Verif.Proofs.Errors
import Verif.Spec.AfterError
/-
Renders in a context with an error.
-/
set_option linter.unusedSectionVars false
namespace Aitch
open Spec

section
variable {env : Env} {P : Fns} {c : Ctx} {x : Err}

/-- In context `c` (with an error), `m` writes nothing and changes nothing. -/
def Idle (env : Env) (c : Ctx) {α : Type} (m : Prog α) (Q : α → Prop) : Prop :=
  ∀ s r s', s.toCtx = c → exec env m s = some (r, s') → s'.toCtx = c ∧ s'.log = s.log ∧ Q r

/-- In context `c`, `m` writes something. -/
def Moves (env : Env) (c : Ctx) {α : Type} (m : Prog α) : Prop :=
  ∀ s r s', s.toCtx = c → exec env m s = some (r, s') → s.log.length < s'.log.length

section
variable {α β : Type}

theorem Idle.pure {a : α} {Q : α → Prop} (h : Q a) : Idle env c (Pure.pure a) Q := by
  intro s r s' hs he; cases he; exact ⟨hs, rfl, h⟩

theorem Idle.bind {m : Prog α} {f : α → Prog β} {Q : α → Prop} {Q' : β → Prop} (hm : Idle env c m Q)
    (hf : ∀ a, Q a → Idle env c (f a) Q') : Idle env c (m >>= f) Q' := by
  intro s r s' hs he
  rw [exec_bind] at he
  cases h1 : exec env m s with
  | none => rw [h1] at he; cases he
  | some p =>
    rw [h1] at he
    obtain ⟨h2, h3, h4⟩ := hm s p.1 p.2 hs h1
    obtain ⟨h5, h6, h7⟩ := hf p.1 h4 p.2 r s' h2 he
    exact ⟨h5, h6.trans h3, h7⟩

theorem Moves.left {m : Prog α} {f : α → Prog β} (hm : Moves env c m) : Moves env c (m >>= f) := by
  intro s r s' hs he
  rw [exec_bind] at he
  cases h1 : exec env m s with
  | none => rw [h1] at he; cases he
  | some p =>
    rw [h1] at he
    exact Nat.lt_of_lt_of_le (hm s p.1 p.2 hs h1) (exec_log he).length_le

theorem Moves.right {m : Prog α} {f : α → Prog β} {Q : α → Prop} (hm : Idle env c m Q)
    (hf : ∀ a, Q a → Moves env c (f a)) : Moves env c (m >>= f) := by
  intro s r s' hs he
  rw [exec_bind] at he
  cases h1 : exec env m s with
  | none => rw [h1] at he; cases he
  | some p =>
    rw [h1] at he
    obtain ⟨h2, h3, h4⟩ := hm s p.1 p.2 hs h1
    have := hf p.1 h4 p.2 r s' h2 he
    rwa [h3] at this

theorem Idle.weaken {m : Prog α} {Q Q' : α → Prop} (h : Idle env c m Q) (hQ : ∀ a, Q a → Q' a) : Idle env c m Q' :=
  fun s r s' hs he => let ⟨a, b, d⟩ := h s r s' hs he; ⟨a, b, hQ _ d⟩

end

theorem Idle.ctx : Idle env c Do.ctx (fun r => r = c) := by
  intro s r s' hs he; cases he; exact ⟨hs, rfl, hs⟩

variable (hx : c.frame.err = some x)
include hx

theorem Idle.ctxWrite (d : Bytes) : Idle env c (ctxWrite d) fun _ => True := by
  refine .bind .ctx fun r hr => ?_
  subst hr
  rw [hx]
  exact .pure trivial

theorem Idle.retErr : Idle env c retErr (fun e => e = some x) :=
  .bind .ctx fun _ hr => .pure (hr ▸ hx)

theorem Idle.setErr : Idle env c (Do.setErr (some x)) fun _ => True := by
  intro s r s' hs he
  cases he
  subst hs
  refine ⟨?_, rfl, trivial⟩
  have : s.frame.err = some x := hx
  cases s with
  | mk c log tick =>
    simp only [Action.run, St.setErr]
    cases c with
    | mk frame => cases frame; simp at this; subst this; rfl

omit hx

theorem Moves.write (d : Bytes) : Moves env c (Do.write d) := by
  intro s r s' _ he
  cases he
  simp [Action.run, St.wrote]

theorem Moves.valueWrite (d : Bytes) : Moves env c (valueWrite d) := .left (.write d)

/-- A program that writes something whatever the context is. -/
theorem Moves.after {α β : Type} {m : Prog α} {f : α → Prog β} (hf : ∀ a c, Moves env c (f a)) :
    Moves env c (m >>= f) := by
  intro s r s' hs he
  rw [exec_bind] at he
  cases h1 : exec env m s with
  | none => rw [h1] at he; cases he
  | some p =>
    rw [h1] at he
    exact Nat.lt_of_le_of_lt (exec_log h1).length_le (hf p.1 _ p.2 r s' rfl he)

theorem Moves.renderValue (c : Ctx) : (v : Value) → Moves env c (renderValue v)
  | .mk _ (some _) _ => .after fun _ _ => .valueWrite _
  | .mk _ none [] => .valueWrite _
  | .mk _ none (v :: _) => .left (Moves.renderValue c v)

theorem Moves.renderValues {v : Value} {vs : List Value} : Moves env c (renderValues (v :: vs)) :=
  .left (.renderValue c v)

include hx

theorem Idle.renderAttr {a : Attr} (h : ¬ HasValues c.dl a) : Idle env c (renderAttr a) fun _ => True := by
  cases a with
  | plain n vs =>
    have : vs = [] := Decidable.not_not.1 h
    subst this
    exact .bind (.ctxWrite hx _) fun _ _ => .bind (.ctxWrite hx _) fun _ _ => .bind (.ctxWrite hx _) fun _ _ =>
      .bind (Q := fun _ => True) (.pure trivial) fun _ _ => .ctxWrite hx _
  | bool n => exact .bind (.ctxWrite hx _) fun _ _ => .ctxWrite hx _
  | delim n d r =>
    have : c.dl r = [] := Decidable.not_not.1 h
    refine .bind .ctx fun k hk => ?_
    subst hk
    rw [this]
    exact .bind (.ctxWrite hx _) fun _ _ => .bind (.ctxWrite hx _) fun _ _ => .bind (.ctxWrite hx _) fun _ _ =>
      .bind (Q := fun _ => True) (.pure trivial) fun _ _ => .ctxWrite hx _

theorem Moves.renderAttr {a : Attr} (h : HasValues c.dl a) : Moves env c (renderAttr a) := by
  cases a with
  | plain n vs =>
    cases vs with
    | nil => exact (h rfl).elim
    | cons v vs =>
      exact .right (.ctxWrite hx _) fun _ _ => .right (.ctxWrite hx _) fun _ _ => .right (.ctxWrite hx _) fun _ _ =>
        .left .renderValues
  | bool n => exact h.elim
  | delim n d r =>
    refine .right .ctx fun k hk => ?_
    subst hk
    cases hv : k.dl r with
    | nil => exact (h hv).elim
    | cons v vs =>
      exact .right (.ctxWrite hx _) fun _ _ => .right (.ctxWrite hx _) fun _ _ => .right (.ctxWrite hx _) fun _ _ =>
        .left (.right (Q := fun _ => True) (.pure trivial) fun _ _ => .left (.renderValue _ v))

theorem Idle.renderAttrs : (as : List Attr) → (∀ a ∈ as, ¬ HasValues c.dl a) → Idle env c (renderAttrs as) fun _ => True
  | [], _ => .pure trivial
  | a :: as, h => .bind (.renderAttr hx (h a (.head _))) fun _ _ => Idle.renderAttrs as fun b hb => h b (.tail _ hb)

theorem Moves.renderAttrs {a : Attr} (ha : HasValues c.dl a) : (as : List Attr) → a ∈ as → Moves env c (renderAttrs as)
  | [], h => by cases h
  | b :: as, h => by
    by_cases hb : HasValues c.dl b
    · exact .left (.renderAttr hx hb)
    · refine .right (.renderAttr hx hb) fun _ _ => Moves.renderAttrs ha as ?_
      rcases List.mem_cons.1 h with rfl | h
      · exact (hb ha).elim
      · exact h

theorem Idle.renderStartTag {h : ElemHead} (h0 : h.conditionals = []) (ha : ∀ a ∈ h.attributes, ¬ HasValues c.dl a) :
    Idle env c (renderStartTag h) fun _ => True := by
  refine .bind (.ctxWrite hx _) fun _ _ => .bind (.ctxWrite hx _) fun _ _ => .bind (Q := fun _ => True) ?_ fun _ _ => .ctxWrite hx _
  unfold renderAttributes
  rw [h0]
  exact .renderAttrs hx _ ha

theorem Moves.renderStartTag {h : ElemHead} {a : Attr} (h0 : h.conditionals = []) (hm : a ∈ h.attributes)
    (ha : HasValues c.dl a) : Moves env c (renderStartTag h) := by
  refine .right (.ctxWrite hx _) fun _ _ => .right (.ctxWrite hx _) fun _ _ => .left ?_
  unfold renderAttributes
  rw [h0]
  exact .renderAttrs hx ha _ hm

theorem Idle.renderEndTag (n : Bytes) : Idle env c (renderEndTag n) fun _ => True :=
  .bind (.ctxWrite hx _) fun _ _ => .bind (.ctxWrite hx _) fun _ _ => .ctxWrite hx _

section
variable {rec : Render}

theorem Idle.contentLoop : (ns : List Node) → (∀ n ∈ ns, Idle env c (rec n) (· = some x)) →
    Idle env c (contentLoop rec ns) fun _ => True
  | [], _ => .pure trivial
  | n :: ns, h => .bind (h n (.head _)) fun e he => by
    subst he
    exact .bind (.setErr hx) fun _ _ => Idle.contentLoop ns fun m hm => h m (.tail _ hm)

theorem Moves.contentLoop {n : Node} {post : List Node} (hn : Moves env c (rec n)) : (pre : List Node) →
    (∀ m ∈ pre, Idle env c (rec m) (· = some x)) → Moves env c (contentLoop rec (pre ++ n :: post))
  | [], _ => .left hn
  | m :: pre, h => .right (h m (.head _)) fun e he => by
    subst he
    exact .right (.setErr hx) fun _ _ => Moves.contentLoop hn pre fun k hk => h k (.tail _ hk)

theorem Idle.documentLoop : (ns : List Node) → (∀ n ∈ ns, Idle env c (rec n) (· = some x)) →
    Idle env c (documentLoop rec ns) fun _ => True
  | [], _ => .pure trivial
  | n :: ns, h => .bind (h n (.head _)) fun _ _ => Idle.documentLoop ns fun m hm => h m (.tail _ hm)

theorem Moves.documentLoop {n : Node} {post : List Node} (hn : Moves env c (rec n)) : (pre : List Node) →
    (∀ m ∈ pre, Idle env c (rec m) (· = some x)) → Moves env c (documentLoop rec (pre ++ n :: post))
  | [], _ => .left hn
  | m :: pre, h => .right (h m (.head _)) fun _ _ => Moves.documentLoop hn pre fun k hk => h k (.tail _ hk)

theorem Idle.ignoreLoop : (ns : List (Option Node)) →
    (∀ n, some n ∈ ns → n.isAttr = false → Idle env c (rec n) (· = some x)) → Idle env c (ignoreLoop rec ns) fun _ => True
  | [], _ => .pure trivial
  | none :: ns, h => Idle.ignoreLoop ns fun m hm => h m (.tail _ hm)
  | some n :: ns, h => by
    unfold Aitch.ignoreLoop
    split
    · exact Idle.ignoreLoop ns fun m hm => h m (.tail _ hm)
    · rename_i hn
      exact .bind (h n (.head _) (by simpa using hn)) fun _ _ => Idle.ignoreLoop ns fun m hm => h m (.tail _ hm)

theorem Moves.ignoreLoop {n : Node} {post : List (Option Node)} (h0 : n.isAttr = false) (hn : Moves env c (rec n)) :
    (pre : List (Option Node)) → (∀ m, some m ∈ pre → m.isAttr = false → Idle env c (rec m) (· = some x)) →
    Moves env c (ignoreLoop rec (pre ++ some n :: post))
  | [], _ => by
    change Moves env c (Aitch.ignoreLoop rec (some n :: post))
    unfold Aitch.ignoreLoop
    rw [h0]
    exact .left hn
  | none :: pre, h => Moves.ignoreLoop h0 hn pre fun m hm => h m (.tail _ hm)
  | some m :: pre, h => by
    change Moves env c (Aitch.ignoreLoop rec (some m :: (pre ++ some n :: post)))
    unfold Aitch.ignoreLoop
    split
    · exact Moves.ignoreLoop h0 hn pre fun k hk => h k (.tail _ hk)
    · rename_i hm
      exact .right (h m (.head _) (by simpa using hm)) fun _ _ => Moves.ignoreLoop h0 hn pre fun k hk => h k (.tail _ hk)

theorem Idle.collectionNone : (ns : List Node) → (∀ n ∈ ns, n.isAttr = true) →
    Idle env c (collectionLoop rec ns) fun _ => True
  | [], _ => .pure trivial
  | n :: ns, h => by
    unfold Aitch.collectionLoop
    rw [if_pos (h n (.head _))]
    exact Idle.collectionNone ns fun m hm => h m (.tail _ hm)

omit hx in
theorem collectionLoop_first : (pre : List Node) → (n : Node) → (post : List Node) → (∀ n ∈ pre, n.isAttr = true) →
    n.isAttr = false → collectionLoop rec (pre ++ n :: post) = (do
      let e ← rec n
      Do.setErr e
      match e with
      | some _ => return ()
      | none => collectionLoop rec post)
  | [], n, post, _, h => by
    change collectionLoop rec (n :: post) = _
    conv => lhs; unfold collectionLoop
    rw [h]
    rfl
  | m :: pre, n, post, hp, h => by
    change collectionLoop rec (m :: (pre ++ n :: post)) = _
    conv => lhs; unfold collectionLoop
    rw [if_pos (hp m (.head _))]
    exact collectionLoop_first pre n post (fun k hk => hp k (.tail _ hk)) h

theorem Idle.collectionLoop {pre : List Node} {n : Node} {post : List Node} (hp : ∀ n ∈ pre, n.isAttr = true)
    (h : n.isAttr = false) (hn : Idle env c (rec n) (· = some x)) :
    Idle env c (collectionLoop rec (pre ++ n :: post)) fun _ => True := by
  rw [collectionLoop_first pre n post hp h]
  refine .bind hn fun e he => ?_
  subst he
  exact .bind (.setErr hx) fun _ _ => .pure trivial

end

omit hx
theorem Idle.runCond (C : Computes env P) (k : Cond) : Idle env c (runCond k) (· = holds P c k) := by
  cases k with
  | user f =>
    intro s r s' hs he
    cases he
    subst hs
    simp only [Action.run, C.cond]
    exact ⟨rfl, rfl, rfl⟩
  | has k =>
    refine .bind .ctx fun d hd => ?_
    subst hd
    cases h : d.lookup k with
    | none => exact .pure (by simp [holds, h])
    | some v => cases v with
      | bool b => cases b <;> exact .pure (by simp [holds, h])
      | _ => exact .pure (by simp [holds, h])
  | hasNot k =>
    refine .bind .ctx fun d hd => ?_
    subst hd
    cases h : d.lookup k with
    | none => exact .pure (by simp [holds, h])
    | some v => cases v with
      | bool b => cases b <;> exact .pure (by simp [holds, h])
      | _ => exact .pure (by simp [holds, h])
include hx

theorem idle_of_mute (C : Computes env P) {n : Node} (h : Mute P c n) (fuel : Nat) :
    Idle env c (renderProg fuel n) (· = some x) := by
  induction h generalizing fuel with
  | element h0 ha _ ih =>
    cases fuel with
    | zero => intro _ _ _ _ he; cases he
    | succ fuel =>
      exact .bind (.renderStartTag hx h0 ha) fun _ _ => .bind (.contentLoop hx _ fun n hn => ih n hn fuel) fun _ _ =>
        .bind (.renderEndTag hx _) fun _ _ => .retErr hx
  | voidElement h0 ha =>
    cases fuel with
    | zero => intro _ _ _ _ he; cases he
    | succ fuel => exact .bind (.renderStartTag hx h0 ha) fun _ _ => .retErr hx
  | attr ha =>
    cases fuel with
    | zero => intro _ _ _ _ he; cases he
    | succ fuel => exact .bind (.renderAttr hx ha) fun _ _ => .retErr hx
  | text =>
    cases fuel with
    | zero => intro _ _ _ _ he; cases he
    | succ fuel => exact .bind (Q := fun _ => True) (.pure trivial) fun _ _ => .retErr hx
  | fragment =>
    cases fuel with
    | zero => intro _ _ _ _ he; cases he
    | succ fuel => exact .bind (Q := fun _ => True) (.pure trivial) fun _ _ => .retErr hx
  | comment =>
    cases fuel with
    | zero => intro _ _ _ _ he; cases he
    | succ fuel =>
      exact .bind (.ctxWrite hx _) fun _ _ => .bind (Q := fun _ => True) (.pure trivial) fun _ _ =>
        .bind (.ctxWrite hx _) fun _ _ => .retErr hx
  | pi =>
    cases fuel with
    | zero => intro _ _ _ _ he; cases he
    | succ fuel =>
      exact .bind (.ctxWrite hx _) fun _ _ => .bind (.ctxWrite hx _) fun _ _ => .bind (.ctxWrite hx _) fun _ _ =>
        .bind (Q := fun _ => True) (.pure trivial) fun _ _ => .bind (.ctxWrite hx _) fun _ _ => .retErr hx
  | collectionNone h =>
    cases fuel with
    | zero => intro _ _ _ _ he; cases he
    | succ fuel => exact .bind (.collectionNone hx _ h) fun _ _ => .retErr hx
  | collection hp h _ ih =>
    cases fuel with
    | zero => intro _ _ _ _ he; cases he
    | succ fuel => exact .bind (.collectionLoop hx hp h (ih fuel)) fun _ _ => .retErr hx
  | conditionalOff h =>
    cases fuel with
    | zero => intro _ _ _ _ he; cases he
    | succ fuel =>
      refine .bind (.runCond C _) fun b hb => ?_
      rw [hb, h]
      exact .bind (Q := fun _ => True) (.pure trivial) fun _ _ => .retErr hx
  | conditionalNone =>
    cases fuel with
    | zero => intro _ _ _ _ he; cases he
    | succ fuel =>
      refine .bind (.runCond C _) fun b hb => .bind (Q := fun _ => True) ?_ fun _ _ => .retErr hx
      cases b <;> exact .pure trivial
  | conditional _ ih =>
    cases fuel with
    | zero => intro _ _ _ _ he; cases he
    | succ fuel =>
      refine .bind (.runCond C _) fun b hb => .bind (Q := fun _ => True) ?_ fun _ _ => .retErr hx
      cases b
      · exact .pure trivial
      · refine .bind (ih fuel) fun e he => ?_
        subst he
        exact .bind (.setErr hx) fun _ _ => .pure trivial
  | @collector f _ ih =>
    cases fuel with
    | zero => intro _ _ _ _ he; cases he
    | succ fuel =>
      refine .bind (Q := fun ns => ns = P.collect f c) ?_ fun ns hns => ?_
      · intro s r s' hs he
        cases he
        subst hs
        simp [Action.run, C.collect, St.confine]
      · subst hns
        exact .bind (.ignoreLoop hx _ fun n hn h0 => ih n hn h0 fuel) fun _ _ => .retErr hx
  | iterator =>
    cases fuel with
    | zero => intro _ _ _ _ he; cases he
    | succ fuel =>
      refine .bind .ctx fun r hr => ?_
      subst hr
      rw [hx]
      exact .pure rfl
  | yieldIterator =>
    cases fuel with
    | zero => intro _ _ _ _ he; cases he
    | succ fuel =>
      refine .bind .ctx fun r hr => ?_
      subst hr
      rw [hx]
      exact .pure rfl
  | document _ ih =>
    cases fuel with
    | zero => intro _ _ _ _ he; cases he
    | succ fuel => exact .bind (.documentLoop hx _ fun n hn => ih n hn fuel) fun _ _ => .retErr hx

theorem moves_of_shows (C : Computes env P) {n : Node} (h : Shows P c n) (fuel : Nat) :
    Moves env c (renderProg fuel n) := by
  induction h generalizing fuel with
  | head h0 hm ha =>
    cases fuel with
    | zero => intro _ _ _ _ he; cases he
    | succ fuel => exact .left (.renderStartTag hx h0 hm ha)
  | @content h pre n post h0 hall _ ih =>
    cases fuel with
    | zero => intro _ _ _ _ he; cases he
    | succ fuel =>
      by_cases ha : ∃ a ∈ h.attributes, HasValues c.dl a
      · obtain ⟨a, h1, h2⟩ := ha
        exact .left (.renderStartTag hx h0 h1 h2)
      · exact .right (.renderStartTag hx h0 fun a h1 h2 => ha ⟨a, h1, h2⟩) fun _ _ =>
          .left (.contentLoop hx (ih fuel) _ fun m hm => idle_of_mute hx C (hall m hm) fuel)
  | voidHead h0 hm ha =>
    cases fuel with
    | zero => intro _ _ _ _ he; cases he
    | succ fuel => exact .left (.renderStartTag hx h0 hm ha)
  | attr ha =>
    cases fuel with
    | zero => intro _ _ _ _ he; cases he
    | succ fuel => exact .left (.renderAttr hx ha)
  | text =>
    cases fuel with
    | zero => intro _ _ _ _ he; cases he
    | succ fuel => exact .left .renderValues
  | fragment =>
    cases fuel with
    | zero => intro _ _ _ _ he; cases he
    | succ fuel => exact .left .renderValues
  | comment =>
    cases fuel with
    | zero => intro _ _ _ _ he; cases he
    | succ fuel => exact .right (.ctxWrite hx _) fun _ _ => .left .renderValues
  | pi =>
    cases fuel with
    | zero => intro _ _ _ _ he; cases he
    | succ fuel =>
      exact .right (.ctxWrite hx _) fun _ _ => .right (.ctxWrite hx _) fun _ _ => .right (.ctxWrite hx _) fun _ _ =>
        .left .renderValues
  | collection hp h _ ih =>
    cases fuel with
    | zero => intro _ _ _ _ he; cases he
    | succ fuel =>
      refine .left ?_
      rw [collectionLoop_first _ _ _ hp h]
      exact .left (ih fuel)
  | conditional h _ ih =>
    cases fuel with
    | zero => intro _ _ _ _ he; cases he
    | succ fuel =>
      refine .right (.runCond C _) fun b hb => .left ?_
      rw [hb, h]
      exact .left (ih fuel)
  | @collector f pre n post he h0 hall _ ih =>
    cases fuel with
    | zero => intro _ _ _ _ he; cases he
    | succ fuel =>
      refine .right (Q := fun ns => ns = P.collect f c) ?_ fun ns hns => ?_
      · intro s r s' hs he
        cases he
        subst hs
        simp [Action.run, C.collect, St.confine]
      · subst hns
        rw [he]
        exact .left (.ignoreLoop hx h0 (ih fuel) _ fun m hm h1 => idle_of_mute hx C (hall m hm h1) fuel)
  | document he hall _ ih =>
    cases fuel with
    | zero => intro _ _ _ _ he; cases he
    | succ fuel =>
      refine .left ?_
      rw [he]
      exact .documentLoop hx (ih fuel) _ fun m hm => idle_of_mute hx C (hall m hm) fuel

end

/-- A list of nodes each of which is mute or shows: all are mute, or there is a first that shows. -/
theorem first_shows {P : Fns} {c : Ctx} : (ns : List Node) → (∀ n ∈ ns, Mute P c n ∨ Shows P c n) →
    (∀ n ∈ ns, Mute P c n) ∨ ∃ pre n post, ns = pre ++ n :: post ∧ (∀ m ∈ pre, Mute P c m) ∧ Shows P c n
  | [], _ => .inl fun _ h => by cases h
  | n :: ns, h => by
    rcases h n (.head _) with h1 | h1
    · rcases first_shows ns fun m hm => h m (.tail _ hm) with h2 | ⟨pre, m, post, rfl, h3, h4⟩
      · exact .inl fun m hm => by
          rcases List.mem_cons.1 hm with rfl | hm
          · exact h1
          · exact h2 m hm
      · exact .inr ⟨n :: pre, m, post, rfl, fun k hk => by
          rcases List.mem_cons.1 hk with rfl | hk
          · exact h1
          · exact h3 k hk, h4⟩
    · exact .inr ⟨[], n, ns, rfl, (fun _ h => by cases h), h1⟩

/-- The first node of a list that is no attribute. -/
theorem first_node : (ns : List Node) → (∀ n ∈ ns, n.isAttr = true) ∨
    ∃ pre n post, ns = pre ++ n :: post ∧ (∀ m ∈ pre, m.isAttr = true) ∧ n.isAttr = false
  | [] => .inl fun _ h => by cases h
  | n :: ns => by
    cases h : n.isAttr with
    | false => exact .inr ⟨[], n, ns, rfl, (fun _ h => by cases h), h⟩
    | true =>
      rcases first_node ns with h2 | ⟨pre, m, post, rfl, h3, h4⟩
      · exact .inl fun m hm => by
          rcases List.mem_cons.1 hm with rfl | hm
          · exact h
          · exact h2 m hm
      · exact .inr ⟨n :: pre, m, post, rfl, (fun k hk => by
          rcases List.mem_cons.1 hk with rfl | hk
          · exact h
          · exact h3 k hk), h4⟩

mutual
theorem mute_or_shows (P : Fns) (c : Ctx) : (n : Node) → Simple n → Mute P c n ∨ Shows P c n
  | .element h cs, hs => by
    by_cases ha : ∃ a ∈ h.attributes, HasValues c.dl a
    · obtain ⟨a, h1, h2⟩ := ha
      exact .inr (.head hs.1 h1 h2)
    · rcases first_shows cs (mute_or_shows_all P c cs hs.2) with h1 | ⟨pre, n, post, rfl, h2, h3⟩
      · exact .inl (.element hs.1 (fun a h1 h2 => ha ⟨a, h1, h2⟩) h1)
      · exact .inr (.content hs.1 h2 h3)
  | .voidElement h, hs => by
    by_cases ha : ∃ a ∈ h.attributes, HasValues c.dl a
    · obtain ⟨a, h1, h2⟩ := ha
      exact .inr (.voidHead hs h1 h2)
    · exact .inl (.voidElement hs fun a h1 h2 => ha ⟨a, h1, h2⟩)
  | .attr a, _ => by
    by_cases ha : HasValues c.dl a
    · exact .inr (.attr ha)
    · exact .inl (.attr ha)
  | .text [], _ => .inl .text
  | .text (_ :: _), _ => .inr .text
  | .comment [], _ => .inl .comment
  | .comment (_ :: _), _ => .inr .comment
  | .fragment [], _ => .inl .fragment
  | .fragment (_ :: _), _ => .inr .fragment
  | .pi _ [], _ => .inl .pi
  | .pi _ (_ :: _), _ => .inr .pi
  | .collection ns, hs => by
    have hall := mute_or_shows_all P c ns hs
    rcases first_node ns with h1 | ⟨pre, n, post, rfl, h2, h3⟩
    · exact .inl (.collectionNone h1)
    · rcases hall n (by simp) with h | h
      · exact .inl (.collection h2 h3 h)
      · exact .inr (.collection h2 h3 h)
  | .conditional ns _ fn, hs => by
    have hall := mute_or_shows_all P c ns hs
    cases ns with
    | nil => exact .inl .conditionalNone
    | cons n ns =>
      cases h : holds P c fn with
      | false => exact .inl (.conditionalOff h)
      | true =>
        rcases hall n (.head _) with h1 | h1
        · exact .inl (.conditional h1)
        · exact .inr (.conditional h h1)
  | .iterator _ _, _ => .inl .iterator
  | .yieldIterator _ _, _ => .inl .yieldIterator
  | .document none cs, hs => by
    rcases first_shows _ (mute_or_shows_all P c cs hs) with h1 | ⟨pre, n, post, h1, h2, h3⟩
    · exact .inl (.document h1)
    · exact .inr (.document h1 h2 h3)
  | .document (some p) cs, hs => by
    have hp := mute_or_shows P c p hs.1
    have hcs := mute_or_shows_all P c cs hs.2
    rcases first_shows (p :: cs) (fun n hn => by
      rcases List.mem_cons.1 hn with rfl | hn
      · exact hp
      · exact hcs n hn) with h1 | ⟨pre, n, post, h1, h2, h3⟩
    · exact .inl (.document h1)
    · exact .inr (.document h1 h2 h3)
  | .collector _, hs => hs.elim
  | .imperative _, hs => hs.elim
theorem mute_or_shows_all (P : Fns) (c : Ctx) : (ns : List Node) → SimpleAll ns → ∀ n ∈ ns, Mute P c n ∨ Shows P c n
  | [], _, _, h => by cases h
  | m :: ns, hs, n, h => by
    have h1 := mute_or_shows P c m hs.1
    have h2 := mute_or_shows_all P c ns hs.2
    rcases List.mem_cons.1 h with rfl | h
    · exact h1
    · exact h2 n h
end

end Aitch
