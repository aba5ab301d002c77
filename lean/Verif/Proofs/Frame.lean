import Verif.Proofs.Trip
import Verif.Model.Render
/-
The `Parent` chain is kept by every program.
-/
namespace Aitch
open Spec

/-- `m`, started `d` contexts below the one it is to end in, enters and leaves contexts in a balanced way, whatever the
answers to its actions. -/
def Balanced {α} : Prog α → Nat → Prop
  | .pure _, d => d = 0
  | .stuck, _ => True
  | .step (.enter _) k, d => Balanced (k ()) (d + 1)
  | .step .leave k, d =>
    match d with
    | 0 => False
    | d + 1 => ∀ fr, Balanced (k fr) d
  | .step _ k, d => ∀ r, Balanced (k r) d

/-- `m` leaves the chain of parent contexts as it was. -/
def KeepsParents {α} (m : Prog α) : Prop := Balanced m 0

/-- Effects that neither enter nor leave a context. -/
def Flat (a : Action) : Prop := (∀ c, a ≠ .enter c) ∧ a ≠ .leave

section
variable {α β : Type}

theorem balanced_flat {a : Action} (h : Flat a) (k : a.Resp → Prog α) (d : Nat) :
    Balanced (.step a k) d = ∀ r, Balanced (k r) d := by
  cases a with
  | enter c => exact (h.1 c rfl).elim
  | leave => exact (h.2 rfl).elim
  | _ => rfl

theorem Flat.parents {a : Action} (h : Flat a) (env : Env) (s : St) : (a.run env s).2.parents = s.parents := by
  cases a with
  | enter c => exact (h.1 c rfl).elim
  | leave => exact (h.2 rfl).elim
  | _ => rfl

theorem Balanced.bind {m : Prog α} {f : α → Prog β} {d e : Nat} (hm : Balanced m d) (hf : ∀ a, Balanced (f a) e) :
    Balanced (m >>= f) (d + e) := by
  change Balanced (m.bind f) _
  induction m generalizing d with
  | pure a =>
    have : d = 0 := hm
    subst this
    rw [Nat.zero_add]
    exact hf a
  | stuck => exact trivial
  | step a k ih =>
    by_cases hfl : Flat a
    · rw [balanced_flat hfl] at hm
      simp only [Prog.bind]
      rw [balanced_flat hfl]
      exact fun r => ih r (hm r)
    · cases a with
      | enter c =>
        have := ih () (d := d + 1) hm
        simp only [Prog.bind]
        change Balanced _ (d + e + 1)
        rw [show d + e + 1 = d + 1 + e by omega]
        exact this
      | leave =>
        cases d with
        | zero => exact hm.elim
        | succ d =>
          simp only [Prog.bind]
          rw [show d + 1 + e = d + e + 1 by omega]
          exact fun fr => ih fr (hm fr)
      | _ => exact (hfl ⟨nofun, nofun⟩).elim

theorem Balanced.ends {env : Env} {m : Prog α} {d : Nat} (hm : Balanced m d) {s s' : St} {r : α}
    (h : exec env m s = some (r, s')) {ps qs : List Frame} (hp : s.parents = ps ++ qs) (hd : ps.length = d) :
    s'.parents = qs := by
  induction m generalizing d s ps with
  | pure a =>
    cases h
    have : d = 0 := hm
    subst this
    rw [hp, List.length_eq_zero_iff.1 hd]
    rfl
  | stuck => cases h
  | step a k ih =>
    simp only [exec] at h
    by_cases hfl : Flat a
    · rw [balanced_flat hfl] at hm
      exact ih _ (hm _) h ((hfl.parents env s).trans hp) hd
    · cases a with
      | enter c => exact ih _ (d := d + 1) (ps := s.frame :: ps) hm h (by simp [Action.run, hp]) (by simp [hd])
      | leave =>
        cases d with
        | zero => exact hm.elim
        | succ d =>
          cases ps with
          | nil => cases hd
          | cons p ps =>
            have hp' : ((Action.leave).run env s).2.parents = ps ++ qs := by
              simp only [Action.run, hp, List.cons_append]
            exact ih _ (hm _) h hp' (by simpa using hd)
      | _ => exact (hfl ⟨nofun, nofun⟩).elim

theorem KeepsParents.keeps {m : Prog α} (hm : KeepsParents m) {env : Env} {s s' : St} {r : α}
    (h : exec env m s = some (r, s')) : s'.parents = s.parents :=
  Balanced.ends hm h (ps := []) rfl rfl

theorem KeepsParents.pure (a : α) : KeepsParents (Pure.pure a : Prog α) := rfl

theorem KeepsParents.stuck : KeepsParents (.stuck : Prog α) := trivial

theorem KeepsParents.bind {m : Prog α} {f : α → Prog β} (hm : KeepsParents m) (hf : ∀ a, KeepsParents (f a)) :
    KeepsParents (m >>= f) := Balanced.bind (e := 0) hm hf

theorem KeepsParents.act {a : Action} {f : a.Resp → α} (h : Flat a) :
    KeepsParents (.step a fun r => .pure (f r)) := by
  unfold KeepsParents
  rw [balanced_flat h]
  exact fun _ => rfl

theorem KeepsParents.flat {a : Action} (h : KeepsParents (.step a .pure)) : Flat a := by
  cases a with
  | enter c => cases (show 0 + 1 = 0 from h)
  | leave => exact (show False from h).elim
  | _ => exact ⟨nofun, nofun⟩

theorem KeepsParents.ctx : KeepsParents Do.ctx := .act ⟨nofun, nofun⟩
theorem KeepsParents.write (d) : KeepsParents (Do.write d) := .act ⟨nofun, nofun⟩
theorem KeepsParents.setErr (e) : KeepsParents (Do.setErr e) := .act ⟨nofun, nofun⟩
theorem KeepsParents.dyn (f) : KeepsParents (Do.dyn f) := .act ⟨nofun, nofun⟩
theorem KeepsParents.cond (f) : KeepsParents (Do.cond f) := .act ⟨nofun, nofun⟩
theorem KeepsParents.collect (f) : KeepsParents (Do.collect f) := .act ⟨nofun, nofun⟩
theorem KeepsParents.items (f) : KeepsParents (Do.items f) := .act ⟨nofun, nofun⟩
theorem KeepsParents.yields (f) : KeepsParents (Do.yields f) := .act ⟨nofun, nofun⟩
theorem KeepsParents.imp (f) : KeepsParents (Do.imp f) := .act ⟨nofun, nofun⟩
theorem KeepsParents.user (u) : KeepsParents (Do.user u) := .act ⟨nofun, nofun⟩
theorem KeepsParents.look : KeepsParents Do.look := .act ⟨nofun, nofun⟩
theorem KeepsParents.order (ks) : KeepsParents (Do.order ks) := .act ⟨nofun, nofun⟩
theorem KeepsParents.setItem (i d) : KeepsParents (Do.setItem i d) := .act ⟨nofun, nofun⟩

theorem KeepsParents.when {b : Bool} {m : Prog Unit} (h : KeepsParents m) : KeepsParents (Prog.when b m) := by
  unfold Prog.when; split
  · exact h
  · exact .pure _

/-- The state in which a child context is entered. -/
def St.entered (s : St) (child : Frame) : St := { s with frame := child, parents := s.frame :: s.parents }

/-- Back in the parent context of a child that ended in `t`. -/
def St.left (s t : St) : St := { t with frame := s.frame, parents := s.parents }

/-- Entering a child context, running `m` there, and leaving it. -/
theorem exec_scope {γ : Type} {env : Env} {child : Frame} {m : Prog α} {k : α → Frame → Prog γ} {s : St} {x : γ × St}
    (hm : KeepsParents m)
    (h : exec env (do Do.enter child; let e ← m; let fr ← Do.leave; k e fr) s = some x) :
    ∃ e t, exec env m (s.entered child) = some (e, t) ∧ exec env (k e t.frame) (s.left t) = some x := by
  rw [exec_bind] at h
  have h1 : exec env (Do.enter child) s = some ((), s.entered child) := rfl
  rw [h1] at h
  simp only [Option.bind_some] at h
  rw [exec_bind] at h
  cases h2 : exec env m (s.entered child) with
  | none => rw [h2] at h; cases h
  | some p =>
    obtain ⟨e, t⟩ := p
    rw [h2] at h
    simp only [Option.bind_some] at h
    have hp := hm.keeps h2
    rw [exec_bind] at h
    have h3 : exec env Do.leave t = some (t.frame, s.left t) := by
      simp only [Do.leave, exec, Action.run, hp, St.entered, St.left]
    rw [h3] at h
    exact ⟨e, t, rfl, h⟩

end

theorem KeepsParents.ctxWrite (d : Bytes) : KeepsParents (ctxWrite d) := by
  unfold Aitch.ctxWrite
  refine .bind .ctx fun c => ?_
  split
  · exact .bind (.write d) fun _ => .setErr _
  · exact .pure _

theorem KeepsParents.retErr : KeepsParents retErr := .bind .ctx fun _ => .pure _

theorem KeepsParents.runDyn (d : Dyn) : KeepsParents (runDyn d) := by
  cases d with
  | user f => exact .dyn f
  | key k => refine .bind .ctx fun c => ?_; split <;> exact .pure _
  | cargo => exact .bind .ctx fun _ => .pure _

theorem KeepsParents.valueWrite (d : Bytes) : KeepsParents (valueWrite d) :=
  .bind (.write d) fun _ => .bind (.setErr _) fun _ => .pure _

mutual
theorem KeepsParents.renderValue : (v : Value) → KeepsParents (renderValue v)
  | .mk _ (some d) _ => .bind (.runDyn d) fun _ => .valueWrite _
  | .mk v none [] => .valueWrite v
  | .mk _ none (c :: cs) => .bind (.renderValue c) fun _ => .bind (.renderConcats cs _) fun _ => .pure _
theorem KeepsParents.renderConcats : (vs : List Value) → (l : Nat) → KeepsParents (renderConcats vs l)
  | [], _ => .pure _
  | c :: cs, _ => .bind (.renderValue c) fun _ => .renderConcats cs _
end

theorem KeepsParents.renderValues : (vs : List Value) → KeepsParents (renderValues vs)
  | [] => .pure _
  | v :: vs => .bind (.renderValue v) fun _ => .renderValues vs

theorem KeepsParents.renderDelimValues (d : Bytes) : (vs : List Value) → (b : Bool) →
    KeepsParents (renderDelimValues d vs b)
  | [], _ => .pure _
  | v :: vs, _ => .bind (.when (.ctxWrite d)) fun _ => .bind (.renderValue v) fun _ => .renderDelimValues d vs _

theorem KeepsParents.renderDelim (n d : Bytes) (vs : List Value) : KeepsParents (renderDelim n d vs) :=
  .bind (.ctxWrite _) fun _ => .bind (.ctxWrite _) fun _ => .bind (.ctxWrite _) fun _ =>
    .bind (.renderDelimValues d vs false) fun _ => .ctxWrite _

theorem KeepsParents.renderAttr (a : Attr) : KeepsParents (renderAttr a) := by
  cases a with
  | plain n vs =>
    exact .bind (.ctxWrite _) fun _ => .bind (.ctxWrite _) fun _ => .bind (.ctxWrite _) fun _ =>
      .bind (.renderValues vs) fun _ => .ctxWrite _
  | bool n => exact .bind (.ctxWrite _) fun _ => .ctxWrite _
  | delim n d r => exact .bind .ctx fun _ => .renderDelim _ _ _

theorem KeepsParents.runCond (k : Cond) : KeepsParents (runCond k) := by
  cases k with
  | user f => exact .cond f
  | has k => refine .bind .ctx fun c => ?_; split <;> exact .pure _
  | hasNot k => refine .bind .ctx fun c => ?_; split <;> exact .pure _

theorem KeepsParents.evalConds : (ks : List Cond) → KeepsParents (evalConds ks)
  | [] => .pure _
  | k :: ks => by
    refine .bind (.runCond k) fun b => ?_
    split
    · exact KeepsParents.evalConds ks
    · exact .pure _

theorem KeepsParents.evaluate : (cas : List CondAttr) → (acc : List (Bytes × List Attr)) →
    KeepsParents (evaluate cas acc)
  | [], _ => .pure _
  | _ :: as, _ => .bind (.evalConds _) fun _ => .evaluate as _

theorem KeepsParents.renderChosen (a : Attr) (m : List Attr) (l : Attr) : KeepsParents (renderChosen a m l) := by
  unfold Aitch.renderChosen
  split
  · exact .bind .ctx fun _ => .renderDelim _ _ _
  · exact .renderAttr l

theorem KeepsParents.renderStatics (h : ElemHead) (ev : List (Bytes × List Attr)) : (ns : List Bytes) →
    KeepsParents (renderStatics h ev ns)
  | [] => .pure _
  | n :: ns => by
    refine .bind ?_ fun _ => KeepsParents.renderStatics h ev ns
    unfold renderStatic
    split
    · exact .pure _
    · split
      · exact .pure _
      · split
        · exact .renderChosen _ _ _
        · exact .renderAttr _

theorem KeepsParents.renderExtras (h : ElemHead) (ev : List (Bytes × List Attr)) : (ns : List Bytes) →
    KeepsParents (renderExtras h ev ns)
  | [] => .pure _
  | n :: ns => by
    refine .bind ?_ fun _ => KeepsParents.renderExtras h ev ns
    unfold renderExtra
    split
    · exact .renderChosen _ _ _
    · exact .pure _

theorem KeepsParents.renderAttrs : (as : List Attr) → KeepsParents (renderAttrs as)
  | [] => .pure _
  | a :: as => .bind (.renderAttr a) fun _ => .renderAttrs as

theorem KeepsParents.renderAttributes (h : ElemHead) : KeepsParents (renderAttributes h) := by
  unfold Aitch.renderAttributes
  split
  · refine .bind (.evaluate _ _) fun ev => ?_
    split
    · exact .bind (.order _) fun _ => .bind (.renderStatics _ _ _) fun _ => .bind (.order _) fun _ =>
        .renderExtras _ _ _
    · exact .renderAttrs _
  · exact .renderAttrs _

theorem KeepsParents.renderStartTag (h : ElemHead) : KeepsParents (renderStartTag h) :=
  .bind (.ctxWrite _) fun _ => .bind (.ctxWrite _) fun _ => .bind (.renderAttributes h) fun _ => .ctxWrite _

theorem KeepsParents.renderEndTag (n : Bytes) : KeepsParents (renderEndTag n) :=
  .bind (.ctxWrite _) fun _ => .bind (.ctxWrite _) fun _ => .ctxWrite _

theorem KeepsParents.startWrite : (l : List (Bytes × Option (List Value))) → KeepsParents (startWrite l)
  | [] => .pure _
  | (n, vs) :: l => by
    refine .bind (.ctxWrite _) fun _ => .bind (.ctxWrite _) fun _ => .bind ?_ fun _ => KeepsParents.startWrite l
    cases vs with
    | none => exact .pure _
    | some vs => exact .bind (.ctxWrite _) fun _ => .bind (.renderValues vs) fun _ => .ctxWrite _

theorem KeepsParents.startTag (n : Bytes) (as : List (Option Node)) : KeepsParents (startTag n as) :=
  .bind (.ctxWrite _) fun _ => .bind (.ctxWrite _) fun _ => .bind .ctx fun _ => .bind (.startWrite _) fun _ =>
    .ctxWrite _

theorem KeepsParents.endAll : (l : List Bytes) → KeepsParents (endAll l)
  | [] => .pure _
  | n :: l => .bind (.renderEndTag n) fun _ => .endAll l

theorem KeepsParents.runItems (src : ItemSrc) : KeepsParents (runItems src) := by
  cases src with
  | user f => exact .items f
  | key k => exact .bind .ctx fun _ => .pure _

section
variable {rec : Render} (R : ∀ n, KeepsParents (rec n))
include R

theorem KeepsParents.contentLoop : (ns : List Node) → KeepsParents (contentLoop rec ns)
  | [] => .pure _
  | n :: ns => .bind (R n) fun _ => .bind (.setErr _) fun _ => KeepsParents.contentLoop ns

theorem KeepsParents.conditionalLoop : (ns : List Node) → KeepsParents (conditionalLoop rec ns)
  | [] => .pure _
  | n :: ns => by
    refine .bind (R n) fun e => .bind (.setErr _) fun _ => ?_
    cases e
    · exact KeepsParents.conditionalLoop ns
    · exact .pure _

theorem KeepsParents.collectionLoop : (ns : List Node) → KeepsParents (collectionLoop rec ns)
  | [] => .pure _
  | n :: ns => by
    unfold Aitch.collectionLoop
    split
    · exact KeepsParents.collectionLoop ns
    · refine .bind (R n) fun e => .bind (.setErr _) fun _ => ?_
      cases e
      · exact KeepsParents.collectionLoop ns
      · exact .pure _

theorem KeepsParents.ignoreLoop : (ns : List (Option Node)) → KeepsParents (ignoreLoop rec ns)
  | [] => .pure _
  | none :: ns => KeepsParents.ignoreLoop ns
  | some n :: ns => by
    unfold Aitch.ignoreLoop
    split
    · exact KeepsParents.ignoreLoop ns
    · exact .bind (R n) fun _ => KeepsParents.ignoreLoop ns

theorem KeepsParents.documentLoop : (ns : List Node) → KeepsParents (documentLoop rec ns)
  | [] => .pure _
  | n :: ns => .bind (R n) fun _ => KeepsParents.documentLoop ns

theorem KeepsParents.iterNodes : (ns : List Node) → KeepsParents (iterNodes rec ns)
  | [] => .pure _
  | n :: ns => by
    refine .bind (R n) fun e => ?_
    cases e
    · exact KeepsParents.iterNodes ns
    · exact .pure _

theorem KeepsParents.iterItems (ns : List Node) (d : Option MapId) : (its : List Any) →
    KeepsParents (iterItems rec ns d its)
  | [] => .pure _
  | it :: its => by
    refine .bind (.setItem _ _) fun _ => .bind (.iterNodes R ns) fun e => ?_
    cases e
    · exact KeepsParents.iterItems ns d its
    · exact .pure _

omit R in
/-- A child context's life keeps the parents. -/
theorem KeepsParents.scope {α γ : Type} {child : Frame} {m : Prog α} {k : α → Frame → Prog γ} (hm : KeepsParents m)
    (hk : ∀ a f, KeepsParents (k a f)) :
    KeepsParents (do Do.enter child; let e ← m; let fr ← Do.leave; k e fr) := by
  change Balanced (m >>= fun e => Do.leave >>= fun fr => k e fr) (0 + 1)
  exact Balanced.bind hm fun a fr => hk a fr

theorem KeepsParents.renderIterator (ns : List Node) (fn : ItemSrc) : KeepsParents (renderIterator rec ns fn) := by
  unfold Aitch.renderIterator
  refine .bind .ctx fun c => ?_
  split
  · exact .pure _
  · refine .bind (.runItems fn) fun items => ?_
    split
    · exact .pure _
    · refine .bind .ctx fun c => .scope (.iterItems R _ _ _) fun e _ => ?_
      split
      · exact .bind (.setErr _) fun _ => .pure _
      · exact .pure _

omit R in
theorem prog_assoc {α β γ : Type} (m : Prog α) (f : α → Prog β) (g : β → Prog γ) :
    (m >>= f) >>= g = m >>= fun a => f a >>= g := by
  change (m.bind f).bind g = m.bind fun a => (f a).bind g
  induction m with
  | pure a => rfl
  | stuck => rfl
  | step a k ih => simp only [Prog.bind]; congr 1; funext r; exact ih r

omit R in
/-- One yielded item, as a scope. -/
theorem runYield_yield (ns : List Node) (it : Any) (k : St → YieldProg) (child : Frame) :
    runYield rec ns (.yield it k) child = (do
      Do.enter child
      let e ← (do
        Do.setItem it (itemData child.data it)
        iterNodes rec ns)
      let fr ← Do.leave
      setErrIf e
      let s ← Do.look
      runYield rec ns (k s) fr) := by
  conv => lhs; unfold runYield
  rw [prog_assoc (Do.setItem _ _)]
  cases it <;> rfl

theorem KeepsParents.runYield (ns : List Node) : (p : YieldProg) → (child : Frame) →
    KeepsParents (runYield rec ns p child)
  | .done, _ => .pure _
  | .user _ k, _ => .bind (.user _) fun s => KeepsParents.runYield ns (k s) _
  | .write _ k, _ => .bind (.write _) fun r => .bind .look fun s => KeepsParents.runYield ns (k r s) _
  | .yield it k, child => by
    rw [runYield_yield]
    refine .scope (.bind (.setItem _ _) fun _ => .iterNodes R ns) fun e fr => .bind ?_ fun _ =>
      .bind .look fun s => KeepsParents.runYield ns (k s) _
    cases e
    · exact .pure _
    · exact .setErr _

theorem KeepsParents.renderYield (ns : List Node) (f : FnId) : KeepsParents (renderYield rec ns f) := by
  unfold Aitch.renderYield
  refine .bind .ctx fun c => ?_
  split
  · exact .pure _
  · exact .bind (.yields f) fun p => .bind (.runYield R ns p _) fun _ => .retErr

theorem KeepsParents.runOp (op : ImpOp) (st : List Bytes) : KeepsParents (runOp rec op st) := by
  cases op with
  | writeString d => exact .bind (.ctxWrite _) fun _ => .pure _
  | writeRaw d => exact .bind (.ctxWrite _) fun _ => .pure _
  | writeNodes ns => exact .bind (.ignoreLoop R ns) fun _ => .pure _
  | start n v as => exact .bind (.startTag n as) fun _ => .pure _
  | «end» =>
    cases st with
    | nil => exact .pure _
    | cons n st => exact .bind (.renderEndTag n) fun _ => .pure _
  | endAll => exact .bind (.endAll st) fun _ => .pure _

theorem KeepsParents.runImp : (p : ImpProg) → (st : List Bytes) → KeepsParents (runImp rec p st)
  | .ret _, _ => .pure _
  | .user _ k, st => .bind (.user _) fun s => KeepsParents.runImp (k s) st
  | .call op k, st => .bind (.runOp R op st) fun st => .bind .look fun s => KeepsParents.runImp (k s) st
  | .render n k, st => .bind (R n) fun e => .bind .look fun s => KeepsParents.runImp (k e s) st
  | .write d k, st => .bind (.write d) fun r => .bind .look fun s => KeepsParents.runImp (k r s) st

theorem KeepsParents.renderStep (n : Node) : KeepsParents (renderStep rec n) := by
  cases n with
  | element h cs =>
    exact .bind (.renderStartTag h) fun _ => .bind (.contentLoop R cs) fun _ =>
      .bind (.renderEndTag _) fun _ => .retErr
  | voidElement h => exact .bind (.renderStartTag h) fun _ => .retErr
  | attr a => exact .bind (.renderAttr a) fun _ => .retErr
  | text vs => exact .bind (.renderValues vs) fun _ => .retErr
  | comment vs => exact .bind (.ctxWrite _) fun _ => .bind (.renderValues vs) fun _ => .bind (.ctxWrite _) fun _ => .retErr
  | fragment vs => exact .bind (.renderValues vs) fun _ => .retErr
  | pi n vs =>
    exact .bind (.ctxWrite _) fun _ => .bind (.ctxWrite _) fun _ => .bind (.ctxWrite _) fun _ =>
      .bind (.renderValues vs) fun _ => .bind (.ctxWrite _) fun _ => .retErr
  | collection ns => exact .bind (.collectionLoop R ns) fun _ => .retErr
  | conditional ns as fn => exact .bind (.runCond fn) fun _ => .bind (.when (.conditionalLoop R ns)) fun _ => .retErr
  | collector f => exact .bind (.collect f) fun ns => .bind (.ignoreLoop R ns) fun _ => .retErr
  | imperative f =>
    cases f with
    | none => exact .pure _
    | some f => exact .bind (.imp f) fun p => .runImp R p []
  | iterator ns fn => exact .renderIterator R ns fn
  | yieldIterator ns f => exact .renderYield R ns f
  | document p cs => exact .bind (.documentLoop R _) fun _ => .retErr

end

theorem KeepsParents.renderProg : (fuel : Nat) → (n : Node) → KeepsParents (renderProg fuel n)
  | 0, _ => .stuck
  | fuel + 1, n => .renderStep (KeepsParents.renderProg fuel) n

end Aitch
