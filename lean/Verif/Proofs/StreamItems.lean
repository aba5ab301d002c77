import Verif.Spec.StreamItems
import Verif.Proofs.StreamErrors
import Verif.Proofs.Items
import Verif.Proofs.Panic
/-
Data and Cargo of the context are kept when user functions write and render, if they keep those of their context.
-/
set_option linter.unusedSectionVars false

namespace Aitch.Stream
open Aitch Spec Spec.Stream

/-- `m`, started `d` contexts below the one it is to end in, enters and leaves contexts in a balanced way, and changes
neither Data nor Cargo of the one it is to end in; `calls` says whether user functions that are not inlined are called
there. -/
def Held {α : Type} (env : Env) (calls : Prop) : Prog α → Nat → Prop
  | .pure _, d => d = 0
  | .stuck, _ => True
  | .step (.enter _) k, d => Held env calls (k ()) (d + 1)
  | .step .leave k, d =>
    match d with
    | 0 => False
    | d + 1 => ∀ fr, Held env calls (k fr) d
  | .step (.imp f) k, d => ∀ s, Held env calls (k (env.imp f s)) d
  | .step (.setItem _ _) k, d => 0 < d ∧ ∀ r, Held env calls (k r) d
  | .step (.user u) k, d => (0 < d ∨ KeepsItem u) ∧ ∀ r, Held env calls (k r) d
  | .step (.dyn _) k, d => (0 < d ∨ calls) ∧ ∀ r, Held env calls (k r) d
  | .step (.cond _) k, d => (0 < d ∨ calls) ∧ ∀ r, Held env calls (k r) d
  | .step (.collect _) k, d => (0 < d ∨ calls) ∧ ∀ r, Held env calls (k r) d
  | .step (.items _) k, d => (0 < d ∨ calls) ∧ ∀ r, Held env calls (k r) d
  | .step (.write _) k, d => ∀ r, Held env calls (k r) d
  | .step .ctx k, d => ∀ r, Held env calls (k r) d
  | .step (.setErr _) k, d => ∀ r, Held env calls (k r) d
  | .step (.yields _) k, d => ∀ r, Held env calls (k r) d
  | .step .look k, d => ∀ r, Held env calls (k r) d
  | .step (.order _) k, d => ∀ r, Held env calls (k r) d

/-- The context with this Data, Cargo and parents is `d` contexts above the current one. -/
def Above (dt : Option MapId) (c : Any) (qs : List Frame) (d : Nat) (s : St) : Prop :=
  ∃ ps fr, s.frame :: s.parents = ps ++ fr :: qs ∧ ps.length = d ∧ fr.data = dt ∧ fr.cargo = c

section
variable {env : Env} {calls : Prop} {α β : Type} {dt : Option MapId} {c : Any} {qs : List Frame}

theorem Above.zero {s : St} : Above dt c qs 0 s ↔ s.parents = qs ∧ s.frame.data = dt ∧ s.frame.cargo = c := by
  constructor
  · rintro ⟨ps, fr, h, hl, h1, h2⟩
    obtain rfl := List.length_eq_zero_iff.1 hl
    simp only [List.nil_append, List.cons.injEq] at h
    obtain ⟨rfl, h⟩ := h
    exact ⟨h, h1, h2⟩
  · rintro ⟨rfl, h1, h2⟩
    exact ⟨[], s.frame, rfl, rfl, h1, h2⟩

theorem Above.inner {s t : St} {d : Nat} (h : Above dt c qs d s) (hd : 0 < d) (ht : t.parents = s.parents) :
    Above dt c qs d t := by
  obtain ⟨ps, fr, h, hl, h1⟩ := h
  cases ps with
  | nil => subst hl; exact absurd hd (Nat.lt_irrefl _)
  | cons p ps =>
    simp only [List.cons_append, List.cons.injEq] at h
    exact ⟨t.frame :: ps, fr, by rw [ht, h.2]; rfl, hl, h1⟩

theorem Above.same {s t : St} {d : Nat} (h : Above dt c qs d s) (ht : t.parents = s.parents)
    (hi : t.frame.data = s.frame.data ∧ t.frame.cargo = s.frame.cargo) : Above dt c qs d t := by
  cases d with
  | zero =>
    rw [Above.zero] at h ⊢
    exact ⟨ht.trans h.1, hi.1.trans h.2.1, hi.2.trans h.2.2⟩
  | succ d => exact h.inner (Nat.succ_pos _) ht

theorem Above.keeps {s t : St} {d : Nat} (h : Above dt c qs d s) (ht : t.parents = s.parents)
    (hi : 0 < d ∨ t.frame.data = s.frame.data ∧ t.frame.cargo = s.frame.cargo) : Above dt c qs d t := by
  rcases hi with hi | hi
  · exact h.inner hi ht
  · exact h.same ht hi

/-- One step. -/
theorem Held.step {a : Action} {k : a.Resp → Prog α} {d : Nat} (hm : Held env False (.step a k) d) {s : St}
    (hs : Above dt c qs d s) : ∃ d', Held env False (k (a.run env s).1) d' ∧ Above dt c qs d' (a.run env s).2 := by
  cases a with
  | enter ch =>
    obtain ⟨ps, fr, h, hl, h1⟩ := hs
    exact ⟨d + 1, hm, ch :: ps, fr, by simp [Action.run, h], by simp [hl], h1⟩
  | leave =>
    cases d with
    | zero => exact hm.elim
    | succ d =>
      obtain ⟨ps, fr, h, hl, h1⟩ := hs
      cases ps with
      | nil => cases hl
      | cons p ps =>
        simp only [List.cons_append, List.cons.injEq] at h
        refine ⟨d, hm _, ps, fr, ?_, by simpa using hl, h1⟩
        have : s.parents ≠ [] := by rw [h.2]; simp
        cases hp : s.parents with
        | nil => exact (this hp).elim
        | cons f fs => simp only [Action.run, hp]; rw [← hp, h.2]
  | imp f => exact ⟨d, hm s, hs⟩
  | setItem i e => exact ⟨d, hm.2 _, hs.inner hm.1 rfl⟩
  | user u => exact ⟨d, hm.2 _, hs.keeps rfl (hm.1.imp id fun h => h s)⟩
  | dyn f => exact ⟨d, hm.2 _, hs.keeps rfl (hm.1.imp id False.elim)⟩
  | cond f => exact ⟨d, hm.2 _, hs.keeps rfl (hm.1.imp id False.elim)⟩
  | collect f => exact ⟨d, hm.2 _, hs.keeps rfl (hm.1.imp id False.elim)⟩
  | items f => exact ⟨d, hm.2 _, hs.keeps rfl (hm.1.imp id False.elim)⟩
  | _ => exact ⟨d, hm _, hs.same rfl ⟨rfl, rfl⟩⟩

theorem Held.ends {m : Prog α} {d : Nat} (hm : Held env False m d) {s s' : St} {r : α}
    (h : exec env m s = some (r, s')) (hs : Above dt c qs d s) : Above dt c qs 0 s' := by
  induction m generalizing d s with
  | pure a =>
    cases h
    have : d = 0 := hm
    subst this
    exact hs
  | stuck => cases h
  | step a k ih =>
    obtain ⟨d', h1, h2⟩ := hm.step hs
    exact ih _ h1 h h2

theorem Held.panics {p : Panics} (hp : PanicKeepsItem p) {m : Prog α} {d : Nat} (hm : Held env False m d) {s s' : St}
    (h : execPanics env p m s = some (.panicked s')) (hs : Above dt c qs d s) : ∃ d, Above dt c qs d s' := by
  induction m generalizing d s with
  | pure a => cases h
  | stuck => cases h
  | step a k ih =>
    simp only [execPanics] at h
    split at h
    · rename_i t ht
      cases h
      unfold Panics.at at ht
      split at ht
      · obtain ⟨t, hpt, rfl⟩ := Option.map_eq_some_iff.1 ht
        refine ⟨d, ?_⟩
        have hi := hp _ _ _ hpt
        cases a <;> first | exact hs | exact hs.same rfl hi
      · cases ht
    · obtain ⟨d', h1, h2⟩ := hm.step hs
      exact ih _ h1 h h2

theorem Held.bind {m : Prog α} {f : α → Prog β} {d e : Nat} (hm : Held env calls m d) (hf : ∀ a, Held env calls (f a) e) :
    Held env calls (m >>= f) (d + e) := by
  change Held env calls (m.bind f) _
  induction m generalizing d with
  | pure a =>
    have : d = 0 := hm
    subst this
    rw [Nat.zero_add]
    exact hf a
  | stuck => exact trivial
  | step a k ih =>
    have lt : ∀ {p : Prop}, 0 < d ∨ p → 0 < d + e ∨ p := fun h => h.imp (fun h => by omega) id
    simp only [Prog.bind]
    cases a with
    | enter c =>
      change Held env calls _ (d + e + 1)
      rw [show d + e + 1 = d + 1 + e by omega]
      exact ih () (d := d + 1) hm
    | leave =>
      cases d with
      | zero => exact hm.elim
      | succ d =>
        rw [show d + 1 + e = d + e + 1 by omega]
        exact fun fr => ih fr (hm fr)
    | imp f => exact fun s => ih _ (hm s)
    | setItem i x => exact ⟨Nat.add_pos_left hm.1 _, fun r => ih r (hm.2 r)⟩
    | user u => exact ⟨lt hm.1, fun r => ih r (hm.2 r)⟩
    | dyn u => exact ⟨lt hm.1, fun r => ih r (hm.2 r)⟩
    | cond u => exact ⟨lt hm.1, fun r => ih r (hm.2 r)⟩
    | collect u => exact ⟨lt hm.1, fun r => ih r (hm.2 r)⟩
    | items u => exact ⟨lt hm.1, fun r => ih r (hm.2 r)⟩
    | _ => exact fun r => ih r (hm r)

/-- In a child context anything may happen. -/
theorem Held.inside {m : Prog α} {f : α → Prog β} {d e : Nat} (hm : Balanced m d) (hf : ∀ a, Held env calls (f a) (e + 1)) :
    Held env calls (m >>= f) (d + (e + 1)) := by
  change Held env calls (m.bind f) _
  induction m generalizing d with
  | pure a =>
    have : d = 0 := hm
    subst this
    rw [Nat.zero_add]
    exact hf a
  | stuck => exact trivial
  | step a k ih =>
    have pos : 0 < d + (e + 1) := by omega
    simp only [Prog.bind]
    cases a with
    | enter c =>
      change Held env calls _ (d + (e + 1) + 1)
      rw [show d + (e + 1) + 1 = d + 1 + (e + 1) by omega]
      exact ih () (d := d + 1) hm
    | leave =>
      cases d with
      | zero => exact hm.elim
      | succ d =>
        rw [show d + 1 + (e + 1) = d + (e + 1) + 1 by omega]
        exact fun fr => ih fr (hm fr)
    | imp f => exact fun s => ih _ (hm _)
    | setItem i x => exact ⟨pos, fun r => ih r (hm r)⟩
    | user u => exact ⟨.inl pos, fun r => ih r (hm r)⟩
    | dyn u => exact ⟨.inl pos, fun r => ih r (hm r)⟩
    | cond u => exact ⟨.inl pos, fun r => ih r (hm r)⟩
    | collect u => exact ⟨.inl pos, fun r => ih r (hm r)⟩
    | items u => exact ⟨.inl pos, fun r => ih r (hm r)⟩
    | _ => exact fun r => ih r (hm r)

end

/-- `m` leaves the chain of parent contexts and Data and Cargo of the context as they were, if the user functions that it
calls do. -/
def HoldsItems {α : Type} (env : Env) (m : Prog α) : Prop := Held env True m 0

section
variable {env : Env} {α β : Type}

theorem HoldsItems.pure (a : α) : HoldsItems env (Pure.pure a : Prog α) := rfl

theorem HoldsItems.stuck : HoldsItems env (.stuck : Prog α) := trivial

theorem HoldsItems.bind {m : Prog α} {f : α → Prog β} (hm : HoldsItems env m) (hf : ∀ a, HoldsItems env (f a)) :
    HoldsItems env (m >>= f) := Held.bind (e := 0) hm hf

theorem HoldsItems.ctx : HoldsItems env Do.ctx := fun _ => rfl
theorem HoldsItems.write (d) : HoldsItems env (Do.write d) := fun _ => rfl
theorem HoldsItems.setErr (e) : HoldsItems env (Do.setErr e) := fun _ => rfl
theorem HoldsItems.dyn (f) : HoldsItems env (Do.dyn f) := ⟨.inr trivial, fun _ => rfl⟩
theorem HoldsItems.cond (f) : HoldsItems env (Do.cond f) := ⟨.inr trivial, fun _ => rfl⟩
theorem HoldsItems.collect (f) : HoldsItems env (Do.collect f) := ⟨.inr trivial, fun _ => rfl⟩
theorem HoldsItems.items (f) : HoldsItems env (Do.items f) := ⟨.inr trivial, fun _ => rfl⟩
theorem HoldsItems.user {u} (h : KeepsItem u) : HoldsItems env (Do.user u) := ⟨.inr h, fun _ => rfl⟩
theorem HoldsItems.look : HoldsItems env Do.look := fun _ => rfl
theorem HoldsItems.order (ks) : HoldsItems env (Do.order ks) := fun _ => rfl

theorem HoldsItems.imp {f : FnId} {k : ImpProg → Prog α} (h : ∀ s, HoldsItems env (k (env.imp f s))) :
    HoldsItems env (Do.imp f >>= k) := h

theorem HoldsItems.when {b : Bool} {m : Prog Unit} (h : HoldsItems env m) : HoldsItems env (Prog.when b m) := by
  unfold Prog.when; split
  · exact h
  · exact .pure _

/-- A child context's life. -/
theorem HoldsItems.scope {γ : Type} {child : Frame} {m : Prog α} {k : α → Frame → Prog γ} (hm : KeepsParents m)
    (hk : ∀ a f, HoldsItems env (k a f)) :
    HoldsItems env (do Do.enter child; let e ← m; let fr ← Do.leave; k e fr) := by
  change Held env True (m >>= fun e => Do.leave >>= fun fr => k e fr) (0 + 1)
  exact Held.inside hm fun a fr => hk a fr

end

section
variable {env : Env}

theorem HoldsItems.ctxWrite (d : Bytes) : HoldsItems env (ctxWrite d) := by
  unfold Aitch.ctxWrite
  refine .bind .ctx fun c => ?_
  split
  · exact .bind (.write d) fun _ => .setErr _
  · exact .pure _

theorem HoldsItems.retErr : HoldsItems env retErr := .bind .ctx fun _ => .pure _

theorem HoldsItems.runDyn (d : Dyn) : HoldsItems env (runDyn d) := by
  cases d with
  | user f => exact .dyn f
  | key k => refine .bind .ctx fun c => ?_; split <;> exact .pure _
  | cargo => exact .bind .ctx fun _ => .pure _

theorem HoldsItems.valueWrite (d : Bytes) : HoldsItems env (valueWrite d) :=
  .bind (.write d) fun _ => .bind (.setErr _) fun _ => .pure _

mutual
theorem HoldsItems.renderValue : (v : Value) → HoldsItems env (renderValue v)
  | .mk _ (some d) _ => .bind (.runDyn d) fun _ => .valueWrite _
  | .mk v none [] => .valueWrite v
  | .mk _ none (c :: cs) => .bind (.renderValue c) fun _ => .bind (.renderConcats cs _) fun _ => .pure _
theorem HoldsItems.renderConcats : (vs : List Value) → (l : Nat) → HoldsItems env (renderConcats vs l)
  | [], _ => .pure _
  | c :: cs, _ => .bind (.renderValue c) fun _ => .renderConcats cs _
end

theorem HoldsItems.renderValues : (vs : List Value) → HoldsItems env (renderValues vs)
  | [] => .pure _
  | v :: vs => .bind (.renderValue v) fun _ => .renderValues vs

theorem HoldsItems.renderDelimValues (d : Bytes) : (vs : List Value) → (b : Bool) →
    HoldsItems env (renderDelimValues d vs b)
  | [], _ => .pure _
  | v :: vs, _ => .bind (.when (.ctxWrite d)) fun _ => .bind (.renderValue v) fun _ => .renderDelimValues d vs _

theorem HoldsItems.renderDelim (n d : Bytes) (vs : List Value) : HoldsItems env (renderDelim n d vs) :=
  .bind (.ctxWrite _) fun _ => .bind (.ctxWrite _) fun _ => .bind (.ctxWrite _) fun _ =>
    .bind (.renderDelimValues d vs false) fun _ => .ctxWrite _

theorem HoldsItems.renderAttr (a : Attr) : HoldsItems env (renderAttr a) := by
  cases a with
  | plain n vs =>
    exact .bind (.ctxWrite _) fun _ => .bind (.ctxWrite _) fun _ => .bind (.ctxWrite _) fun _ =>
      .bind (.renderValues vs) fun _ => .ctxWrite _
  | bool n => exact .bind (.ctxWrite _) fun _ => .ctxWrite _
  | delim n d r => exact .bind .ctx fun _ => .renderDelim _ _ _

theorem HoldsItems.runCond (k : Cond) : HoldsItems env (runCond k) := by
  cases k with
  | user f => exact .cond f
  | has k => refine .bind .ctx fun c => ?_; split <;> exact .pure _
  | hasNot k => refine .bind .ctx fun c => ?_; split <;> exact .pure _

theorem HoldsItems.evalConds : (ks : List Cond) → HoldsItems env (evalConds ks)
  | [] => .pure _
  | k :: ks => by
    refine .bind (.runCond k) fun b => ?_
    split
    · exact HoldsItems.evalConds ks
    · exact .pure _

theorem HoldsItems.evaluate : (cas : List CondAttr) → (acc : List (Bytes × List Attr)) →
    HoldsItems env (evaluate cas acc)
  | [], _ => .pure _
  | _ :: as, _ => .bind (.evalConds _) fun _ => .evaluate as _

theorem HoldsItems.renderChosen (a : Attr) (m : List Attr) (l : Attr) : HoldsItems env (renderChosen a m l) := by
  unfold Aitch.renderChosen
  split
  · exact .bind .ctx fun _ => .renderDelim _ _ _
  · exact .renderAttr l

theorem HoldsItems.renderStatics (h : ElemHead) (ev : List (Bytes × List Attr)) : (ns : List Bytes) →
    HoldsItems env (renderStatics h ev ns)
  | [] => .pure _
  | n :: ns => by
    refine .bind ?_ fun _ => HoldsItems.renderStatics h ev ns
    unfold renderStatic
    split
    · exact .pure _
    · split
      · exact .pure _
      · split
        · exact .renderChosen _ _ _
        · exact .renderAttr _

theorem HoldsItems.renderExtras (h : ElemHead) (ev : List (Bytes × List Attr)) : (ns : List Bytes) →
    HoldsItems env (renderExtras h ev ns)
  | [] => .pure _
  | n :: ns => by
    refine .bind ?_ fun _ => HoldsItems.renderExtras h ev ns
    unfold renderExtra
    split
    · exact .renderChosen _ _ _
    · exact .pure _

theorem HoldsItems.renderAttrs : (as : List Attr) → HoldsItems env (renderAttrs as)
  | [] => .pure _
  | a :: as => .bind (.renderAttr a) fun _ => .renderAttrs as

theorem HoldsItems.renderAttributes (h : ElemHead) : HoldsItems env (renderAttributes h) := by
  unfold Aitch.renderAttributes
  split
  · refine .bind (.evaluate _ _) fun ev => ?_
    split
    · exact .bind (.order _) fun _ => .bind (.renderStatics _ _ _) fun _ => .bind (.order _) fun _ =>
        .renderExtras _ _ _
    · exact .renderAttrs _
  · exact .renderAttrs _

theorem HoldsItems.renderStartTag (h : ElemHead) : HoldsItems env (renderStartTag h) :=
  .bind (.ctxWrite _) fun _ => .bind (.ctxWrite _) fun _ => .bind (.renderAttributes h) fun _ => .ctxWrite _

theorem HoldsItems.renderEndTag (n : Bytes) : HoldsItems env (renderEndTag n) :=
  .bind (.ctxWrite _) fun _ => .bind (.ctxWrite _) fun _ => .ctxWrite _

theorem HoldsItems.startWrite : (l : List (Bytes × Option (List Value))) → HoldsItems env (startWrite l)
  | [] => .pure _
  | (n, vs) :: l => by
    refine .bind (.ctxWrite _) fun _ => .bind (.ctxWrite _) fun _ => .bind ?_ fun _ => HoldsItems.startWrite l
    cases vs with
    | none => exact .pure _
    | some vs => exact .bind (.ctxWrite _) fun _ => .bind (.renderValues vs) fun _ => .ctxWrite _

theorem HoldsItems.startTag (n : Bytes) (as : List (Option Node)) : HoldsItems env (startTag n as) :=
  .bind (.ctxWrite _) fun _ => .bind (.ctxWrite _) fun _ => .bind .ctx fun _ => .bind (.startWrite _) fun _ =>
    .ctxWrite _

theorem HoldsItems.endAll : (l : List Bytes) → HoldsItems env (endAll l)
  | [] => .pure _
  | n :: l => .bind (.renderEndTag n) fun _ => .endAll l

theorem HoldsItems.runItems (src : ItemSrc) : HoldsItems env (runItems src) := by
  cases src with
  | user f => exact .items f
  | key k => exact .bind .ctx fun _ => .pure _


end

section
variable {env : Env} {rec : Render} (R : ∀ n, HoldsItems env (rec n))
include R

theorem HoldsItems.contentLoop : (ns : List Node) → HoldsItems env (contentLoop rec ns)
  | [] => .pure _
  | n :: ns => .bind (R n) fun _ => .bind (.setErr _) fun _ => HoldsItems.contentLoop ns

theorem HoldsItems.conditionalLoop : (ns : List Node) → HoldsItems env (conditionalLoop rec ns)
  | [] => .pure _
  | n :: ns => by
    refine .bind (R n) fun e => .bind (.setErr _) fun _ => ?_
    cases e
    · exact HoldsItems.conditionalLoop ns
    · exact .pure _

theorem HoldsItems.collectionLoop : (ns : List Node) → HoldsItems env (collectionLoop rec ns)
  | [] => .pure _
  | n :: ns => by
    unfold Aitch.collectionLoop
    split
    · exact HoldsItems.collectionLoop ns
    · refine .bind (R n) fun e => .bind (.setErr _) fun _ => ?_
      cases e
      · exact HoldsItems.collectionLoop ns
      · exact .pure _

theorem HoldsItems.ignoreLoop : (ns : List (Option Node)) → HoldsItems env (ignoreLoop rec ns)
  | [] => .pure _
  | none :: ns => HoldsItems.ignoreLoop ns
  | some n :: ns => by
    unfold Aitch.ignoreLoop
    split
    · exact HoldsItems.ignoreLoop ns
    · exact .bind (R n) fun _ => HoldsItems.ignoreLoop ns

theorem HoldsItems.documentLoop : (ns : List Node) → HoldsItems env (documentLoop rec ns)
  | [] => .pure _
  | n :: ns => .bind (R n) fun _ => HoldsItems.documentLoop ns

theorem HoldsItems.iterNodes : (ns : List Node) → HoldsItems env (iterNodes rec ns)
  | [] => .pure _
  | n :: ns => by
    refine .bind (R n) fun e => ?_
    cases e
    · exact HoldsItems.iterNodes ns
    · exact .pure _

theorem HoldsItems.renderIterator (P : ∀ n, KeepsParents (rec n)) (ns : List Node) (fn : ItemSrc) :
    HoldsItems env (renderIterator rec ns fn) := by
  unfold Aitch.renderIterator
  refine .bind .ctx fun c => ?_
  split
  · exact .pure _
  · refine .bind (.runItems fn) fun items => ?_
    split
    · exact .pure _
    · refine .bind .ctx fun c => .scope (.iterItems P _ _ _) fun e _ => ?_
      split
      · exact .bind (.setErr _) fun _ => .pure _
      · exact .pure _

theorem HoldsItems.runOp (op : ImpOp) (st : List Bytes) : HoldsItems env (runOp rec op st) := by
  cases op with
  | writeString d => exact .bind (.ctxWrite _) fun _ => .pure _
  | writeRaw d => exact .bind (.ctxWrite _) fun _ => .pure _
  | writeNodes ns => exact .bind (.ignoreLoop R ns) fun _ => .pure _
  | start n v as => exact .bind (.startTag n as) fun _ => .pure _
  | «end» =>
    cases st with
    | nil => exact .pure _
    | cons n st => exact .bind (.renderEndTag n) fun _ => .pure _
  | endAll => exact .bind (.endAll st) fun _ => .pure _

theorem HoldsItems.runImp {p : ImpProg} (hp : KeepsItemImp p) : (st : List Bytes) → HoldsItems env (runImp rec p st) := by
  induction hp with
  | ret => exact fun _ => .pure _
  | user hu _ ih => exact fun st => .bind (.user hu) fun s => ih s st
  | call _ ih => exact fun st => .bind (.runOp R _ st) fun st => .bind .look fun s => ih s st
  | render _ ih => exact fun st => .bind (R _) fun e => .bind .look fun s => ih e s st
  | write _ ih => exact fun st => .bind (.write _) fun r => .bind .look fun s => ih r s st

theorem HoldsItems.runYield (P : ∀ n, KeepsParents (rec n)) (ns : List Node) {p : YieldBody} (hp : KeepsItemBody p) :
    (child : Frame) → HoldsItems env (runYield rec ns p child) := by
  induction hp with
  | done => exact fun _ => .pure _
  | user hu _ ih => exact fun c => .bind (.user hu) fun s => ih s c
  | write _ ih => exact fun c => .bind (.write _) fun r => .bind .look fun s => ih r s c
  | render _ ih => exact fun c => .bind (R _) fun e => .bind .look fun s => ih e s c
  | @yield it k _ ih =>
    intro c
    rw [runYield_scope]
    refine .scope (.bind (.setItem _ _) fun _ => .iterNodes P ns) fun e fr => .bind ?_ fun _ =>
      .bind .look fun s => ih s _
    cases e
    · exact .pure _
    · exact .setErr _

theorem HoldsItems.step {B : Bodies} (P : ∀ n, KeepsParents (rec n)) (U : KeepsItemBodies env B) (n : Node) :
    HoldsItems env (step B rec n) := by
  cases n with
  | element h cs =>
    exact .bind (.renderStartTag h) fun _ => .bind (.contentLoop R cs) fun _ =>
      .bind (.renderEndTag _) fun _ => .retErr
  | voidElement h => exact .bind (.renderStartTag h) fun _ => .retErr
  | attr a => exact .bind (.renderAttr a) fun _ => .retErr
  | text vs => exact .bind (.renderValues vs) fun _ => .retErr
  | comment vs => exact .bind (.ctxWrite _) fun _ => .bind (.renderValues vs) fun _ => .bind (.ctxWrite _) fun _ => .retErr
  | fragment vs => exact .bind (.renderValues vs) fun _ => .retErr
  | pi n vs =>
    exact .bind (.ctxWrite _) fun _ => .bind (.ctxWrite _) fun _ => .bind (.ctxWrite _) fun _ =>
      .bind (.renderValues vs) fun _ => .bind (.ctxWrite _) fun _ => .retErr
  | collection ns => exact .bind (.collectionLoop R ns) fun _ => .retErr
  | conditional ns as fn => exact .bind (.runCond fn) fun _ => .bind (.when (.conditionalLoop R ns)) fun _ => .retErr
  | collector f => exact .bind (.collect f) fun ns => .bind (.ignoreLoop R ns) fun _ => .retErr
  | imperative f =>
    cases f with
    | none => exact .pure _
    | some f => exact .imp fun s => .runImp R (U.imp f s) []
  | iterator ns fn => exact .renderIterator R P ns fn
  | yieldIterator ns f =>
    change HoldsItems env (renderYield B rec ns f)
    unfold Stream.renderYield
    refine .bind .ctx fun c => ?_
    split
    · exact .pure _
    · exact .bind .look fun s => .bind (.runYield R P ns (U.yields f s) _) fun _ => .retErr
  | document p cs => exact .bind (.documentLoop R _) fun _ => .retErr

end

theorem HoldsItems.nested {env : Env} {B : Bodies} (U : KeepsItemBodies env B) : (fuel : Nat) → (n : Node) →
    HoldsItems env (nested B fuel n)
  | 0, _ => .stuck
  | fuel + 1, n => .step (HoldsItems.nested U fuel) (balanced_nested fuel) U n

theorem held_run {env : Env} {α β : Type} {rr : Render} (H : ∀ n, Held env False (rr n) 0) {f : β → Prog α} {d : Nat}
    (hf : ∀ b, Held env False (f b) d) {p : FnProg β} (hp : KeepsItemFn p) : Held env False (p.run rr >>= f) d := by
  have : Held env False (p.run rr) 0 := by
    induction hp with
    | ret => exact (rfl : (0 : Nat) = 0)
    | user hu _ ih => exact ⟨.inr hu, fun s => ih s⟩
    | write _ ih => exact fun r => fun s => ih r s
    | render _ ih => exact Held.bind (e := 0) (H _) fun e => fun s => ih e s
  rw [← Nat.zero_add d]
  exact Held.bind this hf

theorem held_inlined {env : Env} {B : Bodies} (U : KeepsItemBodies env B) {rr : Render} (H : ∀ n, Held env False (rr n) 0)
    {α : Type} {m : Prog α} {d : Nat} (hm : Held env True m d) : Held env False (inlined B rr m) d := by
  induction m generalizing d with
  | pure a => exact hm
  | stuck => exact trivial
  | step a k ih =>
    cases a with
    | enter c => exact ih () (d := d + 1) hm
    | leave =>
      cases d with
      | zero => exact hm.elim
      | succ d => exact fun fr => ih fr (hm fr)
    | imp f => exact fun s => ih _ (hm s)
    | setItem i x => exact ⟨hm.1, fun r => ih r (hm.2 r)⟩
    | user u => exact ⟨hm.1, fun r => ih r (hm.2 r)⟩
    | dyn f => exact fun s => held_run H (fun b => ih b (hm.2 b)) (U.dyn f s)
    | cond f => exact fun s => held_run H (fun b => ih b (hm.2 b)) (U.cond f s)
    | collect f => exact fun s => held_run H (fun b => ih b (hm.2 b)) (U.collect f s)
    | items f => exact fun s => held_run H (fun b => ih b (hm.2 b)) (U.items f s)
    | _ => exact fun r => ih r (hm r)

/-- Rendering keeps Data and Cargo of the context, if the functions do. -/
theorem held_renderWith {env : Env} {B : Bodies} (U : KeepsItemBodies env B) : (fuel : Nat) → (n : Node) →
    Held env False (renderWith B fuel n) 0
  | 0, _ => trivial
  | fuel + 1, n => held_inlined U (held_renderWith U fuel) (HoldsItems.nested U (fuel + 1) n)

/-! ### An iteration leaves the outer context alone, whatever happens in the child contexts -/

section
variable {env : Env} {B : Bodies} {rr : Render} (PP : ∀ n, KeepsParents (rr n)) {d : Option MapId} {c : Any}

/-- `rr` renders. -/
def Real (env : Env) (B : Bodies) (rr : Render) : Prop :=
  ∀ n s e s', exec env (rr n) s = some (e, s') → Ends env B n s e s'

theorem same_act {a : Action} (h : ∀ s, (a.run env s).2.frame.data = s.frame.data ∧ (a.run env s).2.frame.cargo = s.frame.cargo) :
    Trip env (SameItem d c) (.step a .pure) fun _ => SameItem d c :=
  .act fun s hs => ⟨(h s).1.trans hs.1, (h s).2.trans hs.2⟩

theorem same_leaves {n : Node} {m : Prog (Option Err)} (hr : ∀ s e s', exec env m s = some (e, s') → Ends env B n s e s')
    (hn : Leaves env B n) : Trip env (SameItem d c) m fun _ => SameItem d c :=
  fun s e s' hs h => let h1 := hn s e s' (hr s e s' h); ⟨h1.1.trans hs.1, h1.2.trans hs.2⟩

theorem same_run (hr : Real env B rr) {α : Type} {p : FnProg α} (hp : LeavesFn env B p) :
    Trip env (SameItem d c) (p.run rr) fun _ => SameItem d c := by
  induction hp with
  | ret => exact .pure fun _ h => h
  | user hu _ ih => exact .bind (sameItem_user hu) fun s => ih s
  | write _ ih => exact .bind (same_act (a := .write _) fun _ => ⟨rfl, rfl⟩) fun r => .bind (same_act (a := .look) fun _ => ⟨rfl, rfl⟩) fun s => ih r s
  | render hn _ ih => exact .bind (same_leaves (hr _) hn) fun e => .bind (same_act (a := .look) fun _ => ⟨rfl, rfl⟩) fun s => ih e s

theorem same_sact {a : Action} (h : ∀ s, (a.run env s).2.frame.data = s.frame.data ∧ (a.run env s).2.frame.cargo = s.frame.cargo)
    (ha : inlined B rr (.step a .pure) = .step a .pure := by rfl) :
    STrip env B rr (SameItem d c) (.step a .pure) fun _ => SameItem d c := .of (same_act h) ha

theorem same_retErr : STrip env B rr (SameItem d c) retErr fun _ => SameItem d c := .of sameItem_retErr

theorem same_items (hr : Real env B rr) {src : ItemSrc} (hs : ∀ f, src = .user f → ∀ s, LeavesFn env B (B.items f s)) :
    STrip env B rr (SameItem d c) (runItems src) fun _ => SameItem d c := by
  cases src with
  | key k => exact .bind (same_sact (a := .ctx) fun _ => ⟨rfl, rfl⟩) fun _ => .pure fun _ h => h
  | user f =>
    refine Trip.bind (Q := fun _ => SameItem d c) (same_act (a := .look) fun _ => ⟨rfl, rfl⟩) fun s => ?_
    exact Trip.bind (same_run hr (hs f rfl s)) fun _ => Trip.pure fun _ h => h

include PP

theorem same_iterator {rec : Render} (P : ∀ n, KeepsParents (rec n)) (hr : Real env B rr) (ns : List Node) {src : ItemSrc}
    (hs : ∀ f, src = .user f → ∀ s, LeavesFn env B (B.items f s)) :
    STrip env B rr (SameItem d c) (renderIterator rec ns src) fun _ => SameItem d c := by
  unfold Aitch.renderIterator
  refine .bind (same_sact (a := .ctx) fun _ => ⟨rfl, rfl⟩) fun x => ?_
  split
  · exact .pure fun _ h => h
  · refine .bind (same_items hr hs) fun items => ?_
    split
    · exact .pure fun _ h => h
    · refine .bind (same_sact (a := .ctx) fun _ => ⟨rfl, rfl⟩) fun x => .scoped PP (.iterItems P _ _ _) fun s e t hs _ => ?_
      refine STrip.pre (I := SameItem d c) ?_ fun u hu => by subst hu; exact hs
      split
      · exact .bind (same_sact (a := .setErr _) fun _ => ⟨rfl, rfl⟩) fun _ => .pure fun _ h => h
      · exact .pure fun _ h => h

theorem same_runYield {rec : Render} (P : ∀ n, KeepsParents (rec n))
    (hr : ∀ n s e s', exec env (inlined B rr (rec n)) s = some (e, s') → Ends env B n s e s') (ns : List Node)
    {p : YieldBody} (hp : LeavesBody env B p) : (child : Frame) →
    STrip env B rr (SameItem d c) (runYield rec ns p child) fun _ => SameItem d c := by
  induction hp with
  | done => exact fun _ => .pure fun _ h => h
  | user hu _ ih => exact fun ch => .bind (.of (sameItem_user hu)) fun s => ih s ch
  | write _ ih =>
    exact fun ch => .bind (same_sact (a := .write _) fun _ => ⟨rfl, rfl⟩) fun r =>
      .bind (same_sact (a := .look) fun _ => ⟨rfl, rfl⟩) fun s => ih r s ch
  | render hn _ ih =>
    exact fun ch => .bind (same_leaves (hr _) hn) fun e => .bind (same_sact (a := .look) fun _ => ⟨rfl, rfl⟩) fun s => ih e s ch
  | @yield it k _ ih =>
    intro ch
    rw [runYield_scope]
    refine .scoped PP (.bind (.setItem _ _) fun _ => .iterNodes P ns) fun s e t hs _ => ?_
    refine STrip.pre (I := SameItem d c) ?_ fun u hu => by subst hu; exact hs
    refine .bind (Q := fun _ => SameItem d c) ?_ fun _ => .bind (same_sact (a := .look) fun _ => ⟨rfl, rfl⟩) fun s => ih s _
    cases e
    · exact .pure fun _ h => h
    · exact same_sact (a := .setErr _) fun _ => ⟨rfl, rfl⟩

theorem same_yield {rec : Render} (P : ∀ n, KeepsParents (rec n))
    (hr : ∀ n s e s', exec env (inlined B rr (rec n)) s = some (e, s') → Ends env B n s e s') (ns : List Node)
    {f : FnId} (hf : ∀ s, LeavesBody env B (B.yields f s)) :
    STrip env B rr (SameItem d c) (renderYield B rec ns f) fun _ => SameItem d c := by
  unfold Stream.renderYield
  refine .bind (same_sact (a := .ctx) fun _ => ⟨rfl, rfl⟩) fun x => ?_
  split
  · exact .pure fun _ h => h
  · exact .bind (same_sact (a := .look) fun _ => ⟨rfl, rfl⟩) fun s => .bind (same_runYield PP P hr ns (hf s) _) fun _ => same_retErr

end

end Aitch.Stream
