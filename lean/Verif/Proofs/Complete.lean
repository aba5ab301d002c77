import Verif.Proofs.Refine
import Verif.Proofs.Only
import Verif.Proofs.Fuel
import Verif.Spec.Obs
/-
Completeness: everything the specification `Out` allows is written by some run.
-/
namespace Aitch
open Spec

/-- From tick `t` on, ranges over maps follow the orders `os` (where these are possible). -/
def Follows (env : Env) (t : Nat) (os : List (List Bytes)) : Prop :=
  ∀ i o, os[i]? = some o → ∀ ks : List Bytes, ks.Perm o → env.order (t + i) ks = o

/-- A healthy writer, and functions that only compute, those given to `Imperative` by the calls of `P`. -/
structure GoodCalls (env : Env) (P : Fns) : Prop extends Good env P where
  calls : ∀ f s, env.imp f s = impOf (P.imp f s.toCtx)

/-- For some choice of orders, `m` started in `c` returns `r`, ends in `c'` and writes `w`. -/
def Can {α : Type} (P : Fns) (c : Ctx) (m : Prog α) (r : α) (c' : Ctx) (w : Bytes) : Prop :=
  ∃ os, ∀ env s, GoodCalls env P → s.toCtx = c → Follows env s.tick os →
    ∃ s', exec env m s = some (r, s') ∧ s'.toCtx = c' ∧ s'.out = s.out ++ w ∧ s'.tick = s.tick + os.length

section
variable {P : Fns} {c : Ctx}

theorem Can.pure {α : Type} {a : α} : Can P c (Pure.pure a) a c [] :=
  ⟨[], fun _ s _ hs _ => ⟨s, rfl, hs, by simp, by simp⟩⟩

theorem Can.bind {α β : Type} {m : Prog α} {f : α → Prog β} {a : α} {b : β} {c1 c2 : Ctx} {w1 w2 : Bytes}
    (hm : Can P c m a c1 w1) (hf : Can P c1 (f a) b c2 w2) : Can P c (m >>= f) b c2 (w1 ++ w2) := by
  obtain ⟨os1, h1⟩ := hm
  obtain ⟨os2, h2⟩ := hf
  refine ⟨os1 ++ os2, fun env s G hs hfo => ?_⟩
  obtain ⟨s1, e1, hc1, ho1, ht1⟩ := h1 env s G hs fun i o hi => by
    refine hfo i o ?_
    rw [List.getElem?_append_left]
    · exact hi
    · exact (List.getElem?_eq_some_iff.1 hi).1
  obtain ⟨s2, e2, hc2, ho2, ht2⟩ := h2 env s1 G hc1 fun i o hi ks hk => by
    rw [ht1, Nat.add_assoc]
    refine hfo (os1.length + i) o ?_ ks hk
    rw [List.getElem?_append_right (by omega)]
    simpa using hi
  refine ⟨s2, ?_, hc2, ?_, ?_⟩
  · rw [exec_bind, e1]; exact e2
  · rw [ho2, ho1, List.append_assoc]
  · rw [ht2, ht1, List.length_append]; omega

theorem Can.of_eq {α : Type} {m : Prog α} {r : α} {c' : Ctx} {w w' : Bytes} (h : Can P c m r c' w) (e : w = w') :
    Can P c m r c' w' := e ▸ h

/-- All effects but ranging over a map. -/
def NoOrder : Action → Prop
  | .order _ => False
  | _ => True

theorem tick_of_noOrder {env : Env} {a : Action} (h : NoOrder a) (s : St) : (a.run env s).2.tick = s.tick := by
  cases a with
  | order ks => exact h.elim
  | leave => simp only [Action.run]; split <;> rfl
  | _ => rfl

theorem tick_of_only {I : Ctx → Prop} {α : Type} {m : Prog α} (h : Only I NoOrder m) {env : Env}
    (K : Keeps env I NoOrder) {s s' : St} {r : α} (hs : I s.toCtx) (he : exec env m s = some (r, s')) :
    s'.tick = s.tick := by
  induction h generalizing s with
  | pure a => simp [exec] at he; rw [he.2]
  | step a k hp _ ih =>
    rw [ih _ (respOK env a s hs) (K a s hp hs) he, tick_of_noOrder hp]

theorem Can.leaf {α : Type} {m : Prog α} {r : α} {w : Bytes} (ho : Only (fun _ => True) NoOrder m)
    (he : ∀ env, Good env P → E env c m r w) : Can P c m r c w := by
  refine ⟨[], fun env s G hs _ => ?_⟩
  have K : Keeps env (fun _ => True) NoOrder := fun _ _ _ _ => trivial
  obtain ⟨r', s', h, _⟩ := ho.exec (env := env) K s trivial
  obtain ⟨w', h1, h2, h3, h4⟩ := he env G.toGood s r' s' hs h
  subst h2; subst h4
  exact ⟨s', h, h3, h1, by simpa using tick_of_only ho K trivial h⟩

theorem Can.impCalls (f : FnId) : Can P c (Do.imp f) (impOf (P.imp f c)) c [] :=
  ⟨[], fun env s G hs _ => ⟨s, by simp [Do.imp, exec, Action.run, G.calls, hs], hs, by simp, by simp⟩⟩

mutual
theorem valueUses_noOrder : (v : Value) → ValueUses NoOrder v
  | .mk _ (some (.user _)) _ => trivial
  | .mk _ (some (.key _)) _ => trivial
  | .mk _ (some .cargo) _ => trivial
  | .mk _ none cs => valuesUse_noOrder cs
theorem valuesUse_noOrder : (vs : List Value) → ValuesUse NoOrder vs
  | [] => trivial
  | v :: vs => ⟨valueUses_noOrder v, valuesUse_noOrder vs⟩
end

theorem allowsLeaf : AllowsLeaf (fun _ => True) NoOrder NoOrder (fun _ => True) where
  ctx := trivial
  write _ := trivial
  setErr _ := trivial
  heap _ _ _ _ := valuesUse_noOrder _
  fns _ h _ := h

theorem attrUses_noOrder (a : Attr) : AttrUses NoOrder (fun _ => True) a := by
  cases a with
  | plain n vs => exact valuesUse_noOrder vs
  | bool n => trivial
  | delim n d r => trivial

theorem condUses_noOrder (k : Cond) : CondUses NoOrder k := by cases k <;> trivial

theorem headUses_noOrder (h : ElemHead) : HeadUses NoOrder (fun _ => True) h :=
  ⟨fun a _ => attrUses_noOrder a, fun _ _ => ⟨attrUses_noOrder _, fun k _ => condUses_noOrder k⟩⟩

theorem Can.order {ks o : List Bytes} (h : o.Perm ks) : Can P c (Do.order ks) o c [] := by
  refine ⟨[o], fun env s G hs hf => ?_⟩
  refine ⟨{ s with tick := s.tick + 1 }, ?_, hs, by simp [St.out], rfl⟩
  have := hf 0 o (by simp) ks h.symm
  simp only [Nat.add_zero] at this
  simp [Do.order, exec, Action.run, this]

theorem Can.ctxWrite (he : c.frame.err = none) (d : Bytes) : Can P c (ctxWrite d) () c d :=
  .leaf (.ctxWrite allowsLeaf d) fun _ G => E.ctxWrite G.healthy he d

theorem Can.renderValues (he : c.frame.err = none) (vs : List Value) :
    Can P c (renderValues vs) () c (valuesBytes P c vs) :=
  .leaf (.renderValues allowsLeaf vs (valuesUse_noOrder vs)) fun _ G => E.renderValues G he vs

theorem Can.retErr (he : c.frame.err = none) : Can P c retErr none c [] :=
  .leaf (.retErr allowsLeaf) fun _ _ => by rw [← he]; exact E.retErr

theorem Can.renderEndTag (he : c.frame.err = none) (n : Bytes) : Can P c (renderEndTag n) () c (endBytes n) :=
  .leaf (.renderEndTag allowsLeaf n) fun _ G => E.renderEndTag G he n

theorem exists_perm_filterMap {α β} (f : α → Option β) (as : List α) (l : List β) (h : l.Perm (as.filterMap f)) :
    ∃ as' : List α, as'.Perm as ∧ as'.filterMap f = l := by
  induction as generalizing l with
  | nil => exact ⟨[], List.Perm.refl _, by simpa using h.symm⟩
  | cons a as ih =>
    cases hf : f a with
    | none =>
      rw [List.filterMap_cons_none hf] at h
      obtain ⟨as', hp, hmap⟩ := ih _ h
      exact ⟨a :: as', hp.cons a, by rw [List.filterMap_cons_none hf, hmap]⟩
    | some b =>
      rw [List.filterMap_cons_some hf] at h
      have hm : b ∈ l := h.mem_iff.mpr (by simp)
      obtain ⟨s, t, rfl⟩ := List.append_of_mem hm
      have h2 : (s ++ t).Perm (as.filterMap f) := List.Perm.cons_inv (List.perm_middle.symm.trans h)
      obtain ⟨as', hp, hmap⟩ := ih _ h2
      obtain ⟨s', t', rfl, rfl, rfl⟩ := List.filterMap_eq_append_iff.mp hmap
      exact ⟨s' ++ a :: t', List.perm_middle.trans (hp.cons a), by simp [hf]⟩

theorem Only.evaluate {I : Ctx → Prop} {p q : Action → Prop} {ρ : Nat → Prop} (A : AllowsLeaf I p q ρ) :
    (cas : List CondAttr) → (∀ ca ∈ cas, ∀ k ∈ ca.conditions, CondUses q k) →
    (r : List (Bytes × List Attr)) → Only I p (evaluate cas r)
  | [], _, _ => .ret _
  | ca :: cas, h, _ => .bind (.evalConds A _ (h ca (by simp))) fun _ =>
      Only.evaluate A cas (fun ca hca => h ca (by simp [hca])) _

theorem evalUses_noOrder (ev : List (Bytes × List Attr)) : EvalUses NoOrder (fun _ => True) ev :=
  fun _ _ a _ => attrUses_noOrder a

theorem Can.renderAttributes (he : c.frame.err = none) {h : ElemHead} (wf : WFHead h) {l : List Shown}
    (hl : TagShows P c h l) : Can P c (renderAttributes h) () c (l.flatMap Shown.bytes) := by
  unfold Aitch.renderAttributes
  have plain : active P c h.conditionals = [] → Can P c (renderAttrs h.attributes) () c (l.flatMap Shown.bytes) := by
    intro ha
    simp only [TagShows, ha, if_true] at hl
    rw [hl]
    exact .leaf (.renderAttrs allowsLeaf _ fun a _ => attrUses_noOrder a) fun _ G => E.renderAttrs G he _
  by_cases hc : h.conditionals.length > 0
  · rw [if_pos hc]
    refine .of_eq (w := [] ++ l.flatMap Shown.bytes) (.bind (c1 := c)
      (.leaf (.evaluate allowsLeaf _ (fun _ _ k _ => condUses_noOrder k) _)
        fun _ G => E.evaluate G h.conditionals []) ?_) (by simp)
    have hk := keys_group (active P c h.conditionals)
    by_cases ha : active P c h.conditionals = []
    · rw [ha]
      simp only [groupInto, List.foldl_nil, List.length_nil, gt_iff_lt, Nat.lt_irrefl, if_false]
      exact plain ha
    · have hlen : (groupInto [] (active P c h.conditionals)).length > 0 := by
        have : ((groupInto [] (active P c h.conditionals)).map (·.1)).length > 0 := by
          rw [hk]
          cases hx : active P c h.conditionals with
          | nil => exact absurd hx ha
          | cons a as => simp [distinct]
        simpa using this
      rw [if_pos hlen]
      simp only [TagShows, ha, if_false] at hl
      obtain ⟨l₁, l₂, h1, h2, rfl⟩ := hl
      obtain ⟨as', hp1, rfl⟩ := exists_perm_map (staticShown P c (active P c h.conditionals)) _ _ h1
      rw [shownExtras_eq] at h2
      obtain ⟨ns', hp2, rfl⟩ := exists_perm_filterMap _ _ _ h2
      refine .of_eq (.bind (Can.order (o := as'.map Attr.name) ?_) (.bind (c1 := c)
        (.leaf (.renderStatics allowsLeaf _ (headUses_noOrder h) _ (evalUses_noOrder _) _)
          fun _ G => E.renderStatics G he wf _ as' fun a h => hp1.mem_iff.mp h)
        (.bind (Can.order (o := ns') ?_)
          (.leaf (.renderExtras allowsLeaf _ _ (evalUses_noOrder _) _) fun _ G => E.renderExtras G he wf _ ns')))) ?_
      · rw [wf_keys wf]; exact hp1.map _
      · rw [hk]; exact hp2
      · simp
  · rw [if_neg hc]
    apply plain
    have : h.conditionals = [] := by
      cases hx : h.conditionals with
      | nil => rfl
      | cons a as => rw [hx] at hc; simp at hc
    rw [this]; rfl

theorem Can.renderStartTag (he : c.frame.err = none) {h : ElemHead} (wf : WFHead h) {l : List Shown}
    (hl : TagShows P c h l) : Can P c (renderStartTag h) () c (tagBytes h.name l) :=
  .of_eq (.bind (.ctxWrite he _) (.bind (.ctxWrite he _) (.bind (.renderAttributes he wf hl) (.ctxWrite he _))))
    (by simp [tagBytes])

/-! Nodes -/

/-- With enough fuel, the node can write `w`. -/
def CanR (P : Fns) (c : Ctx) (n : Node) (w : Bytes) : Prop :=
  ∃ f0, ∀ f ≥ f0, Can P c (renderProg f n) none c w

/-- The same for the loop `L` over a list of nodes. -/
def CanL {α : Type} (P : Fns) (c : Ctx) (L : Render → Prog α) (r : α) (w : Bytes) : Prop :=
  ∃ f0, ∀ f ≥ f0, Can P c (L (renderProg f)) r c w

theorem CanR.step {n : Node} {w : Bytes} (h : CanL P c (fun rec => renderStep rec n) none w) : CanR P c n w := by
  obtain ⟨f0, h⟩ := h
  refine ⟨f0 + 1, fun f hf => ?_⟩
  obtain ⟨f, rfl⟩ : ∃ g, f = g + 1 := ⟨f - 1, by omega⟩
  exact h f (by omega)

theorem CanL.of {α : Type} {m : Prog α} {r : α} {w : Bytes} (h : Can P c m r c w) : CanL P c (fun _ => m) r w :=
  ⟨0, fun _ _ => h⟩

theorem CanL.bind {α β : Type} {L : Render → Prog α} {K : Render → α → Prog β} {a : α} {b : β} {w1 w2 : Bytes}
    (h1 : CanL P c L a w1) (h2 : CanL P c (fun rec => K rec a) b w2) :
    CanL P c (fun rec => L rec >>= K rec) b (w1 ++ w2) := by
  obtain ⟨f1, h1⟩ := h1
  obtain ⟨f2, h2⟩ := h2
  exact ⟨max f1 f2, fun f hf => .bind (h1 f (by omega)) (h2 f (by omega))⟩

theorem CanL.rec {n : Node} {w : Bytes} (h : CanR P c n w) : CanL P c (fun rec => rec n) none w := h

theorem CanL.of_eq {α : Type} {L : Render → Prog α} {r : α} {w w' : Bytes} (h : CanL P c L r w) (e : w = w') :
    CanL P c L r w' := e ▸ h

theorem Can.setErr (he : c.frame.err = none) : Can P c (Do.setErr none) () c [] :=
  .leaf (.act trivial) fun _ _ => E.setErr he

/-- `Can` for every node of a list, with the concatenated output. -/
inductive CanAll (P : Fns) (c : Ctx) : List Node → Bytes → Prop
  | nil : CanAll P c [] []
  | cons {n ns w w'} : CanR P c n w → CanAll P c ns w' → CanAll P c (n :: ns) (w ++ w')

theorem CanL.contentLoop (he : c.frame.err = none) {ns : List Node} {w : Bytes} (h : CanAll P c ns w) :
    CanL P c (fun rec => contentLoop rec ns) () w := by
  induction h with
  | nil => exact .of .pure
  | cons h _ ih => exact .of_eq (.bind (.rec h) (.bind (.of (.setErr he)) ih)) (by simp)

theorem CanL.conditionalLoop (he : c.frame.err = none) {ns : List Node} {w : Bytes} (h : CanAll P c ns w) :
    CanL P c (fun rec => conditionalLoop rec ns) () w := by
  induction h with
  | nil => exact .of .pure
  | cons h _ ih => exact .of_eq (.bind (.rec h) (.bind (.of (.setErr he)) ih)) (by simp)

theorem CanL.collectionLoop (he : c.frame.err = none) (ns : List Node) {w : Bytes}
    (h : CanAll P c (ns.filter fun n => !n.isAttr) w) : CanL P c (fun rec => collectionLoop rec ns) () w := by
  induction ns generalizing w with
  | nil => cases h; exact .of .pure
  | cons n ns ih =>
    unfold Aitch.collectionLoop
    by_cases ha : n.isAttr = true
    · rw [List.filter_cons_of_neg (by simp [ha])] at h
      simp only [ha, if_true]
      exact ih h
    · rw [List.filter_cons_of_pos (by simp [ha])] at h
      simp only [ha]
      cases h with
      | cons h hs => exact .of_eq (.bind (.rec h) (.bind (.of (.setErr he)) (ih hs))) (by simp)

theorem CanL.ignoreLoop (ns : List (Option Node)) {w : Bytes}
    (h : CanAll P c (contentNodes ns) w) : CanL P c (fun rec => ignoreLoop rec ns) () w := by
  induction ns generalizing w with
  | nil => cases h; exact .of .pure
  | cons o ns ih =>
    cases o with
    | none => exact ih h
    | some n =>
      unfold Aitch.ignoreLoop
      by_cases ha : n.isAttr = true
      · have : contentNodes (some n :: ns) = contentNodes ns := by simp [contentNodes, ha]
        rw [this] at h
        simp only [ha, if_true]
        exact ih h
      · have : contentNodes (some n :: ns) = n :: contentNodes ns := by simp [contentNodes, ha]
        rw [this] at h
        simp only [ha]
        cases h with
        | cons h hs => exact .bind (.rec h) (ih hs)

theorem CanL.documentLoop {ns : List Node} {w : Bytes} (h : CanAll P c ns w) :
    CanL P c (fun rec => documentLoop rec ns) () w := by
  induction h with
  | nil => exact .of .pure
  | cons h _ ih => exact .bind (.rec h) ih

theorem CanL.iterNodes {ns : List Node} {w : Bytes} (h : CanAll P c ns w) :
    CanL P c (fun rec => iterNodes rec ns) none w := by
  induction h with
  | nil => exact .of .pure
  | cons h _ ih => exact .bind (.rec h) ih

/-- `Can` for an iteration, from any child frame. -/
inductive CanItems (P : Fns) (c : Ctx) (ns : List Node) : List Any → Bytes → Prop
  | nil : CanItems P c ns [] []
  | cons {it its w w'} : CanAll P (childCtx c it (itemData c.frame.data it)) ns w → CanItems P c ns its w' →
      CanItems P c ns (it :: its) (w ++ w')

theorem Can.act {α : Type} {a : Action} {f : a.Resp → α} {c' : Ctx} {r : α}
    (h : ∀ env s, s.toCtx = c → f (a.run env s).1 = r ∧ (a.run env s).2.toCtx = c' ∧
      (a.run env s).2.out = s.out ∧ (a.run env s).2.tick = s.tick) :
    Can P c (.step a fun x => .pure (f x)) r c' [] := by
  refine ⟨[], fun env s _ hs _ => ?_⟩
  obtain ⟨h1, h2, h3, h4⟩ := h env s hs
  exact ⟨(a.run env s).2, by simp [exec, h1], h2, by simp [h3], by simp [h4]⟩

theorem Can.enter (f : Frame) :
    Can P c (Do.enter f) () { c with frame := f, parents := c.frame :: c.parents } [] :=
  .act fun env s hs => ⟨rfl, by simp [Action.run, ← hs], rfl, rfl⟩

theorem Can.setItem (it : Any) (d : Option MapId) :
    Can P c (Do.setItem it d) () { c with frame := { c.frame with cargo := it, data := d } } [] :=
  .act fun env s hs => ⟨rfl, by simp [Action.run, ← hs], rfl, rfl⟩

theorem Can.leave {f : Frame} {fs : List Frame} (h : c.parents = f :: fs) :
    Can P c Do.leave c.frame { c with frame := f, parents := fs } [] :=
  .act fun env s hs => by
    have hp : s.parents = f :: fs := by rw [hs]; exact h
    simp [Action.run, hp, ← hs, St.out]

theorem Can.bindLook {β : Type} {m : Prog β} {r : β} {c' : Ctx} {w : Bytes} (h : Can P c m r c' w) :
    Can P c (Do.look >>= fun _ => m) r c' w := by
  obtain ⟨os, h⟩ := h
  exact ⟨os, fun env s G hs hf => h env s G hs hf⟩

theorem below_child (c : Ctx) (fr : Frame) (it : Any) (d : Option MapId) (he : fr.err = none) :
    { below c fr with frame := { (below c fr).frame with cargo := it, data := d } } = childCtx c it d := by
  simp [below, childCtx, he]

theorem CanL.iterItems {ns : List Node} {its : List Any} {w : Bytes} (h : CanItems P c ns its w) :
    ∃ f0, ∀ f ≥ f0, ∀ fr : Frame, fr.err = none → ∃ fr' : Frame,
      Can P (below c fr) (iterItems (renderProg f) ns c.frame.data its) none (below c fr') w := by
  induction h with
  | nil => exact ⟨0, fun f _ fr _ => ⟨fr, .pure⟩⟩
  | @cons it its w w' h _ ih =>
    obtain ⟨f1, h1⟩ := CanL.iterNodes h
    obtain ⟨f2, h2⟩ := ih
    refine ⟨max f1 f2, fun f hf fr he => ?_⟩
    obtain ⟨fr', h2⟩ := h2 f (by omega) (childCtx c it (itemData c.frame.data it)).frame rfl
    refine ⟨fr', ?_⟩
    have h1 := h1 f (by omega)
    unfold Aitch.iterItems
    refine .of_eq (.bind (.setItem _ _) (.bind (c1 := childCtx c it (itemData c.frame.data it)) (a := none) ?_ ?_))
      (w := [] ++ (w ++ w')) (by simp)
    · rw [below_child c fr it _ he]
      cases it <;> exact h1
    · exact h2

theorem Can.runItems (fn : ItemSrc) : Can P c (runItems fn) (srcItems P c fn) c [] := by
  refine .leaf ?_ fun _ G => E.runItems G fn
  cases fn with
  | user f => exact .act trivial
  | key k => exact .bindCtx trivial fun _ _ => .ret _

theorem CanL.renderIterator (he : c.frame.err = none) {ns : List Node} {fn : ItemSrc} {w : Bytes}
    (h : CanItems P c ns (srcItems P c fn) w) : CanL P c (fun rec => renderIterator rec ns fn) none w := by
  obtain ⟨f0, h0⟩ := CanL.iterItems h
  refine ⟨f0, fun f hf => ?_⟩
  have hctx : Can P c Do.ctx c c [] := .leaf (.act trivial) fun _ _ => E.ctx
  unfold Aitch.renderIterator
  refine .of_eq (w := [] ++ w) (.bind hctx ?_) (by simp)
  simp only [he]
  refine .of_eq (w := [] ++ w) (.bind (.runItems fn) ?_) (by simp)
  cases hi : srcItems P c fn with
  | nil => rw [hi] at h; cases h; exact .pure
  | cons it its =>
    obtain ⟨fr', h0⟩ := h0 f hf { err := c.frame.err, data := none, cargo := .nil } he
    rw [hi] at h0
    refine .of_eq (w := [] ++ ([] ++ (w ++ ([] ++ [])))) (.bind hctx (.bind (.enter _) (.bind h0
      (.bind (.leave rfl) ?_)))) (by simp)
    exact .pure

/-- `Can` for yielded items. -/
inductive CanYields (P : Fns) (c : Ctx) (ns : List Node) : Option MapId → List Any → Bytes → Prop
  | nil {d} : CanYields P c ns d [] []
  | cons {d it its w w'} : CanAll P (childCtx c it (itemData d it)) ns w →
      CanYields P c ns (itemData d it) its w' → CanYields P c ns d (it :: its) (w ++ w')

theorem CanL.runYield {ns : List Node} {d : Option MapId} {its : List Any} {w : Bytes}
    (h : CanYields P c ns d its w) :
    ∃ f0, ∀ f ≥ f0, ∀ child : Frame, child.err = none → child.data = d →
      Can P c (runYield (renderProg f) ns (yieldsOf its) child) () c w := by
  induction h with
  | nil => exact ⟨0, fun f _ child _ _ => .pure⟩
  | @cons d it its w w' h _ ih =>
    obtain ⟨f1, h1⟩ := CanL.iterNodes h
    obtain ⟨f2, h2⟩ := ih
    refine ⟨max f1 f2, fun f hf child he hd => ?_⟩
    have h1 := h1 f (by omega)
    have h2 := h2 f (by omega) (childCtx c it (itemData d it)).frame rfl rfl
    unfold yieldsOf
    unfold Aitch.runYield
    refine .of_eq (w := [] ++ ([] ++ (w ++ ([] ++ ([] ++ w'))))) (.bind (.enter child)
      (.bind (.setItem _ _) (.bind (c1 := childCtx c it (itemData d it)) (a := none) ?_
        (.bind (.leave rfl) (.bind (c1 := c) (a := ()) .pure (.bindLook h2)))))) (by simp)
    have e := below_child c child it (itemData d it) he
    subst hd
    cases it <;> (rw [← e] at h1 ⊢; exact h1)

theorem CanL.renderYield (he : c.frame.err = none) {ns : List Node} {g : FnId} {w : Bytes}
    (h : CanYields P c ns none (P.yields g c) w) : CanL P c (fun rec => renderYield rec ns g) none w := by
  obtain ⟨f0, h0⟩ := CanL.runYield h
  refine ⟨f0, fun f hf => ?_⟩
  have hctx : Can P c Do.ctx c c [] := .leaf (.act trivial) fun _ _ => E.ctx
  have hy : Can P c (Do.yields g) (yieldsOf (P.yields g c)) c [] := .leaf (.act trivial) fun _ G => E.yields G g
  unfold Aitch.renderYield
  refine .of_eq (w := [] ++ w) (.bind hctx ?_) (by simp)
  simp only [he]
  exact .of_eq (.bind hy (.bind (h0 f hf _ rfl rfl) (.retErr he))) (by simp)

/-- `Can` for the calls of an imperative function. -/
inductive CanOps (P : Fns) (c : Ctx) : List ImpOp → List Bytes → Bytes → Prop
  | nil {stack} : CanOps P c [] stack []
  | cons {op ops stack stack' w w'} : CanL P c (fun rec => runOp rec op stack) stack' w → CanOps P c ops stack' w' →
      CanOps P c (op :: ops) stack (w ++ w')

theorem CanL.runImp {ops : List ImpOp} {stack : List Bytes} {w : Bytes} (h : CanOps P c ops stack w) :
    CanL P c (fun rec => runImp rec (impOf ops) stack) none w := by
  induction h with
  | nil => exact .of .pure
  | cons h _ ih =>
    refine .bind h ?_
    obtain ⟨f0, ih⟩ := ih
    exact ⟨f0, fun f hf => .bindLook (ih f hf)⟩

theorem Only.startWrite {I : Ctx → Prop} {p q : Action → Prop} {ρ : Nat → Prop} (A : AllowsLeaf I p q ρ)
    (hq : ∀ vs, ValuesUse q vs) : (l : List (Bytes × Option (List Value))) → Only I p (startWrite l)
  | [] => .ret _
  | (n, vs) :: rest => by
    refine .bind (.ctxWrite A _) fun _ => .bind (.ctxWrite A _) fun _ => .bind ?_ fun _ => Only.startWrite A hq rest
    cases vs with
    | none => exact .ret _
    | some vs => exact .bind (.ctxWrite A _) fun _ => .bind (.renderValues A vs (hq vs)) fun _ => .ctxWrite A _

theorem Can.startTag (he : c.frame.err = none) (n : Bytes) (attrs : List (Option Node)) :
    Can P c (startTag n attrs) ()  c
      (tagBytes n ((startCollect c.dl attrs []).map fun (n, vs) => (n, vs.map (valuesBytes P c)))) := by
  refine .leaf ?_ fun _ G => E.startTag G he n attrs
  exact .bind (.ctxWrite allowsLeaf _) fun _ => .bind (.ctxWrite allowsLeaf _) fun _ =>
    .bindCtx trivial fun _ _ => .bind (.startWrite allowsLeaf valuesUse_noOrder _) fun _ => .ctxWrite allowsLeaf _

theorem Only.endAll {I : Ctx → Prop} {p q : Action → Prop} {ρ : Nat → Prop} (A : AllowsLeaf I p q ρ) :
    (stack : List Bytes) → Only I p (endAll stack)
  | [] => .ret _
  | n :: ns => .bind (.renderEndTag A n) fun _ => Only.endAll A ns

theorem Can.endAll (he : c.frame.err = none) (stack : List Bytes) :
    Can P c (endAll stack) () c (stack.flatMap endBytes) :=
  .leaf (.endAll allowsLeaf stack) fun _ G => E.endAll G he stack

theorem Can.runCond (k : Cond) : Can P c (runCond k) (holds P c k) c [] :=
  .leaf (.runCond allowsLeaf k (condUses_noOrder k)) fun _ G => E.runCond G k

end

theorem wfAll_iff (ns : List Node) : WFAll ns ↔ ∀ n ∈ ns, WF n := by
  induction ns with
  | nil => simp [WFAll]
  | cons n ns ih => simp [WFAll, ih]

theorem wfAll_filter {ns : List Node} (h : WFAll ns) (p : Node → Bool) : WFAll (ns.filter p) :=
  (wfAll_iff _).2 fun n hn => (wfAll_iff ns).1 h n (List.mem_filter.1 hn).1

theorem wfAll_contentNodes {ns : List (Option Node)} (h : ∀ n, some n ∈ ns → WF n) : WFAll (contentNodes ns) := by
  refine (wfAll_iff _).2 fun n hn => h n ?_
  unfold contentNodes at hn
  simpa using (List.mem_filter.1 hn).1

section
variable {P : Fns}

mutual
theorem canR_of_out (F : WFFns P) : {c : Ctx} → {n : Node} → {w : Bytes} → Out P c n w → c.frame.err = none → WF n →
    CanR P c n w
  | c, _, _, @Out.element _ _ h cs l w hl hw, he, wf =>
    .step (.of_eq (.bind (.of (.renderStartTag he wf.1 hl)) (.bind (.contentLoop he (canAll_of_out F hw he wf.2))
      (.bind (.of (.renderEndTag he _)) (.of (.retErr he))))) (by simp))
  | c, _, _, @Out.voidElement _ _ h l hl, he, wf =>
    .step (.of_eq (.bind (.of (.renderStartTag he wf hl)) (.of (.retErr he))) (by simp))
  | c, _, _, @Out.attr _ _ a, he, wf =>
    .step (.of_eq (.bind (.of (.leaf (.renderAttr allowsLeaf a (attrUses_noOrder a)) fun _ G => E.renderAttr G he a))
      (.of (.retErr he))) (by simp))
  | c, _, _, @Out.text _ _ vs, he, wf =>
    .step (.of_eq (.bind (.of (.renderValues he vs)) (.of (.retErr he))) (by simp))
  | c, _, _, @Out.comment _ _ vs, he, wf =>
    .step (.of_eq (.bind (.of (.ctxWrite he _)) (.bind (.of (.renderValues he vs)) (.bind (.of (.ctxWrite he _))
      (.of (.retErr he))))) (by simp))
  | c, _, _, @Out.fragment _ _ vs, he, wf =>
    .step (.of_eq (.bind (.of (.renderValues he vs)) (.of (.retErr he))) (by simp))
  | c, _, _, @Out.pi _ _ name vs, he, wf =>
    .step (.of_eq (.bind (.of (.ctxWrite he _)) (.bind (.of (.ctxWrite he _)) (.bind (.of (.ctxWrite he _))
      (.bind (.of (.renderValues he vs)) (.bind (.of (.ctxWrite he _)) (.of (.retErr he))))))) (by simp))
  | c, _, _, @Out.collection _ _ ns w hw, he, wf =>
    .step (.of_eq (.bind (.collectionLoop he ns (canAll_of_out F hw he (wfAll_filter wf _))) (.of (.retErr he)))
      (by simp))
  | c, _, _, @Out.conditionalOn _ _ ns as fn w hc hw, he, wf => by
    have h := canAll_of_out F hw he wf
    refine .step (.of_eq (w := [] ++ (w ++ [])) (.bind (.of (.runCond fn)) ?_) (by simp))
    rw [hc]
    exact .bind (.conditionalLoop he h) (.of (.retErr he))
  | c, _, _, @Out.conditionalOff _ _ ns as fn hc, he, wf => by
    refine .step (.of_eq (w := [] ++ ([] ++ [])) (.bind (.of (.runCond fn)) ?_) (by simp))
    rw [hc]
    exact .bind (a := ()) (.of .pure) (.of (.retErr he))
  | c, _, _, @Out.collector _ _ f w hw, he, wf =>
    .step (.of_eq (.bind (.of (.leaf (.act trivial) fun _ G => E.collect G f)) (.bind
      (.ignoreLoop _ (canAll_of_out F hw he (wfAll_contentNodes fun n h => F.collect f c n h)))
      (.of (.retErr he)))) (by simp))
  | c, _, _, .imperativeNil, he, wf => .step (.of .pure)
  | c, _, _, @Out.imperative _ _ f w hw, he, wf =>
    .step (.of_eq (.bind (.of (.impCalls f))
      (.runImp (canOps_of_out F hw he fun ns n h1 h2 => F.imp f c ns n h1 h2))) (by simp))
  | c, _, _, @Out.iterator _ _ ns fn w hw, he, wf => .step (.renderIterator he (canItems_of_out F hw wf))
  | c, _, _, @Out.yieldIterator _ _ ns f w hw, he, wf => .step (.renderYield he (canYields_of_out F hw wf))
  | c, _, _, @Out.document _ _ p cs w hw, he, wf =>
    .step (.of_eq (.bind (.documentLoop (canAll_of_out F hw he (by cases p <;> exact wf))) (.of (.retErr he)))
      (by simp))
theorem canAll_of_out (F : WFFns P) : {c : Ctx} → {ns : List Node} → {w : Bytes} → OutAll P c ns w →
    c.frame.err = none → WFAll ns → CanAll P c ns w
  | _, _, _, .nil, _, _ => .nil
  | _, _, _, .cons h hs, he, wf => .cons (canR_of_out F h he wf.1) (canAll_of_out F hs he wf.2)
theorem canItems_of_out (F : WFFns P) : {c : Ctx} → {ns : List Node} → {its : List Any} → {w : Bytes} →
    OutItems P c ns its w → WFAll ns → CanItems P c ns its w
  | _, _, _, _, .nil, _ => .nil
  | _, _, _, _, .cons h hs, wf => .cons (canAll_of_out F h rfl wf) (canItems_of_out F hs wf)
theorem canYields_of_out (F : WFFns P) : {c : Ctx} → {ns : List Node} → {d : Option MapId} → {its : List Any} →
    {w : Bytes} → OutYields P c ns d its w → WFAll ns → CanYields P c ns d its w
  | _, _, _, _, _, .nil, _ => .nil
  | _, _, _, _, _, .cons h hs, wf => .cons (canAll_of_out F h rfl wf) (canYields_of_out F hs wf)
theorem canOps_of_out (F : WFFns P) : {c : Ctx} → {ops : List ImpOp} → {stack : List Bytes} → {w : Bytes} →
    OutOps P c ops stack w → c.frame.err = none → (∀ ns n, .writeNodes ns ∈ ops → some n ∈ ns → WF n) →
    CanOps P c ops stack w
  | _, _, _, _, .nil, _, _ => .nil
  | _, _, _, _, .writeString h, he, wf =>
    .cons (.of_eq (.bind (.of (.ctxWrite he _)) (.of .pure)) (by simp))
      (canOps_of_out F h he fun ns n hm => wf ns n (by simp [hm]))
  | _, _, _, _, .writeRaw h, he, wf =>
    .cons (.of_eq (.bind (.of (.ctxWrite he _)) (.of .pure)) (by simp))
      (canOps_of_out F h he fun ns n hm => wf ns n (by simp [hm]))
  | _, _, _, _, @OutOps.writeNodes _ _ ns _ _ _ _ h hs, he, wf =>
    .cons (.of_eq (.bind (.ignoreLoop _ (canAll_of_out F h he (wfAll_contentNodes fun n hn => wf ns n (by simp) hn)))
      (.of .pure)) (by simp)) (canOps_of_out F hs he fun ns n hm => wf ns n (by simp [hm]))
  | _, _, _, _, .startVoid h, he, wf =>
    .cons (.of_eq (.bind (.of (.startTag he _ _)) (.of .pure)) (by simp))
      (canOps_of_out F h he fun ns n hm => wf ns n (by simp [hm]))
  | _, _, _, _, .start h, he, wf =>
    .cons (.of_eq (.bind (.of (.startTag he _ _)) (.of .pure)) (by simp))
      (canOps_of_out F h he fun ns n hm => wf ns n (by simp [hm]))
  | _, _, _, _, .endNone h, he, wf =>
    .cons (w := []) (.of .pure) (canOps_of_out F h he fun ns n hm => wf ns n (by simp [hm]))
  | _, _, _, _, .endSome h, he, wf =>
    .cons (.of_eq (.bind (.of (.renderEndTag he _)) (.of .pure)) (by simp))
      (canOps_of_out F h he fun ns n hm => wf ns n (by simp [hm]))
  | _, _, _, _, .endAll h, he, wf =>
    .cons (.of_eq (.bind (.of (.endAll he _)) (.of .pure)) (by simp))
      (canOps_of_out F h he fun ns n hm => wf ns n (by simp [hm]))
end

end

/-- An environment with a healthy writer, functions `P`, and the given orders. -/
noncomputable def envOf (P : Fns) (os : List (List Bytes)) : Env where
  write _ d := (d.length, none)
  dyn f s := (P.dyn f s.toCtx, s)
  cond f s := (P.cond f s.toCtx, s)
  collect f s := (P.collect f s.toCtx, s)
  items f s := (P.items f s.toCtx, s)
  yields f s := yieldsOf (P.yields f s.toCtx)
  imp f s := impOf (P.imp f s.toCtx)
  order t ks := open Classical in if (os[t]?.getD ks).Perm ks then os[t]?.getD ks else ks
  order_perm t ks := by
    split
    · assumption
    · exact .refl _

theorem good_envOf (P : Fns) (os : List (List Bytes)) : GoodCalls (envOf P os) P where
  healthy _ _ := rfl
  computes := ⟨fun _ _ => rfl, fun _ _ => rfl, fun _ _ => rfl, fun _ _ => rfl, fun _ _ => rfl,
    fun _ _ => makesCalls_impOf _⟩
  calls _ _ := rfl

theorem follows_envOf (P : Fns) (os : List (List Bytes)) : Follows (envOf P os) 0 os := by
  intro i o hi ks hk
  simp [envOf, hi, hk.symm]

/-- A render can write exactly what the specification allows. -/
theorem renders_iff_out {P : Fns} (F : WFFns P) {n : Node} (wf : WF n) {c : Ctx} (he : c.frame.err = none)
    {w : Bytes} : Renders P c n w ↔ Out P c n w := by
  constructor
  · rintro ⟨env, H, C, s, s', rfl, ⟨fuel, hr⟩, ho⟩
    obtain ⟨_, _, w', ho', he'⟩ := render_refines ⟨H, C⟩ F wf he hr
    rw [ho] at he'
    rw [List.append_cancel_left he']; exact ho'
  · intro h
    obtain ⟨f, hf⟩ := canR_of_out F h he wf
    obtain ⟨os, h⟩ := hf f (Nat.le_refl _)
    obtain ⟨s', h1, h2, h3, h4⟩ := h (envOf P os) ⟨c, [], 0⟩ (good_envOf P os) rfl (follows_envOf P os)
    exact ⟨envOf P os, (good_envOf P os).healthy, (good_envOf P os).computes, ⟨c, [], 0⟩, s', rfl, ⟨f, h1⟩, h3⟩

end Aitch
