import Verif.Proofs.AfterError
import Verif.Proofs.RefineTag
import Verif.Proofs.Start
import Verif.Spec.Silence
/-
Renders without a call of the writer.
-/
set_option linter.unusedSectionVars false
namespace Aitch
open Spec

section
variable {env : Env} {P : Fns} {c : Ctx} {α β : Type}

/-- In context `c`, program `m` makes no call of the writer exactly when `S` has an outcome, which is then what happens. -/
def Mum (env : Env) (c : Ctx) (m : Prog α) (S : α → Ctx → Prop) : Prop :=
  ∀ s r s', s.toCtx = c → exec env m s = some (r, s') →
    (s'.log = s.log → S r s'.toCtx) ∧ ∀ r₀ c₀, S r₀ c₀ → s'.log = s.log ∧ r = r₀ ∧ s'.toCtx = c₀

/-- The same for programs without a result of interest that leave the context as it is. -/
abbrev MumIf (env : Env) (c : Ctx) (m : Prog Unit) (p : Prop) : Prop := Mum env c m fun _ c' => p ∧ c' = c

theorem Mum.iff {m : Prog α} {S T : α → Ctx → Prop} (h : Mum env c m S) (hST : ∀ r c', S r c' ↔ T r c') :
    Mum env c m T := by
  intro s r s' hs he
  obtain ⟨h1, h2⟩ := h s r s' hs he
  exact ⟨fun h => (hST _ _).1 (h1 h), fun r₀ c₀ h => h2 _ _ ((hST _ _).2 h)⟩

theorem Mum.pure {a : α} : Mum env c (Pure.pure a) fun r c' => r = a ∧ c' = c := by
  intro s r s' hs he
  cases he
  exact ⟨fun _ => ⟨rfl, hs⟩, fun r₀ c₀ h => ⟨rfl, h.1.symm, by rw [h.2, hs]⟩⟩

theorem MumIf.pure : MumIf env c (Pure.pure ()) True := Mum.pure.iff fun _ _ => by simp

theorem log_between {m : Prog α} {f : α → Prog β} {s s' : St} {r : β} (he : exec env (m >>= f) s = some (r, s')) :
    ∃ a t, exec env m s = some (a, t) ∧ exec env (f a) t = some (r, s') ∧
      (s'.log = s.log ↔ t.log = s.log ∧ s'.log = t.log) := by
  rw [exec_bind] at he
  cases h1 : exec env m s with
  | none => rw [h1] at he; cases he
  | some p =>
    rw [h1] at he
    refine ⟨p.1, p.2, rfl, he, fun h => ?_, fun h => h.2.trans h.1⟩
    have h3 := exec_log h1
    have h4 := exec_log he
    have : p.2.log.length = s.log.length := Nat.le_antisymm (h ▸ h4.length_le) h3.length_le
    have h5 := (h3.eq_of_length this.symm).symm
    exact ⟨h5, h.trans h5.symm⟩

theorem Mum.bind {m : Prog α} {f : α → Prog β} {S : α → Ctx → Prop} {T : α → Ctx → β → Ctx → Prop}
    (hm : Mum env c m S) (hf : ∀ a c₁, S a c₁ → Mum env c₁ (f a) (T a c₁)) :
    Mum env c (m >>= f) fun b c₂ => ∃ a c₁, S a c₁ ∧ T a c₁ b c₂ := by
  intro s r s' hs he
  obtain ⟨a, t, h1, h2, h3⟩ := log_between he
  obtain ⟨h4, h5⟩ := hm s a t hs h1
  constructor
  · intro hl
    obtain ⟨h6, h7⟩ := h3.1 hl
    exact ⟨a, _, h4 h6, (hf _ _ (h4 h6) t r s' rfl h2).1 h7⟩
  · rintro r₀ c₀ ⟨a', c₁, hS, hT⟩
    obtain ⟨h6, rfl, rfl⟩ := h5 _ _ hS
    obtain ⟨h7, h8⟩ := (hf _ _ hS t r s' rfl h2).2 _ _ hT
    exact ⟨h7.trans h6, h8⟩

theorem MumIf.bind {m : Prog Unit} {f : Unit → Prog β} {p : Prop} {T : β → Ctx → Prop} (hm : MumIf env c m p)
    (hf : p → Mum env c (f ()) T) : Mum env c (m >>= f) fun b c₂ => p ∧ T b c₂ :=
  (Mum.bind (T := fun _ _ => T) hm fun _ c₁ h => by rw [h.2]; exact hf h.1).iff fun b c₂ =>
    ⟨fun ⟨_, _, h, h'⟩ => ⟨h.1, h'⟩, fun h => ⟨(), c, ⟨h.1, rfl⟩, h.2⟩⟩

theorem MumIf.seq {m : Prog Unit} {f : Unit → Prog Unit} {p q : Prop} (hm : MumIf env c m p)
    (hf : p → MumIf env c (f ()) q) : MumIf env c (m >>= f) (p ∧ q) :=
  (MumIf.bind hm hf).iff fun _ _ => by rw [and_assoc]

theorem MumIf.iff {m : Prog Unit} {p q : Prop} (h : MumIf env c m p) (hpq : p ↔ q) : MumIf env c m q :=
  Mum.iff h fun _ _ => by rw [hpq]

/-- A computation that does not write, and its result. -/
theorem Mum.known {m : Prog α} {f : α → Prog β} {a : α} {T : β → Ctx → Prop}
    (hm : Mum env c m fun r c' => r = a ∧ c' = c) (hf : Mum env c (f a) T) : Mum env c (m >>= f) T :=
  (Mum.bind (T := fun _ _ => T) hm fun _ c₁ h => by rw [h.1, h.2]; exact hf).iff fun b c₂ =>
    ⟨fun ⟨_, _, _, h'⟩ => h', fun h => ⟨a, c, ⟨rfl, rfl⟩, h⟩⟩

/-- A program that always writes. -/
theorem Mum.never {m : Prog α} (h : Moves env c m) : Mum env c m fun _ _ => False := by
  intro s r s' hs he
  have := h s r s' hs he
  exact ⟨fun h => by rw [h] at this; exact Nat.lt_irrefl _ this, fun _ _ h => h.elim⟩

theorem MumIf.never {m : Prog Unit} (h : Moves env c m) : MumIf env c m False :=
  (Mum.never h).iff fun _ _ => by simp

theorem Mum.stuck {S : α → Ctx → Prop} : Mum env c (.stuck : Prog α) S := by
  intro _ _ _ _ he; cases he

theorem Mum.ctx : Mum env c Do.ctx fun r c' => r = c ∧ c' = c := by
  intro s r s' hs he
  cases he
  refine ⟨fun _ => ⟨hs, hs⟩, fun r₀ c₀ h => ⟨rfl, ?_, ?_⟩⟩
  · rw [h.1]; exact hs
  · rw [h.2]; exact hs

theorem Mum.act {a : Action} {k : a.Resp} (h : ∀ s : St, s.toCtx = c → a.run env s = (k, s)) :
    Mum env c (.step a .pure) fun r c' => r = k ∧ c' = c := by
  intro s r s' hs he
  have he' : (some ((a.run env s).1, (a.run env s).2) : Option (a.Resp × St)) = some (r, s') := he
  rw [h s hs] at he'
  cases he'
  exact ⟨fun _ => ⟨rfl, hs⟩, fun r₀ c₀ h => ⟨rfl, h.1.symm, hs.trans h.2.symm⟩⟩

theorem Mum.look {f : St → Prog β} {T : β → Ctx → Prop} (hf : ∀ s, Mum env c (f s) T) :
    Mum env c (Do.look >>= f) T := by
  intro s r s' hs he
  exact hf s s r s' hs he

theorem Mum.setErr (e : Option Err) : Mum env c (Do.setErr e) fun _ c' => c' = c.erring e := by
  intro s r s' hs he
  cases he
  subst hs
  exact ⟨fun _ => rfl, fun _ _ h => ⟨rfl, rfl, h ▸ rfl⟩⟩

theorem Mum.setErr_bind {e : Option Err} {f : Unit → Prog β} {T : β → Ctx → Prop}
    (hf : Mum env (c.erring e) (f ()) T) : Mum env c (Do.setErr e >>= f) T :=
  (Mum.bind (T := fun _ _ => T) (.setErr e) fun _ c₁ h => by rw [h]; exact hf).iff fun b c₂ =>
    ⟨fun ⟨_, _, _, h'⟩ => h', fun h => ⟨(), _, rfl, h⟩⟩

theorem Mum.retErr : Mum env c retErr fun r c' => r = c.frame.err ∧ c' = c := Mum.known .ctx .pure

theorem MumIf.ctxWrite (d : Bytes) : MumIf env c (ctxWrite d) (c.frame.err ≠ none) := by
  refine .known .ctx ?_
  cases h : c.frame.err with
  | none => exact (Mum.never (.left (.write d))).iff fun _ _ => by simp
  | some x => exact MumIf.pure.iff (by simp)

theorem MumIf.renderValues (vs : List Value) : MumIf env c (renderValues vs) (vs = []) := by
  cases vs with
  | nil => exact MumIf.pure.iff (by simp)
  | cons v vs => exact (MumIf.never .renderValues).iff (by simp)

theorem MumIf.renderDelimValues (d : Bytes) (vs : List Value) : MumIf env c (renderDelimValues d vs false) (vs = []) := by
  cases vs with
  | nil => exact MumIf.pure.iff (by simp)
  | cons v vs =>
    refine (MumIf.never (.right (Q := fun _ => True) (.pure trivial) fun _ _ => .left (.renderValue _ v))).iff (by simp)

theorem MumIf.renderDelim (n d : Bytes) (vs : List Value) :
    MumIf env c (renderDelim n d vs) (c.frame.err ≠ none ∧ vs = []) :=
  (MumIf.seq (.ctxWrite _) fun _ => .seq (.ctxWrite _) fun _ => .seq (.ctxWrite _) fun _ =>
    .seq (.renderDelimValues _ _) fun _ => .ctxWrite _).iff (by simp +contextual)

theorem MumIf.renderPlain (n : Bytes) (vs : List Value) :
    MumIf env c (renderPlain n vs) (c.frame.err ≠ none ∧ vs = []) :=
  (MumIf.seq (.ctxWrite _) fun _ => .seq (.ctxWrite _) fun _ => .seq (.ctxWrite _) fun _ =>
    .seq (.renderValues _) fun _ => .ctxWrite _).iff (by simp +contextual)

theorem MumIf.renderAttr (a : Attr) : MumIf env c (renderAttr a) (c.frame.err ≠ none ∧ a.values c.dl = []) := by
  cases a with
  | plain n vs => exact .renderPlain n vs
  | bool n => exact (MumIf.seq (.ctxWrite _) fun _ => .ctxWrite _).iff (by simp [Attr.values])
  | delim n d r => exact .known .ctx (MumIf.renderDelim n d _)

theorem hasValues_iff (dl : Nat → List Value) (a : Attr) : HasValues dl a ↔ a.values dl ≠ [] := by
  cases a <;> simp [HasValues, Attr.values]

theorem MumIf.renderAttrs (he : c.frame.err ≠ none) : (as : List Attr) →
    MumIf env c (renderAttrs as) (∀ a ∈ as, a.values c.dl = [])
  | [] => MumIf.pure.iff (by simp)
  | a :: as => (MumIf.seq (.renderAttr a) fun _ => MumIf.renderAttrs he as).iff (by simp [he])

theorem MumIf.renderChosen (he : c.frame.err ≠ none) (a : Attr) (es : List Attr) (last : Attr) :
    MumIf env c (renderChosen a es last) (mergedValues c.dl a es last = []) := by
  cases a with
  | plain n vs => exact (MumIf.renderAttr last).iff (by simp [mergedValues, he])
  | bool n => exact (MumIf.renderAttr last).iff (by simp [mergedValues, he])
  | delim n d r => exact .known .ctx ((MumIf.renderDelim n d _).iff (by simp [mergedValues, he]))

theorem MumIf.renderStatic (he : c.frame.err ≠ none) {h : ElemHead} (wf : WFHead h) (act : List Attr) {a : Attr}
    (ha : a ∈ h.attributes) : MumIf env c (renderStatic h (groupInto [] act) a.name) (staticValues c.dl act a = []) := by
  obtain ⟨i, hi, hg⟩ := wf_lookup wf ha
  simp only [Aitch.renderStatic, hi, hg, lookup_group, staticValues]
  cases hn : named a.name act with
  | nil => exact (MumIf.renderAttr a).iff (by simp [he])
  | cons e es =>
    have h2 := MumIf.renderChosen (env := env) he a (e :: es) ((e :: es).getLast?.getD a)
    have h3 : (e :: es).getLast?.getD a = (e :: es).getLast (by simp) := by
      rw [List.getLast?_eq_some_getLast (by simp)]; rfl
    rw [h3] at h2
    exact h2

theorem MumIf.renderStatics (he : c.frame.err ≠ none) {h : ElemHead} (wf : WFHead h) (act : List Attr) :
    (as : List Attr) → (∀ a ∈ as, a ∈ h.attributes) →
    MumIf env c (renderStatics h (groupInto [] act) (as.map Attr.name)) (∀ a ∈ as, staticValues c.dl act a = [])
  | [], _ => MumIf.pure.iff (by simp)
  | a :: as, ha => (MumIf.seq (.renderStatic he wf act (ha a (.head _))) fun _ =>
      MumIf.renderStatics he wf act as fun x hx => ha x (.tail _ hx)).iff (by simp)

theorem MumIf.renderExtra (he : c.frame.err ≠ none) {h : ElemHead} (wf : WFHead h) (act : List Attr) (n : Bytes) :
    MumIf env c (renderExtra h (groupInto [] act) n) (n ∉ h.attributes.map Attr.name → extraValues c.dl act n = []) := by
  unfold Aitch.renderExtra
  by_cases hn : n ∈ h.attributes.map Attr.name
  · obtain ⟨a, ha, rfl⟩ := List.mem_map.mp hn
    obtain ⟨i, hi, hg⟩ := wf_lookup wf ha
    simp only [hi]
    exact MumIf.pure.iff (by simp [hn])
  · simp only [wf_lookup_none wf hn, lookup_group, extraValues]
    cases hm : named n act with
    | nil => exact MumIf.pure.iff (by simp)
    | cons e es =>
      have h2 := MumIf.renderChosen (env := env) he e es ((e :: es).getLast?.getD e)
      have h3 : (e :: es).getLast?.getD e = (e :: es).getLast (by simp) := by
        rw [List.getLast?_eq_some_getLast (by simp)]; rfl
      rw [h3] at h2
      refine (?_ : MumIf env c (Aitch.renderChosen e es ((e :: es).getLast?.getD e)) _)
      rw [h3]
      exact h2.iff ⟨fun h _ => h, fun h => h hn⟩

theorem MumIf.renderExtras (he : c.frame.err ≠ none) {h : ElemHead} (wf : WFHead h) (act : List Attr) :
    (ns : List Bytes) → MumIf env c (renderExtras h (groupInto [] act) ns)
      (∀ n ∈ ns, n ∉ h.attributes.map Attr.name → extraValues c.dl act n = [])
  | [] => MumIf.pure.iff (by simp)
  | n :: ns => (MumIf.seq (.renderExtra he wf act n) fun _ => MumIf.renderExtras he wf act ns).iff (by simp)

theorem Mum.order {ks : List Bytes} {f : List Bytes → Prog β} {T : β → Ctx → Prop}
    (hf : ∀ l, l.Perm ks → Mum env c (f l) T) : Mum env c (Do.order ks >>= f) T := by
  intro s r s' hs he
  exact hf _ (env.order_perm s.tick ks) { s with tick := s.tick + 1 } r s' hs he

theorem Mum.runCond (C : Computes env P) (k : Cond) : Mum env c (runCond k) fun r c' => r = holds P c k ∧ c' = c := by
  intro s r s' hs he
  obtain ⟨h1, h2, h3⟩ := Idle.runCond C k s r s' hs he
  exact ⟨fun _ => ⟨h3, h1⟩, fun r₀ c₀ h => ⟨h2, h3.trans h.1.symm, h1.trans h.2.symm⟩⟩

theorem Mum.evalConds (C : Computes env P) : (ks : List Cond) →
    Mum env c (evalConds ks) fun r c' => r = ks.all (holds P c) ∧ c' = c
  | [] => Mum.pure
  | k :: ks => by
    refine .known (.runCond C k) ?_
    cases h : holds P c k with
    | false => exact Mum.pure.iff fun _ _ => by simp [h]
    | true => exact (Mum.evalConds C ks).iff fun _ _ => by simp [h]

theorem Mum.evaluate (C : Computes env P) (cas : List CondAttr) (acc : List (Bytes × List Attr)) :
    Mum env c (evaluate cas acc) fun r c' => r = groupInto acc (active P c cas) ∧ c' = c := by
  induction cas generalizing acc with
  | nil => exact Mum.pure
  | cons ca cas ih =>
    refine .known (.evalConds C ca.conditions) ?_
    cases h : ca.conditions.all (holds P c)
    · have : active P c (ca :: cas) = active P c cas := by
        simp only [active, List.filter_cons, h]; rfl
      rw [this]; exact ih acc
    · have : active P c (ca :: cas) = ca.att :: active P c cas := by
        simp only [active, List.filter_cons, h]; rfl
      rw [this]; exact ih _

theorem MumIf.renderAttributes (C : Computes env P) (he : c.frame.err ≠ none) {h : ElemHead} (wf : WFHead h) :
    MumIf env c (renderAttributes h) (NoTagValues P c h) := by
  unfold Aitch.renderAttributes
  have plain : active P c h.conditionals = [] → MumIf env c (Aitch.renderAttrs h.attributes) (NoTagValues P c h) :=
    fun ha => (MumIf.renderAttrs he _).iff (by simp [NoTagValues, ha, staticValues, named])
  by_cases hc : h.conditionals.length > 0
  · rw [if_pos hc]
    refine .known (.evaluate C h.conditionals []) ?_
    have hk := keys_group (active P c h.conditionals)
    by_cases ha : active P c h.conditionals = []
    · rw [ha]
      simp only [groupInto, List.foldl_nil, List.length_nil, gt_iff_lt, Nat.lt_irrefl, if_false]
      exact plain ha
    · have hlen : (groupInto [] (active P c h.conditionals)).length > 0 := by
        have : ((groupInto [] (active P c h.conditionals)).map (·.1)).length > 0 := by
          rw [hk]
          cases hx : active P c h.conditionals with
          | nil => exact absurd hx ha
          | cons a as => simp [distinct]
        simpa using this
      rw [if_pos hlen]
      refine .order fun names hp => ?_
      rw [wf_keys wf] at hp
      obtain ⟨as', has', rfl⟩ := exists_perm_map _ _ _ hp
      refine (MumIf.seq (q := ∀ n ∈ (active P c h.conditionals).map Attr.name, n ∉ h.attributes.map Attr.name →
          extraValues c.dl (active P c h.conditionals) n = [])
        (.renderStatics he wf _ as' fun a h => has'.mem_iff.mp h) fun _ => .order fun names hp2 => ?_).iff ?_
      · rw [hk] at hp2
        exact (MumIf.renderExtras he wf _ names).iff (by simp only [hp2.mem_iff, mem_distinct])
      · simp only [has'.mem_iff, NoTagValues]
  · rw [if_neg hc]
    apply plain
    have : h.conditionals = [] := by
      cases hx : h.conditionals with
      | nil => rfl
      | cons a as => rw [hx] at hc; simp at hc
    rw [this]; rfl

theorem MumIf.renderStartTag (C : Computes env P) {h : ElemHead} (wf : WFHead h) :
    MumIf env c (renderStartTag h) (c.frame.err ≠ none ∧ NoTagValues P c h) :=
  (MumIf.seq (.ctxWrite _) fun he => .seq (.ctxWrite _) fun _ => .seq (.renderAttributes C he wf) fun _ =>
    .ctxWrite _).iff (by simp +contextual)

theorem MumIf.renderEndTag (n : Bytes) : MumIf env c (renderEndTag n) (c.frame.err ≠ none) :=
  (MumIf.seq (.ctxWrite _) fun _ => .seq (.ctxWrite _) fun _ => .ctxWrite _).iff (by simp)

/-! `Start` -/

theorem startValues_iff (P : Fns) (c : Ctx) (ds : List Attr) :
    (ds.foldl (startOne c.dl) (some [])).getD [] = [] ↔ startValues c.dl ds = [] := by
  rw [(startRep_fold P c ds).2]
  unfold startValues startBase partsOf
  simp only [List.append_eq_nil_iff, List.flatMap_eq_nil_iff, List.map_eq_nil_iff]
  refine and_congr_left fun _ => ?_
  cases h : (ds.filter fun a => !isDelim a).getLast? with
  | none => simp
  | some a => cases a <;> simp

theorem MumIf.startWrite (he : c.frame.err ≠ none) : (l : List (Bytes × Option (List Value))) →
    MumIf env c (startWrite l) (∀ p ∈ l, p.2.getD [] = [])
  | [] => MumIf.pure.iff (by simp)
  | (n, vs) :: l => by
    refine (MumIf.seq (.ctxWrite _) fun _ => .seq (.ctxWrite _) fun _ => .seq (p := vs.getD [] = []) ?_ fun _ =>
      MumIf.startWrite he l).iff (by simp [he])
    cases vs with
    | none => exact MumIf.pure.iff (by simp)
    | some vs =>
      exact (MumIf.seq (.ctxWrite _) fun _ => .seq (.renderValues vs) fun _ => .ctxWrite _).iff (by simp [he])

theorem MumIf.startTag (P : Fns) (n : Bytes) (attrs : List (Option Node)) :
    MumIf env c (startTag n attrs) (c.frame.err ≠ none ∧ NoStartValues c (startAttrs attrs)) := by
  refine (MumIf.seq (.ctxWrite _) fun he => .seq (.ctxWrite _) fun _ => .known .ctx (MumIf.seq (.startWrite he _) fun _ =>
    .ctxWrite _)).iff ?_
  rw [startCollect_eq, startCollect_names]
  simp only [List.mem_map, forall_exists_index, and_imp, NoStartValues, mem_distinct, forall_apply_eq_imp_iff₂,
    startValues_iff P c]
  constructor
  · rintro ⟨h1, h2, h3, h4⟩
    exact ⟨h1, fun a ha => h3 a ha⟩
  · rintro ⟨h1, h2⟩
    exact ⟨h1, h1, fun a ha => h2 a ha, h1⟩

theorem MumIf.endAll : (l : List Bytes) → MumIf env c (endAll l) (l = [] ∨ c.frame.err ≠ none)
  | [] => MumIf.pure.iff (by simp)
  | n :: l => (MumIf.seq (.renderEndTag n) fun _ => MumIf.endAll l).iff (by simp +contextual)

/-! Contexts without an error. -/

theorem erring_self {c : Ctx} {e : Option Err} (h : c.frame.err = e) : c.erring e = c := by
  subst h; rfl

mutual
theorem silent_ok : {c : Ctx} → {n : Node} → {e : Option Err} → {c' : Ctx} → Silent P c n e c' → c.frame.err = none →
    e = none ∧ c' = c
  | _, _, _, _, .element h _ _ _, he => (h he).elim
  | _, _, _, _, .voidElement h _, he => (h he).elim
  | _, _, _, _, .attr h _, he => (h he).elim
  | _, _, _, _, .text, he => ⟨he, rfl⟩
  | _, _, _, _, .fragment, he => ⟨he, rfl⟩
  | _, _, _, _, .comment h, he => (h he).elim
  | _, _, _, _, .pi h, he => (h he).elim
  | _, _, _, _, .collection h, he => by
    have := silentUntil_ok h he
    exact ⟨this ▸ he, this⟩
  | _, _, _, _, .conditionalOn _ h, he => by
    have := silentUntil_ok h he
    exact ⟨this ▸ he, this⟩
  | _, _, _, _, .conditionalOff _, he => ⟨he, rfl⟩
  | _, _, _, _, .collector h, he => by
    have := silentNodes_ok h he
    exact ⟨this ▸ he, this⟩
  | _, _, _, _, .imperativeNil, _ => ⟨rfl, rfl⟩
  | _, _, _, _, .imperative h, he => ⟨rfl, silentOps_ok h he⟩
  | _, _, _, _, .iteratorNot h, he => (h he).elim
  | _, _, _, _, .iterator _ _, _ => ⟨rfl, rfl⟩
  | _, _, _, _, .yieldNot h, he => (h he).elim
  | _, _, _, _, .yieldIterator _ _, _ => ⟨rfl, rfl⟩
  | _, _, _, _, .document h, he => by
    have := silentNodes_ok h he
    exact ⟨this ▸ he, this⟩
theorem silentUntil_ok : {c : Ctx} → {ns : List Node} → {c' : Ctx} → SilentUntil P c ns c' → c.frame.err = none → c' = c
  | _, _, _, .nil, _ => rfl
  | _, _, _, .stop h, he => by cases (silent_ok h he).1
  | _, _, _, .cons h h', he => by
    have h1 := (silent_ok h he).2
    have h2 := silentUntil_ok h' rfl
    rw [h2, h1, erring_self he]
theorem silentNodes_ok : {c : Ctx} → {ns : List Node} → {c' : Ctx} → SilentNodes P c ns c' → c.frame.err = none → c' = c
  | _, _, _, .nil, _ => rfl
  | _, _, _, .cons h h', he => by
    have h1 := (silent_ok h he).2
    exact (silentNodes_ok h' (h1 ▸ he)).trans h1
theorem silentOps_ok : {c : Ctx} → {ops : List ImpOp} → {st : List Bytes} → {c' : Ctx} → SilentOps P c ops st c' →
    c.frame.err = none → c' = c
  | _, _, _, _, .nil, _ => rfl
  | _, _, _, _, .writeString h _, he => (h he).elim
  | _, _, _, _, .writeRaw h _, he => (h he).elim
  | _, _, _, _, .writeNodes h h', he => by
    have h1 := silentNodes_ok h he
    exact (silentOps_ok h' (h1 ▸ he)).trans h1
  | _, _, _, _, .start h _ _, he => (h he).elim
  | _, _, _, _, .endNone h, he => silentOps_ok h he
  | _, _, _, _, .endSome h _, he => (h he).elim
  | _, _, _, _, .endAll _ h, he => silentOps_ok h he
end

/-! The loops. -/

section
variable {rec : Render}

theorem Mum.contentLoop : (ns : List Node) → (∀ n ∈ ns, ∀ c, Mum env c (rec n) (Silent P c n)) → {c : Ctx} →
    Mum env c (contentLoop rec ns) fun _ c' => SilentContents P c ns c'
  | [], _, c => Mum.pure.iff fun _ c' => ⟨fun h => h.2 ▸ .nil, fun h => by cases h; exact ⟨rfl, rfl⟩⟩
  | n :: ns, h, c =>
    (Mum.bind (h n (.head _) c) fun e c₁ _ => .setErr_bind (Mum.contentLoop ns fun m hm => h m (.tail _ hm))).iff
      fun _ c' => ⟨fun ⟨e, c₁, h1, h2⟩ => .cons h1 h2, fun h => by cases h with | cons h1 h2 => exact ⟨_, _, h1, h2⟩⟩

theorem Mum.conditionalLoop : (ns : List Node) → (∀ n ∈ ns, ∀ c, Mum env c (rec n) (Silent P c n)) → {c : Ctx} →
    Mum env c (conditionalLoop rec ns) fun _ c' => SilentUntil P c ns c'
  | [], _, c => Mum.pure.iff fun _ c' => ⟨fun h => h.2 ▸ .nil, fun h => by cases h; exact ⟨rfl, rfl⟩⟩
  | n :: ns, h, c => by
    refine (Mum.bind (T := fun e c₁ _ c' => match e with
      | some x => c' = c₁.erring (some x)
      | none => SilentUntil P (c₁.erring none) ns c') (h n (.head _) c) fun e c₁ _ => .setErr_bind ?_).iff
      fun _ c' => ⟨fun ⟨e, c₁, h1, h2⟩ => ?_, fun h => ?_⟩
    · cases e with
      | some x => exact Mum.pure.iff fun _ _ => by simp
      | none => exact Mum.conditionalLoop ns fun m hm => h m (.tail _ hm)
    · cases e with
      | some x => exact h2 ▸ .stop h1
      | none => exact .cons h1 h2
    · cases h with
      | stop h1 => exact ⟨_, _, h1, rfl⟩
      | cons h1 h2 => exact ⟨_, _, h1, h2⟩

theorem Mum.collectionLoop : (ns : List Node) → (∀ n ∈ ns, ∀ c, Mum env c (rec n) (Silent P c n)) → {c : Ctx} →
    Mum env c (collectionLoop rec ns) fun _ c' => SilentUntil P c (ns.filter fun n => !n.isAttr) c'
  | [], _, c => Mum.pure.iff fun _ c' => ⟨fun h => h.2 ▸ .nil, fun h => by cases h; exact ⟨rfl, rfl⟩⟩
  | n :: ns, h, c => by
    unfold Aitch.collectionLoop
    cases ha : n.isAttr with
    | true =>
      rw [List.filter_cons_of_neg (by simp [ha])]
      exact Mum.collectionLoop ns fun m hm => h m (.tail _ hm)
    | false =>
      rw [List.filter_cons_of_pos (by simp [ha])]
      refine (Mum.bind (T := fun e c₁ _ c' => match e with
        | some x => c' = c₁.erring (some x)
        | none => SilentUntil P (c₁.erring none) (ns.filter fun n => !n.isAttr) c') (h n (.head _) c)
          fun e c₁ _ => .setErr_bind ?_).iff fun _ c' => ⟨fun ⟨e, c₁, h1, h2⟩ => ?_, fun h => ?_⟩
      · cases e with
        | some x => exact Mum.pure.iff fun _ _ => by simp
        | none => exact Mum.collectionLoop ns fun m hm => h m (.tail _ hm)
      · cases e with
        | some x => exact h2 ▸ .stop h1
        | none => exact .cons h1 h2
      · cases h with
        | stop h1 => exact ⟨_, _, h1, rfl⟩
        | cons h1 h2 => exact ⟨_, _, h1, h2⟩

theorem Mum.documentLoop : (ns : List Node) → (∀ n ∈ ns, ∀ c, Mum env c (rec n) (Silent P c n)) → {c : Ctx} →
    Mum env c (documentLoop rec ns) fun _ c' => SilentNodes P c ns c'
  | [], _, c => Mum.pure.iff fun _ c' => ⟨fun h => h.2 ▸ .nil, fun h => by cases h; exact ⟨rfl, rfl⟩⟩
  | n :: ns, h, c =>
    (Mum.bind (h n (.head _) c) fun e c₁ _ => Mum.documentLoop ns fun m hm => h m (.tail _ hm)).iff
      fun _ c' => ⟨fun ⟨e, c₁, h1, h2⟩ => .cons h1 h2, fun h => by cases h with | cons h1 h2 => exact ⟨_, _, h1, h2⟩⟩

theorem Mum.ignoreLoop : (ns : List (Option Node)) → (∀ n, some n ∈ ns → ∀ c, Mum env c (rec n) (Silent P c n)) →
    {c : Ctx} → Mum env c (ignoreLoop rec ns) fun _ c' => SilentNodes P c (contentNodes ns) c'
  | [], _, c => Mum.pure.iff fun _ c' => ⟨fun h => h.2 ▸ .nil, fun h => by cases h; exact ⟨rfl, rfl⟩⟩
  | none :: ns, h, c => Mum.ignoreLoop ns fun m hm => h m (.tail _ hm)
  | some n :: ns, h, c => by
    unfold Aitch.ignoreLoop
    cases ha : n.isAttr with
    | true =>
      have : contentNodes (some n :: ns) = contentNodes ns := by simp [contentNodes, ha]
      rw [this]
      exact Mum.ignoreLoop ns fun m hm => h m (.tail _ hm)
    | false =>
      have : contentNodes (some n :: ns) = n :: contentNodes ns := by simp [contentNodes, ha]
      rw [this]
      exact (Mum.bind (h n (.head _) c) fun e c₁ _ => Mum.ignoreLoop ns fun m hm => h m (.tail _ hm)).iff
        fun _ c' => ⟨fun ⟨e, c₁, h1, h2⟩ => .cons h1 h2,
          fun h => by cases h with | cons h1 h2 => exact ⟨_, _, h1, h2⟩⟩

theorem Mum.iterNodes : (ns : List Node) → (∀ n ∈ ns, ∀ c, Mum env c (rec n) (Silent P c n)) → {c : Ctx} →
    c.frame.err = none → Mum env c (iterNodes rec ns) fun r c' => SilentAll P c ns ∧ r = none ∧ c' = c
  | [], _, c, _ => Mum.pure.iff fun _ c' => ⟨fun h => ⟨.nil, h⟩, fun h => h.2⟩
  | n :: ns, h, c, he => by
    refine (Mum.bind (T := fun _ _ r c' => SilentAll P c ns ∧ r = none ∧ c' = c) (h n (.head _) c)
      fun e c₁ h1 => ?_).iff fun r c' => ⟨fun ⟨e, c₁, h1, h2, h3⟩ => ⟨.cons ?_ h2, h3⟩, fun ⟨h, h'⟩ => ?_⟩
    · obtain ⟨rfl, rfl⟩ := silent_ok h1 he
      exact Mum.iterNodes ns (fun m hm => h m (.tail _ hm)) he
    · obtain ⟨rfl, rfl⟩ := silent_ok h1 he
      exact h1
    · cases h with
      | cons h1 h2 => exact ⟨_, _, h1, h2, h'⟩

theorem Mum.enter {child : Frame} {f : Unit → Prog β} {T : β → Ctx → Prop}
    (hf : Mum env { c with frame := child, parents := c.frame :: c.parents } (f ()) T) :
    Mum env c (Do.enter child >>= f) T := by
  intro s r s' hs he
  subst hs
  exact hf { s with frame := child, parents := s.frame :: s.parents } r s' rfl he

theorem Mum.setItem {it : Any} {d : Option MapId} {f : Unit → Prog β} {T : β → Ctx → Prop}
    (hf : Mum env { c with frame := { c.frame with cargo := it, data := d } } (f ()) T) :
    Mum env c (Do.setItem it d >>= f) T := by
  intro s r s' hs he
  subst hs
  exact hf { s with frame := { s.frame with cargo := it, data := d } } r s' rfl he

theorem Mum.leave {fr : Frame} {fs : List Frame} (h : c.parents = fr :: fs) {f : Frame → Prog β} {T : β → Ctx → Prop}
    (hf : Mum env { c with frame := fr, parents := fs } (f c.frame) T) : Mum env c (Do.leave >>= f) T := by
  intro s r s' hs he
  subst hs
  have he' : exec env (f ((Action.leave.run env s).1 : Frame)) (Action.leave.run env s).2 = some (r, s') := he
  have hr : Action.leave.run env s = (s.frame, { s with frame := fr, parents := fs }) := by
    simp only [Action.run, h]
    rfl
  rw [hr] at he'
  exact hf { s with frame := fr, parents := fs } r s' rfl he'

theorem Mum.iterItems {ns : List Node} (h : ∀ n ∈ ns, ∀ c, Mum env c (rec n) (Silent P c n)) {c : Ctx} :
    (its : List Any) → (fr : Frame) → fr.err = none →
    Mum env { c with frame := fr, parents := c.frame :: c.parents } (iterItems rec ns c.frame.data its)
      fun r c' => SilentItems P c ns its ∧ r = none ∧ ∃ fr', c' = { c with frame := fr', parents := c.frame :: c.parents }
        ∧ fr' = (its.getLast?.map fun it => (childCtx c it (itemData c.frame.data it)).frame).getD fr
  | [], fr, _ => Mum.pure.iff fun r c' =>
      ⟨fun ⟨h1, h2⟩ => ⟨.nil, h1, _, h2, rfl⟩, fun ⟨_, h1, _, h2, h3⟩ => ⟨h1, by rw [h2, h3]; rfl⟩⟩
  | it :: its, fr, he => by
    refine .setItem ?_
    have hfr : ({ fr with cargo := it, data := itemData c.frame.data it } : Frame) =
        { err := none, data := itemData c.frame.data it, cargo := it } := by rw [← he]
    have hc : ({ c with frame := { fr with cargo := it, data := itemData c.frame.data it }, parents := c.frame :: c.parents } : Ctx)
        = childCtx c it (itemData c.frame.data it) := by rw [hfr]; rfl
    refine (?_ : Mum env ({ c with frame := { fr with cargo := it, data := itemData c.frame.data it }, parents := c.frame :: c.parents } : Ctx) _ _)
    rw [hc]
    refine (Mum.bind (T := fun _ _ r c' => SilentItems P c ns its ∧ r = none ∧
        ∃ fr', c' = { c with frame := fr', parents := c.frame :: c.parents } ∧
          fr' = (its.getLast?.map fun it => (childCtx c it (itemData c.frame.data it)).frame).getD
            (childCtx c it (itemData c.frame.data it)).frame)
      (Mum.iterNodes ns h rfl) fun e c₁ h1 => ?_).iff fun r c' => ?_
    · obtain ⟨_, rfl, rfl⟩ := h1
      exact Mum.iterItems h its _ rfl
    · have hl : ((it :: its).getLast?.map fun it => (childCtx c it (itemData c.frame.data it)).frame).getD fr =
          (its.getLast?.map fun it => (childCtx c it (itemData c.frame.data it)).frame).getD
            (childCtx c it (itemData c.frame.data it)).frame := by
        cases its with
        | nil => rfl
        | cons a as => rw [List.getLast?_cons_cons]; simp [List.getLast?_cons]
      rw [hl]
      constructor
      · rintro ⟨e, c₁, ⟨h1, rfl, rfl⟩, h2, h3⟩
        exact ⟨.cons h1 h2, h3⟩
      · rintro ⟨h1, h3⟩
        cases h1 with
        | cons h1 h2 => exact ⟨none, _, ⟨h1, rfl, rfl⟩, h2, h3⟩

theorem Mum.runItems (C : Computes env P) (fn : ItemSrc) :
    Mum env c (runItems fn) fun r c' => r = srcItems P c fn ∧ c' = c := by
  cases fn with
  | user f =>
    exact .act fun s hs => by subst hs; simp only [Action.run, C.items]; rfl
  | key k => exact .known .ctx .pure

theorem Mum.renderIterator (C : Computes env P) {ns : List Node}
    (h : ∀ n ∈ ns, ∀ c, Mum env c (rec n) (Silent P c n)) (fn : ItemSrc) :
    Mum env c (renderIterator rec ns fn) (Silent P c (.iterator ns fn)) := by
  refine .known .ctx ?_
  cases he : c.frame.err with
  | some x =>
    refine Mum.pure.iff fun r c' => ⟨fun h => ?_, fun h => ?_⟩
    · obtain ⟨rfl, rfl⟩ := h
      rw [← he]
      exact .iteratorNot (by simp [he])
    · cases h with
      | iteratorNot _ => exact ⟨he, rfl⟩
      | iterator h1 _ => rw [he] at h1; cases h1
  | none =>
    have key : Mum env c (do
        let items ← Aitch.runItems fn
        match items with
        | [] => return none
        | items => do
          let c ← Do.ctx
          Do.enter { err := c.frame.err, data := none, cargo := .nil }
          let e ← Aitch.iterItems rec ns c.frame.data items
          let _ ← Do.leave
          match e with
          | some e => do
            Do.setErr (some e)
            return some e
          | none => return none) fun r c' => SilentItems P c ns (srcItems P c fn) ∧ r = none ∧ c' = c := by
      refine .known (.runItems C fn) ?_
      cases hi : srcItems P c fn with
      | nil => exact Mum.pure.iff fun r c' => ⟨fun h => ⟨.nil, h⟩, fun h => h.2⟩
      | cons it its =>
        refine .known .ctx (.enter ?_)
        refine (Mum.bind (T := fun _ _ r c' => r = none ∧ c' = c) (Mum.iterItems (c := c) h (it :: its) ⟨c.frame.err, none, .nil⟩ he) fun e c₁ h1 => ?_).iff
          fun r c' => ?_
        · obtain ⟨_, rfl, fr', rfl, _⟩ := h1
          exact .leave rfl Mum.pure
        · constructor
          · rintro ⟨e, c₁, h1, h2⟩
            exact ⟨h1.1, h2⟩
          · rintro ⟨h1, h2⟩
            exact ⟨none, _, ⟨h1, rfl, _, rfl, rfl⟩, h2⟩
    refine key.iff fun r c' => ⟨fun h => ?_, fun h => ?_⟩
    · obtain ⟨h1, rfl, rfl⟩ := h
      exact .iterator he h1
    · cases h with
      | iteratorNot h1 => exact (h1 he).elim
      | iterator _ h2 => exact ⟨h2, rfl, rfl⟩

theorem Mum.runYield {ns : List Node} (h : ∀ n ∈ ns, ∀ c, Mum env c (rec n) (Silent P c n)) {c : Ctx}
    (he : c.frame.err = none) : (its : List Any) → (fr : Frame) → fr.err = none →
    MumIf env c (runYield rec ns (yieldsOf its) fr) (SilentYields P c ns fr.data its)
  | [], fr, _ => MumIf.pure.iff ⟨fun _ => .nil, fun _ => trivial⟩
  | it :: its, fr, hf => by
    refine .enter (.setItem ?_)
    have hc : ({ c with frame := { fr with cargo := it, data := itemData fr.data it }, parents := c.frame :: c.parents } : Ctx)
        = childCtx c it (itemData fr.data it) := by
      have : ({ fr with cargo := it, data := itemData fr.data it } : Frame) =
        { err := none, data := itemData fr.data it, cargo := it } := by rw [← hf]
      rw [this]; rfl
    refine (?_ : Mum env ({ c with frame := { fr with cargo := it, data := itemData fr.data it }, parents := c.frame :: c.parents } : Ctx) _ _)
    rw [hc]
    refine (Mum.bind (T := fun _ _ _ c' => SilentYields P c ns (itemData fr.data it) its ∧ c' = c)
      (Mum.iterNodes ns h rfl) fun e c₁ h1 => ?_).iff fun r c' => ?_
    · obtain ⟨_, rfl, rfl⟩ := h1
      refine .leave rfl ?_
      refine .known (a := ()) (Mum.pure) (.look fun s => ?_)
      exact Mum.runYield h he its _ rfl
    · constructor
      · rintro ⟨e, c₁, ⟨h1, rfl, rfl⟩, h2, h3⟩
        exact ⟨.cons h1 h2, h3⟩
      · rintro ⟨h1, h3⟩
        cases h1 with
        | cons h1 h2 => exact ⟨none, _, ⟨h1, rfl, rfl⟩, h2, h3⟩

theorem Mum.renderYield (C : Computes env P) {ns : List Node}
    (h : ∀ n ∈ ns, ∀ c, Mum env c (rec n) (Silent P c n)) (f : FnId) :
    Mum env c (renderYield rec ns f) (Silent P c (.yieldIterator ns f)) := by
  refine .known .ctx ?_
  cases he : c.frame.err with
  | some x =>
    refine Mum.pure.iff fun r c' => ⟨fun h => ?_, fun h => ?_⟩
    · obtain ⟨rfl, rfl⟩ := h
      rw [← he]
      exact .yieldNot (by simp [he])
    · cases h with
      | yieldNot _ => exact ⟨he, rfl⟩
      | yieldIterator h1 _ => rw [he] at h1; cases h1
  | none =>
    have hy : Mum env c (Do.yields f) fun r c' => r = yieldsOf (P.yields f c) ∧ c' = c := by
      exact .act fun s hs => by simp [Action.run, C.yields, hs]
    refine (Mum.known hy (MumIf.bind (Mum.runYield h he (P.yields f c) ⟨none, none, .nil⟩ rfl) fun _ => .retErr)).iff
      fun r c' => ⟨fun h => ?_, fun h => ?_⟩
    · obtain ⟨h1, rfl, rfl⟩ := h
      rw [he]
      exact .yieldIterator he h1
    · cases h with
      | yieldNot h1 => exact (h1 he).elim
      | yieldIterator _ h2 => exact ⟨h2, he.symm, rfl⟩

theorem Mum.runImp : (ops : List ImpOp) →
    (∀ ns n, .writeNodes ns ∈ ops → some n ∈ ns → ∀ c, Mum env c (rec n) (Silent P c n)) → {c : Ctx} → {st : List Bytes} →
    Mum env c (runImp rec (impOf ops) st) fun r c' => r = none ∧ SilentOps P c ops st c'
  | [], _, c, st => Mum.pure.iff fun r c' =>
      ⟨fun h => ⟨h.1, h.2 ▸ .nil⟩, fun ⟨h1, h2⟩ => by cases h2; exact ⟨h1, rfl⟩⟩
  | op :: ops, h, c, st => by
    have ih : ∀ {c : Ctx} {st : List Bytes}, Mum env c (do
        let s ← Do.look
        Aitch.runImp rec ((fun _ => impOf ops) s) st) fun r c' => r = none ∧ SilentOps P c ops st c' :=
      .look fun _ => Mum.runImp ops fun ns n hn => h ns n (.tail _ hn)
    have one : ∀ {m : Prog Unit} {p : Prop} {st' : List Bytes}, MumIf env c m p →
        Mum env c ((m >>= fun _ => (Pure.pure st' : Prog (List Bytes))) >>= fun st => do
          let s ← Do.look
          Aitch.runImp rec ((fun _ => impOf ops) s) st) fun r c' => p ∧ r = none ∧ SilentOps P c ops st' c' := by
      intro m p st' hm
      refine (Mum.bind (T := fun _ _ r c' => r = none ∧ SilentOps P c ops st' c')
        (MumIf.bind hm fun _ => Mum.pure (a := st')) fun a c₁ h1 => ?_).iff fun r c' => ?_
      · obtain ⟨_, rfl, rfl⟩ := h1
        exact ih
      · exact ⟨fun ⟨_, _, h1, h2⟩ => ⟨h1.1, h2⟩, fun ⟨h1, h2⟩ => ⟨st', c, ⟨h1, rfl, rfl⟩, h2⟩⟩
    cases op with
    | writeString d =>
      refine (one (.ctxWrite _)).iff fun r c' => ⟨fun ⟨h1, h2, h3⟩ => ⟨h2, .writeString h1 h3⟩, fun ⟨h1, h2⟩ => ?_⟩
      cases h2 with | writeString h2 h3 => exact ⟨h2, h1, h3⟩
    | writeRaw d =>
      refine (one (.ctxWrite _)).iff fun r c' => ⟨fun ⟨h1, h2, h3⟩ => ⟨h2, .writeRaw h1 h3⟩, fun ⟨h1, h2⟩ => ?_⟩
      cases h2 with | writeRaw h2 h3 => exact ⟨h2, h1, h3⟩
    | writeNodes ns =>
      refine (Mum.bind (T := fun st' c₁ r c' => r = none ∧ SilentOps P c₁ ops st' c')
        (Mum.bind (T := fun _ c₁ a c₂ => a = st ∧ c₂ = c₁) (Mum.ignoreLoop ns (h ns · (.head _))) fun _ c₁ _ => .pure)
          fun a c₁ h1 => ih).iff fun r c' => ?_
      constructor
      · rintro ⟨a, c₁, ⟨_, c₂, h1, rfl, rfl⟩, h2, h3⟩
        exact ⟨h2, .writeNodes h1 h3⟩
      · rintro ⟨h1, h2⟩
        cases h2 with
        | writeNodes h2 h3 => exact ⟨_, _, ⟨(), _, h2, rfl, rfl⟩, h1, h3⟩
    | start n isVoid attrs =>
      refine (one (.startTag P n attrs)).iff fun r c' =>
        ⟨fun ⟨h1, h2, h3⟩ => ⟨h2, .start h1.1 h1.2 h3⟩, fun ⟨h1, h2⟩ => ?_⟩
      cases h2 with | start h2 h3 h4 => exact ⟨⟨h2, h3⟩, h1, h4⟩
    | «end» =>
      cases st with
      | nil =>
        refine (Mum.known (a := ([] : List Bytes)) Mum.pure ih).iff fun r c' =>
          ⟨fun ⟨h2, h3⟩ => ⟨h2, .endNone h3⟩, fun ⟨h1, h2⟩ => ?_⟩
        cases h2 with | endNone h3 => exact ⟨h1, h3⟩
      | cons n st =>
        refine (one (.renderEndTag n)).iff fun r c' => ⟨fun ⟨h1, h2, h3⟩ => ⟨h2, .endSome h1 h3⟩, fun ⟨h1, h2⟩ => ?_⟩
        cases h2 with | endSome h2 h3 => exact ⟨h2, h1, h3⟩
    | endAll =>
      refine (one (.endAll st)).iff fun r c' => ⟨fun ⟨h1, h2, h3⟩ => ⟨h2, .endAll h1 h3⟩, fun ⟨h1, h2⟩ => ?_⟩
      cases h2 with | endAll h2 h3 => exact ⟨h2, h1, h3⟩

end

theorem wfAll_mem' : {ns : List Node} → WFAll ns → ∀ n ∈ ns, WF n
  | _ :: _, h, _, .head _ => h.1
  | _ :: _, h, n, .tail _ hn => wfAll_mem' h.2 n hn

/-- What a node does without a call of the writer. -/
theorem Mum.renderProg (C : Computes env P) (I : OnlyCalls env P) (F : WFFns P) : (fuel : Nat) → (n : Node) → WF n →
    (c : Ctx) → Mum env c (renderProg fuel n) (Silent P c n)
  | 0, _, _, _ => .stuck
  | fuel + 1, n, hn, c => by
    have ih := fun n hn c => Mum.renderProg C I F fuel n hn c
    have all : ∀ {ns : List Node}, WFAll ns → ∀ n ∈ ns, ∀ c, Mum env c (Aitch.renderProg fuel n) (Silent P c n) :=
      fun h n hm => ih n (wfAll_mem' h n hm)
    cases n with
    | element h cs =>
      refine (MumIf.bind (.renderStartTag C hn.1) fun _ => Mum.bind (Mum.contentLoop cs (all hn.2)) fun _ c₁ _ =>
        MumIf.bind (.renderEndTag _) fun _ => .retErr).iff fun r c' => ?_
      constructor
      · rintro ⟨⟨h1, h2⟩, _, c₁, h3, h4, rfl, rfl⟩
        exact .element h1 h2 h3 h4
      · intro h
        cases h with
        | element h1 h2 h3 h4 => exact ⟨⟨h1, h2⟩, (), _, h3, h4, rfl, rfl⟩
    | voidElement h =>
      refine (MumIf.bind (.renderStartTag C hn) fun _ => .retErr).iff fun r c' => ?_
      constructor
      · rintro ⟨⟨h1, h2⟩, rfl, rfl⟩
        exact .voidElement h1 h2
      · intro h
        cases h with
        | voidElement h1 h2 => exact ⟨⟨h1, h2⟩, rfl, rfl⟩
    | attr a =>
      refine (MumIf.bind (.renderAttr a) fun _ => .retErr).iff fun r c' => ?_
      constructor
      · rintro ⟨⟨h1, h2⟩, rfl, rfl⟩
        exact .attr h1 (by simpa [hasValues_iff] using h2)
      · intro h
        cases h with
        | attr h1 h2 => exact ⟨⟨h1, by simpa [hasValues_iff] using h2⟩, rfl, rfl⟩
    | text vs =>
      refine (MumIf.bind (.renderValues vs) fun _ => .retErr).iff fun r c' => ?_
      constructor
      · rintro ⟨rfl, rfl, rfl⟩
        exact .text
      · intro h
        cases h with
        | text => exact ⟨rfl, rfl, rfl⟩
    | fragment vs =>
      refine (MumIf.bind (.renderValues vs) fun _ => .retErr).iff fun r c' => ?_
      constructor
      · rintro ⟨rfl, rfl, rfl⟩
        exact .fragment
      · intro h
        cases h with
        | fragment => exact ⟨rfl, rfl, rfl⟩
    | comment vs =>
      refine (MumIf.bind (.ctxWrite _) fun _ => MumIf.bind (.renderValues vs) fun _ => MumIf.bind (.ctxWrite _) fun _ =>
        .retErr).iff fun r c' => ?_
      constructor
      · rintro ⟨h1, rfl, _, rfl, rfl⟩
        exact .comment h1
      · intro h
        cases h with
        | comment h1 => exact ⟨h1, rfl, h1, rfl, rfl⟩
    | pi name vs =>
      refine (MumIf.bind (.ctxWrite _) fun _ => MumIf.bind (.ctxWrite _) fun _ => MumIf.bind (.ctxWrite _) fun _ =>
        MumIf.bind (.renderValues vs) fun _ => MumIf.bind (.ctxWrite _) fun _ => .retErr).iff fun r c' => ?_
      constructor
      · rintro ⟨h1, _, _, rfl, _, rfl, rfl⟩
        exact .pi h1
      · intro h
        cases h with
        | pi h1 => exact ⟨h1, h1, h1, rfl, h1, rfl, rfl⟩
    | collection ns =>
      refine (Mum.bind (Mum.collectionLoop ns (all hn)) fun _ c₁ _ => .retErr).iff fun r c' => ?_
      constructor
      · rintro ⟨_, c₁, h1, rfl, rfl⟩
        exact .collection h1
      · intro h
        cases h with
        | collection h1 => exact ⟨(), _, h1, rfl, rfl⟩
    | conditional ns as fn =>
      refine .known (.runCond C fn) ?_
      cases hb : holds P c fn with
      | false =>
        refine (MumIf.bind MumIf.pure fun _ => .retErr).iff fun r c' => ?_
        constructor
        · rintro ⟨_, rfl, rfl⟩
          exact .conditionalOff hb
        · intro h
          cases h with
          | conditionalOff _ => exact ⟨trivial, rfl, rfl⟩
          | conditionalOn h1 _ => rw [hb] at h1; cases h1
      | true =>
        refine (Mum.bind (Mum.conditionalLoop ns (all hn)) fun _ c₁ _ => .retErr).iff fun r c' => ?_
        constructor
        · rintro ⟨_, c₁, h1, rfl, rfl⟩
          exact .conditionalOn hb h1
        · intro h
          cases h with
          | conditionalOff h1 => rw [hb] at h1; cases h1
          | conditionalOn _ h1 => exact ⟨(), _, h1, rfl, rfl⟩
    | collector f =>
      have hy : Mum env c (Do.collect f) fun r c' => r = P.collect f c ∧ c' = c := by
        exact .act fun s hs => by subst hs; simp only [Action.run, C.collect]; rfl
      refine (Mum.known hy (Mum.bind (Mum.ignoreLoop _ fun n hm => ih n (F.collect f c n hm)) fun _ c₁ _ => .retErr)).iff
        fun r c' => ?_
      constructor
      · rintro ⟨_, c₁, h1, rfl, rfl⟩
        exact .collector h1
      · intro h
        cases h with
        | collector h1 => exact ⟨(), _, h1, rfl, rfl⟩
    | imperative f =>
      cases f with
      | none =>
        refine Mum.pure.iff fun r c' => ⟨?_, fun h => ?_⟩
        · rintro ⟨rfl, rfl⟩
          exact .imperativeNil
        · cases h with
          | imperativeNil => exact ⟨rfl, rfl⟩
      | some f =>
        have hy : Mum env c (Do.imp f) fun r c' => r = impOf (P.imp f c) ∧ c' = c := by
          exact .act fun s hs => by simp [Action.run, I f s, hs]
        refine (Mum.known hy (Mum.runImp _ fun ns n h1 h2 => ih n (F.imp f c ns n h1 h2))).iff fun r c' => ?_
        constructor
        · rintro ⟨rfl, h1⟩
          exact .imperative h1
        · intro h
          cases h with
          | imperative h1 => exact ⟨rfl, h1⟩
    | iterator ns fn => exact .renderIterator C (all hn) fn
    | yieldIterator ns f => exact .renderYield C (all hn) f
    | document p cs =>
      have hp : ∀ n ∈ p.toList ++ cs, WF n := by
        intro n hm
        cases p with
        | none => exact wfAll_mem' hn n hm
        | some p =>
          rcases List.mem_cons.1 hm with rfl | hm
          · exact hn.1
          · exact wfAll_mem' hn.2 n hm
      refine (Mum.bind (Mum.documentLoop _ fun n hm => ih n (hp n hm)) fun _ c₁ _ => .retErr).iff fun r c' => ?_
      constructor
      · rintro ⟨_, c₁, h1, rfl, rfl⟩
        exact .document h1
      · intro h
        cases h with
        | document h1 => exact ⟨(), _, h1, rfl, rfl⟩

/-! Contexts with an error. -/

theorem erring_erring (c : Ctx) (e e' : Option Err) : (c.erring e).erring e' = c.erring e' := rfl

/-- The context is as before, or its error is cleared. -/
def KeptOrCleared (c c' : Ctx) : Prop := c' = c ∨ c' = c.erring none

theorem KeptOrCleared.trans {a b c : Ctx} (h : KeptOrCleared a b) (h' : KeptOrCleared b c) : KeptOrCleared a c := by
  rcases h with rfl | rfl
  · exact h'
  · rcases h' with rfl | rfl
    · exact .inr rfl
    · exact .inr rfl

theorem KeptOrCleared.err {c c' : Ctx} (h : KeptOrCleared c c') : c'.frame.err = c.frame.err ∨ c'.frame.err = none := by
  rcases h with rfl | rfl
  · exact .inl rfl
  · exact .inr rfl

theorem KeptOrCleared.set {c c' : Ctx} {e : Option Err} (h : KeptOrCleared c c') (he : e = c.frame.err ∨ e = none) :
    KeptOrCleared c (c'.erring e) := by
  have : c'.erring e = c.erring e := by rcases h with rfl | rfl <;> rfl
  rw [this]
  rcases he with rfl | rfl
  · exact .inl rfl
  · exact .inr rfl

mutual
theorem silent_kept : {c : Ctx} → {n : Node} → {e : Option Err} → {c' : Ctx} → Silent P c n e c' →
    (e = c.frame.err ∨ e = none) ∧ KeptOrCleared c c'
  | _, _, _, _, .element _ _ h _ => let k := silentContents_kept h; ⟨k.err, k⟩
  | _, _, _, _, .voidElement _ _ => ⟨.inl rfl, .inl rfl⟩
  | _, _, _, _, .attr _ _ => ⟨.inl rfl, .inl rfl⟩
  | _, _, _, _, .text => ⟨.inl rfl, .inl rfl⟩
  | _, _, _, _, .fragment => ⟨.inl rfl, .inl rfl⟩
  | _, _, _, _, .comment _ => ⟨.inl rfl, .inl rfl⟩
  | _, _, _, _, .pi _ => ⟨.inl rfl, .inl rfl⟩
  | _, _, _, _, .collection h => let k := silentUntil_kept h; ⟨k.err, k⟩
  | _, _, _, _, .conditionalOn _ h => let k := silentUntil_kept h; ⟨k.err, k⟩
  | _, _, _, _, .conditionalOff _ => ⟨.inl rfl, .inl rfl⟩
  | _, _, _, _, .collector h => let k := silentNodes_kept h; ⟨k.err, k⟩
  | _, _, _, _, .imperativeNil => ⟨.inr rfl, .inl rfl⟩
  | _, _, _, _, .imperative h => ⟨.inr rfl, silentOps_kept h⟩
  | _, _, _, _, .iteratorNot _ => ⟨.inl rfl, .inl rfl⟩
  | _, _, _, _, .iterator _ _ => ⟨.inr rfl, .inl rfl⟩
  | _, _, _, _, .yieldNot _ => ⟨.inl rfl, .inl rfl⟩
  | _, _, _, _, .yieldIterator _ _ => ⟨.inr rfl, .inl rfl⟩
  | _, _, _, _, .document h => let k := silentNodes_kept h; ⟨k.err, k⟩
theorem silentContents_kept : {c : Ctx} → {ns : List Node} → {c' : Ctx} → SilentContents P c ns c' → KeptOrCleared c c'
  | _, _, _, .nil => .inl rfl
  | _, _, _, .cons h h' => ((silent_kept h).2.set (silent_kept h).1).trans (silentContents_kept h')
theorem silentUntil_kept : {c : Ctx} → {ns : List Node} → {c' : Ctx} → SilentUntil P c ns c' → KeptOrCleared c c'
  | _, _, _, .nil => .inl rfl
  | _, _, _, .stop h => (silent_kept h).2.set (silent_kept h).1
  | _, _, _, .cons h h' => ((silent_kept h).2.set (silent_kept h).1).trans (silentUntil_kept h')
theorem silentNodes_kept : {c : Ctx} → {ns : List Node} → {c' : Ctx} → SilentNodes P c ns c' → KeptOrCleared c c'
  | _, _, _, .nil => .inl rfl
  | _, _, _, .cons h h' => (silent_kept h).2.trans (silentNodes_kept h')
theorem silentOps_kept : {c : Ctx} → {ops : List ImpOp} → {st : List Bytes} → {c' : Ctx} → SilentOps P c ops st c' →
    KeptOrCleared c c'
  | _, _, _, _, .nil => .inl rfl
  | _, _, _, _, .writeString _ h => silentOps_kept h
  | _, _, _, _, .writeRaw _ h => silentOps_kept h
  | _, _, _, _, .writeNodes h h' => (silentNodes_kept h).trans (silentOps_kept h')
  | _, _, _, _, .start _ _ h => silentOps_kept h
  | _, _, _, _, .endNone h => silentOps_kept h
  | _, _, _, _, .endSome _ h => silentOps_kept h
  | _, _, _, _, .endAll _ h => silentOps_kept h
end

end

end Aitch
