import Verif.Spec.StreamFinite
import Verif.Proofs.Ends
import Verif.Proofs.StreamDoes
import Verif.Proofs.Uniform
/-
Rendering ends, when user functions write and render.
-/
namespace Aitch.Stream
open Aitch Spec Spec.Stream Props

section
variable {q : Action → Prop}

mutual
theorem valueUses_fns : (v : Value) → (∀ f ∈ valueFns v, q (.dyn f)) → ValueUses q v
  | .mk _ (some (.user f)) _, h => h f (.head _)
  | .mk _ (some (.key _)) _, _ => trivial
  | .mk _ (some .cargo) _, _ => trivial
  | .mk _ none cs, h => valuesUse_fns cs h
theorem valuesUse_fns : (vs : List Value) → (∀ f ∈ valuesFns vs, q (.dyn f)) → ValuesUse q vs
  | [], _ => trivial
  | v :: vs, h => ⟨valueUses_fns v fun f hf => h f (List.mem_append.2 (.inl hf)),
      valuesUse_fns vs fun f hf => h f (List.mem_append.2 (.inr hf))⟩
end

end

section
variable {env : Env} {B : Bodies} {D : Nat → FnId → Prop}

/-- With large enough bounds, `M` ends. -/
def Tot {α : Type} (env : Env) (B : Bodies) (D : Nat → FnId → Prop) (M : Nat → Prog α) (P : α → Prop) : Prop :=
  ∀ s, HeapIn D s.dl → ∃ a s' f, P a ∧ HeapIn D s'.dl ∧
    ∀ g g', f ≤ g → f ≤ g' → exec env (inlined B (renderWith B g) (M g')) s = some (a, s')

theorem Tot.bind {α β : Type} {M : Nat → Prog α} {P : α → Prop} {K : α → Nat → Prog β} {Q : β → Prop}
    (h : Tot env B D M P) (k : ∀ a, P a → Tot env B D (K a) Q) : Tot env B D (fun g => M g >>= fun a => K a g) Q := by
  intro s hs
  obtain ⟨a, s₁, f, ha, hs₁, h⟩ := h s hs
  obtain ⟨b, s₂, f', hb, hs₂, h'⟩ := k a ha s₁ hs₁
  refine ⟨b, s₂, max f f', hb, hs₂, fun g g' hg hg' => ?_⟩
  rw [inlined_bind, exec_bind, h g g' (by omega) (by omega)]
  exact h' g g' (by omega) (by omega)

theorem Tot.ret {α : Type} (a : α) : Tot env B D (fun _ => (Pure.pure a : Prog α)) (fun _ => True) :=
  fun s hs => ⟨a, s, 0, trivial, hs, fun _ _ _ _ => rfl⟩

/-- The body ends. -/
def BodyEnds {α : Type} (env : Env) (B : Bodies) (D : Nat → FnId → Prop) (P : α → Prop) (b : FnProg α) : Prop :=
  ∀ s, HeapIn D s.dl → ∃ a s' f, P a ∧ HeapIn D s'.dl ∧ ∀ g, f ≤ g → exec env (b.run (renderWith B g)) s = some (a, s')

/-- `Render` of a node ends. -/
abbrev NodeEnds (env : Env) (B : Bodies) (D : Nat → FnId → Prop) (n : Node) : Prop :=
  Tot env B D (fun g => nested B g n) (fun _ => True)

theorem NodeEnds.run {n : Node} (h : NodeEnds env B D n) (s : St) (hs : HeapIn D s.dl) :
    ∃ e s' f, HeapIn D s'.dl ∧ ∀ g, f ≤ g → exec env (renderWith B g n) s = some (e, s') := by
  obtain ⟨e, s', f, -, hs', h⟩ := h s hs
  refine ⟨e, s', f + 1, hs', fun g hg => ?_⟩
  obtain ⟨g, rfl⟩ : ∃ g', g = g' + 1 := ⟨g - 1, by omega⟩
  exact h g (g + 1) (by omega) (by omega)

theorem body_ends {α : Type} {P : α → Prop} : (b : FnProg α) → (∀ n, MayRender b n → NodeEnds env B D n) →
    (∀ a, MayReturn b a → P a) → (∀ u, MayChange b u → ∀ t, HeapIn D t.dl → HeapIn D (u t).dl) → BodyEnds env B D P b
  | .ret a, _, hp, _ => fun s hs => ⟨a, s, 0, hp a .now, hs, fun _ _ => rfl⟩
  | .user u k, hn, hp, hu => fun s hs =>
    body_ends (k _) (fun n h => hn n (.user h)) (fun a h => hp a (.user h)) (fun v h => hu v (.user h))
      ((Action.user u).run env s).2 (hu u .now s hs)
  | .write d k, hn, hp, hu => fun s hs =>
    body_ends (k _ _) (fun n h => hn n (.write h)) (fun a h => hp a (.write h)) (fun v h => hu v (.write h)) _ hs
  | .render n k, hn, hp, hu => fun s hs => by
    obtain ⟨e, s₁, f, hs₁, h⟩ := (hn n .now).run s hs
    obtain ⟨a, s₂, f', ha, hs₂, h'⟩ := body_ends (k e s₁) (fun n h => hn n (.rendered h)) (fun a h => hp a (.rendered h))
      (fun v h => hu v (.rendered h)) s₁ hs₁
    refine ⟨a, s₂, max f f', ha, hs₂, fun g hg => ?_⟩
    simp only [FnProg.run, exec_bind]
    rw [h g (by omega)]
    exact h' g (by omega)

/-- The effects of the methods that render values, attributes and tags; the functions called end. -/
def Fine (env : Env) (B : Bodies) (D : Nat → FnId → Prop) : Action → Prop
  | .dyn f => ∀ s, BodyEnds env B D (fun _ => True) (B.dyn f s)
  | .cond f => ∀ s, BodyEnds env B D (fun _ => True) (B.cond f s)
  | .items f => ∀ s, BodyEnds env B D (fun _ => True) (B.items f s)
  | .collect _ => False
  | .yields _ => False
  | .imp _ => False
  | .user _ => False
  | _ => True

abbrev inHeap (D : Nat → FnId → Prop) (c : Ctx) : Prop := HeapIn D c.dl

theorem fn_ends {α β : Type} {P : α → Prop} {body : St → FnProg α} (hb : ∀ s, BodyEnds env B D P (body s))
    {K : α → Prog β} (hk : ∀ a, P a → ∀ s, HeapIn D s.dl → ∃ b s' f, HeapIn D s'.dl ∧
      ∀ g, f ≤ g → exec env (inlined B (renderWith B g) (K a)) s = some (b, s')) (s : St) (hs : HeapIn D s.dl) :
    ∃ b s' f, HeapIn D s'.dl ∧ ∀ g, f ≤ g →
      exec env (do let s ← Do.look; let r ← (body s).run (renderWith B g); inlined B (renderWith B g) (K r)) s = some (b, s') := by
  obtain ⟨a, s₁, f, ha, hs₁, h⟩ := hb s s hs
  obtain ⟨b, s₂, f', hs₂, h'⟩ := hk a ha s₁ hs₁
  refine ⟨b, s₂, max f f', hs₂, fun g hg => ?_⟩
  change exec env ((body s).run (renderWith B g) >>= fun r => inlined B (renderWith B g) (K r)) s = _
  rw [exec_bind, h g (by omega)]
  exact h' g (by omega)

theorem only_ends {α : Type} {m : Prog α} (h : Only (inHeap D) (Fine env B D) m) (s : St) (hs : HeapIn D s.dl) :
    ∃ b s' f, HeapIn D s'.dl ∧ ∀ g, f ≤ g → exec env (inlined B (renderWith B g) m) s = some (b, s') := by
  induction h generalizing s with
  | pure a => exact ⟨a, s, 0, hs, fun _ _ => rfl⟩
  | step a k ha _ ih =>
    cases a with
    | dyn f => exact fn_ends ha (fun r _ t ht => ih r trivial t ht) s hs
    | cond f => exact fn_ends ha (fun r _ t ht => ih r trivial t ht) s hs
    | items f => exact fn_ends ha (fun r _ t ht => ih r trivial t ht) s hs
    | collect f => exact ha.elim
    | yields f => exact ha.elim
    | imp f => exact ha.elim
    | user u => exact ha.elim
    | leave =>
      refine ih _ (respOK env _ s hs) ((Action.run env .leave s).2) ?_
      cases hp : s.parents <;> simpa [Action.run, hp] using hs
    | _ => exact ih _ (respOK env _ s hs) ((Action.run env _ s).2) hs

theorem Tot.const {α : Type} {m : Prog α} (h : Only (inHeap D) (Fine env B D) m) : Tot env B D (fun _ => m) (fun _ => True) := by
  intro s hs
  obtain ⟨b, s', f, hs', h⟩ := only_ends h s hs
  exact ⟨b, s', f, trivial, hs', fun g _ hg _ => h g hg⟩

theorem Tot.body {α : Type} {m : Prog α} {P : α → Prop} {body : St → FnProg α} (hb : ∀ s, BodyEnds env B D P (body s))
    (h : ∀ rr, inlined B rr m = (do let s ← Do.look; (body s).run rr)) : Tot env B D (fun _ => m) P := by
  intro s hs
  obtain ⟨a, s', f, ha, hs', h'⟩ := hb s s hs
  refine ⟨a, s', f, ha, hs', fun g _ hg _ => ?_⟩
  rw [h]
  exact h' g hg

/-- Delimited attributes all of whose functions end. -/
def FineAt (env : Env) (B : Bodies) (D : Nat → FnId → Prop) (r : Nat) : Prop := ∀ f, D r f → Fine env B D (.dyn f)

theorem allows_fine : Allows (inHeap D) (Fine env B D) (Fine env B D) (FineAt env B D) where
  ctx := trivial
  write _ := trivial
  setErr _ := trivial
  heap _ hc r hr := valuesUse_fns _ fun f hf => hr f (hc r f hf)
  fns _ h _ := h
  yields _ h := h
  order _ := trivial
  enter _ := trivial
  setItem _ _ := trivial
  leave := trivial
  look _ _ := trivial
  user _ _ h := h.elim

theorem attrUses_fine {a : Attr} (h : ∀ c, AttrCalls D a c → Fine env B D c) : AttrUses (Fine env B D) (FineAt env B D) a := by
  cases a with
  | plain n vs => exact valuesUse_fns _ fun f hf => h _ (.plain hf)
  | bool n => trivial
  | delim n d r => exact fun f hf => h _ (.delim hf)

theorem headUses_fine {h : ElemHead} (hc : ∀ c, HeadCalls D h c → Fine env B D c) :
    HeadUses (Fine env B D) (FineAt env B D) h := by
  refine ⟨fun a ha => attrUses_fine fun c h => hc c (.attr ha h), fun ca hca =>
    ⟨attrUses_fine fun c h => hc c (.condAttr hca h), fun k hk => ?_⟩⟩
  cases k with
  | user f => exact hc _ (.cond hca hk)
  | has _ => trivial
  | hasNot _ => trivial

/-! The loops. -/

theorem Tot.contentLoop : (ns : List Node) → (∀ n ∈ ns, NodeEnds env B D n) →
    Tot env B D (fun g => contentLoop (nested B g) ns) (fun _ => True)
  | [], _ => .ret _
  | n :: ns, h => (h n (.head _)).bind fun _ _ => (Tot.const (.act (by trivial))).bind fun _ _ =>
      Tot.contentLoop ns fun m hm => h m (.tail _ hm)

theorem Tot.conditionalLoop : (ns : List Node) → (∀ n ∈ ns, NodeEnds env B D n) →
    Tot env B D (fun g => conditionalLoop (nested B g) ns) (fun _ => True)
  | [], _ => .ret _
  | n :: ns, h => (h n (.head _)).bind fun e _ => (Tot.const (.act (by trivial))).bind fun _ _ => by
      cases e with
      | some e => exact .ret _
      | none => exact Tot.conditionalLoop ns fun m hm => h m (.tail _ hm)

theorem Tot.collectionLoop : (ns : List Node) → (∀ n ∈ ns, NodeEnds env B D n) →
    Tot env B D (fun g => collectionLoop (nested B g) ns) (fun _ => True)
  | [], _ => .ret _
  | n :: ns, h => by
    unfold Aitch.collectionLoop
    split
    · exact Tot.collectionLoop ns fun m hm => h m (.tail _ hm)
    · exact (h n (.head _)).bind fun e _ => (Tot.const (.act (by trivial))).bind fun _ _ => by
        cases e with
        | some e => exact .ret _
        | none => exact Tot.collectionLoop ns fun m hm => h m (.tail _ hm)

theorem Tot.ignoreLoop : (ns : List (Option Node)) → (∀ n, some n ∈ ns → NodeEnds env B D n) →
    Tot env B D (fun g => ignoreLoop (nested B g) ns) (fun _ => True)
  | [], _ => .ret _
  | none :: ns, h => Tot.ignoreLoop ns fun m hm => h m (.tail _ hm)
  | some n :: ns, h => by
    unfold Aitch.ignoreLoop
    split
    · exact Tot.ignoreLoop ns fun m hm => h m (.tail _ hm)
    · exact (h n (.head _)).bind fun e _ => Tot.ignoreLoop ns fun m hm => h m (.tail _ hm)

theorem Tot.documentLoop : (ns : List Node) → (∀ n ∈ ns, NodeEnds env B D n) →
    Tot env B D (fun g => documentLoop (nested B g) ns) (fun _ => True)
  | [], _ => .ret _
  | n :: ns, h => (h n (.head _)).bind fun _ _ => Tot.documentLoop ns fun m hm => h m (.tail _ hm)

theorem Tot.iterNodes : (ns : List Node) → (∀ n ∈ ns, NodeEnds env B D n) →
    Tot env B D (fun g => iterNodes (nested B g) ns) (fun _ => True)
  | [], _ => .ret _
  | n :: ns, h => (h n (.head _)).bind fun e _ => by
      cases e with
      | some e => exact .ret _
      | none => exact Tot.iterNodes ns fun m hm => h m (.tail _ hm)

theorem Tot.iterItems (ns : List Node) (h : ∀ n ∈ ns, NodeEnds env B D n) (d : Option MapId) :
    (its : List Any) → Tot env B D (fun g => iterItems (nested B g) ns d its) (fun _ => True)
  | [] => .ret _
  | it :: its => (Tot.const (.act (by trivial))).bind fun _ _ => (Tot.iterNodes ns h).bind fun e _ => by
      cases e with
      | some e => exact .ret _
      | none => exact Tot.iterItems ns h d its

theorem Tot.renderIterator (ns : List Node) (h : ∀ n ∈ ns, NodeEnds env B D n) (fn : ItemSrc)
    (hf : SrcUses (Fine env B D) fn) : Tot env B D (fun g => renderIterator (nested B g) ns fn) (fun _ => True) := by
  unfold Aitch.renderIterator
  refine (Tot.const (.act (by trivial))).bind fun c _ => ?_
  cases c.frame.err with
  | some e => exact .ret _
  | none =>
    refine (Tot.const (.runItems allows_fine fn hf)).bind fun its _ => ?_
    cases its with
    | nil => exact .ret _
    | cons it its =>
      refine (Tot.const (.act (by trivial))).bind fun c _ => (Tot.const (.act (by trivial))).bind fun _ _ =>
        (Tot.iterItems ns h _ _).bind fun e _ => (Tot.const (.act (by trivial))).bind fun _ _ => ?_
      cases e with
      | some e => exact .const (.bind (.act (by trivial)) fun _ => .ret _)
      | none => exact .ret _

/-- Code that changes memory, and then looks at it. -/
theorem Tot.user {β : Type} (u : St → St) (hu : ∀ t, HeapIn D t.dl → HeapIn D (u t).dl) {K : St → Nat → Prog β}
    (h : ∀ s, Tot env B D (K s) (fun _ => True)) : Tot env B D (fun g => Do.user u >>= fun s => K s g) (fun _ => True) := by
  intro s hs
  exact h _ ((Action.user u).run env s).2 (hu s hs)

theorem Tot.runYield (ns : List Node) (h : ∀ n ∈ ns, NodeEnds env B D n) : (b : YieldBody) →
    (∀ n, YieldMayRender b n → NodeEnds env B D n) →
    (∀ u, YieldMayChange b u → ∀ t, HeapIn D t.dl → HeapIn D (u t).dl) → (child : Frame) →
    Tot env B D (fun g => runYield (nested B g) ns b child) (fun _ => True)
  | .done, _, _, _ => .ret _
  | .user u k, hn, hu, child => Tot.user u (hu u .now) fun s =>
      Tot.runYield ns h (k s) (fun n hm => hn n (.user hm)) (fun v hv => hu v (.user hv)) child
  | .write d k, hn, hu, child => (Tot.const (.act (by trivial))).bind fun r _ => (Tot.const (.act (by trivial))).bind fun s _ =>
      Tot.runYield ns h (k r s) (fun n hm => hn n (.write hm)) (fun v hv => hu v (.write hv)) child
  | .render n k, hn, hu, child => (hn n .now).bind fun e _ => (Tot.const (.act (by trivial))).bind fun s _ =>
      Tot.runYield ns h (k e s) (fun n hm => hn n (.rendered hm)) (fun v hv => hu v (.rendered hv)) child
  | .yield it k, hn, hu, child =>
    (Tot.const (.act (by trivial))).bind fun _ _ => (Tot.const (.act (by trivial))).bind fun _ _ => (Tot.iterNodes ns h).bind fun e _ =>
      (Tot.const (.act (by trivial))).bind fun child _ => (Tot.const (by cases e; exact .ret _; exact .act trivial)).bind fun _ _ =>
      (Tot.const (.act (by trivial))).bind fun s _ =>
        Tot.runYield ns h (k s) (fun n hm => hn n (.yield hm)) (fun v hv => hu v (.yield hv)) child

/-! `Imperative`. -/

theorem uniLeaf_fine : UniLeaf Eq (inHeap D) (Fine env B D) (Fine env B D) (FineAt env B D) :=
  { allows_fine.toAllowsLeaf with
    maps := fun _ _ h => by rw [h]
    dl := fun _ _ h _ _ => by rw [h] }

theorem only_startWrite : (es : List (Bytes × Option (List Value))) → EntriesUse (Fine env B D) es →
    Only (inHeap D) (Fine env B D) (startWrite es)
  | [], _ => .ret _
  | (n, vs) :: es, h => by
    have A := (allows_fine (env := env) (B := B) (D := D)).toAllowsLeaf
    refine .bind (.ctxWrite A _) fun _ => .bind (.ctxWrite A _) fun _ => .bind ?_ fun _ =>
      only_startWrite es fun e he => h e (.tail _ he)
    cases vs with
    | none => exact .ret _
    | some vs => exact .bind (.ctxWrite A _) fun _ => .bind (.renderValues A vs (h _ (.head _) vs rfl)) fun _ => .ctxWrite A _

theorem only_startTag (n : Bytes) (attrs : List (Option Node))
    (h : ∀ a, some (.attr a) ∈ attrs → AttrUses (Fine env B D) (FineAt env B D) a) :
    Only (inHeap D) (Fine env B D) (startTag n attrs) := by
  have A := (allows_fine (env := env) (B := B) (D := D)).toAllowsLeaf
  exact .bind (.ctxWrite A _) fun _ => .bind (.ctxWrite A _) fun _ => .bindCtx A.ctx fun c hc =>
    .bind (only_startWrite _ (entriesUse_collect uniLeaf_fine hc attrs h [] (by intro e he; cases he))) fun _ => .ctxWrite A _

theorem only_endAll (l : List Bytes) : Only (inHeap D) (Fine env B D) (endAll l) := by
  induction l with
  | nil => exact .ret _
  | cons n l ih => exact .bind (.renderEndTag allows_fine.toAllowsLeaf n) fun _ => ih

/-- The node ends, and so do the functions that write its attributes. -/
def Sound (env : Env) (B : Bodies) (D : Nat → FnId → Prop) (n : Node) : Prop :=
  NodeEnds env B D n ∧ ∀ a, n = .attr a → ∀ c, AttrCalls D a c → Fine env B D c

theorem Tot.runOp (op : ImpOp) (stack : List Bytes)
    (h : ∀ n, (∃ ns, op = .writeNodes ns ∧ some n ∈ ns) ∨ (∃ m v as, op = .start m v as ∧ some n ∈ as) → Sound env B D n) :
    Tot env B D (fun g => runOp (nested B g) op stack) (fun _ => True) := by
  have A := (allows_fine (env := env) (B := B) (D := D)).toAllowsLeaf
  cases op with
  | writeString d => exact .const (.bind (.ctxWrite A _) fun _ => .ret _)
  | writeRaw d => exact .const (.bind (.ctxWrite A _) fun _ => .ret _)
  | writeNodes ns => exact (Tot.ignoreLoop ns fun n hn => (h n (.inl ⟨ns, rfl, hn⟩)).1).bind fun _ _ => .ret _
  | start n v as =>
    exact .const (.bind (only_startTag n as fun a ha =>
      attrUses_fine ((h _ (.inr ⟨n, v, as, rfl, ha⟩)).2 a rfl)) fun _ => .ret _)
  | «end» =>
    cases stack with
    | nil => exact .ret _
    | cons n stack => exact .const (.bind (.renderEndTag A n) fun _ => .ret _)
  | endAll => exact .const (.bind (only_endAll _) fun _ => .ret _)

theorem Tot.runImp : (b : ImpProg) → (∀ n, ImpMayRender b n → Sound env B D n) →
    (∀ u, ImpMayChange b u → ∀ t, HeapIn D t.dl → HeapIn D (u t).dl) → (stack : List Bytes) →
    Tot env B D (fun g => runImp (nested B g) b stack) (fun _ => True)
  | .ret e, _, _, _ => .ret _
  | .user u k, hn, hu, stack => Tot.user u (hu u .now) fun s =>
      Tot.runImp (k s) (fun n hm => hn n (.user hm)) (fun v hv => hu v (.user hv)) stack
  | .call op k, hn, hu, stack => (Tot.runOp op stack fun n hm => by
      rcases hm with ⟨ns, rfl, hm⟩ | ⟨m, v, as, rfl, hm⟩
      · exact hn n (.nodes hm)
      · exact hn n (.start hm)).bind fun stack _ => (Tot.const (.act (by trivial))).bind fun s _ =>
      Tot.runImp (k s) (fun n hm => hn n (.call hm)) (fun v hv => hu v (.call hv)) stack
  | .render n k, hn, hu, stack => (hn n .now).1.bind fun e _ => (Tot.const (.act (by trivial))).bind fun s _ =>
      Tot.runImp (k e s) (fun n hm => hn n (.rendered hm)) (fun v hv => hu v (.rendered hv)) stack
  | .write d k, hn, hu, stack => (Tot.const (.act (by trivial))).bind fun r _ => (Tot.const (.act (by trivial))).bind fun s _ =>
      Tot.runImp (k r s) (fun n hm => hn n (.write hm)) (fun v hv => hu v (.write hv)) stack

/-! `Render`. -/

/-- A shift of the bound. -/
theorem Tot.step {n : Node} (h : Tot env B D (fun g => step B (nested B g) n) (fun _ => True)) : NodeEnds env B D n := by
  intro s hs
  obtain ⟨r, s', f, -, hs', h⟩ := h s hs
  refine ⟨r, s', f + 1, trivial, hs', fun g g' hg hg' => ?_⟩
  obtain ⟨g', rfl⟩ : ∃ g, g' = g + 1 := ⟨g' - 1, by omega⟩
  exact h g g' (by omega) (by omega)

theorem sound_of_founded (S : Steady env B D) {n : Node} (h : Founded env B D n) : Sound env B D n := by
  induction h with
  | intro n _ ih =>
    have A := allows_fine (env := env) (B := B) (D := D)
    have L := A.toAllowsLeaf
    have hret : Tot env B D (fun _ => retErr) (fun _ => True) := .const (.retErr L)
    have dyn : ∀ f, Calls D n (.dyn f) → Fine env B D (.dyn f) := fun f hc s =>
      body_ends _ (fun m hm => (ih m (.given hc (.dyn hm))).1) (fun _ _ => trivial) (S.dyn f s)
    have cond : ∀ f, Calls D n (.cond f) → Fine env B D (.cond f) := fun f hc s =>
      body_ends _ (fun m hm => (ih m (.given hc (.cond hm))).1) (fun _ _ => trivial) (S.cond f s)
    have attr : ∀ a, (∀ c, AttrCalls D a c → Calls D n c) → ∀ c, AttrCalls D a c → Fine env B D c := by
      intro a ha c hc
      have := ha c hc
      cases hc <;> exact dyn _ this
    have head : ∀ h, (∀ c, HeadCalls D h c → Calls D n c) → HeadUses (Fine env B D) (FineAt env B D) h := by
      intro h hh
      refine headUses_fine fun c hc => ?_
      cases hc with
      | attr ha hc => exact attr _ (fun c hc => hh c (.attr ha hc)) c hc
      | condAttr ha hc => exact attr _ (fun c hc => hh c (.condAttr ha hc)) c hc
      | cond ha hk => exact cond _ (hh _ (.cond ha hk))
    refine ⟨?_, fun a e => by subst e; exact attr a fun c hc => .attr hc⟩
    cases n with
    | element h cs =>
      exact .step ((Tot.const (.renderStartTag A h (head h fun c hc => .element hc))).bind fun _ _ =>
        (Tot.contentLoop cs fun m hm => (ih m (.within (.element hm))).1).bind fun _ _ =>
        (Tot.const (.renderEndTag L _)).bind fun _ _ => hret)
    | voidElement h =>
      exact .step ((Tot.const (.renderStartTag A h (head h fun c hc => .voidElement hc))).bind fun _ _ => hret)
    | attr a =>
      exact .step ((Tot.const (.renderAttr L a (attrUses_fine (attr a fun c hc => .attr hc)))).bind fun _ _ => hret)
    | text vs =>
      exact .step ((Tot.const (.renderValues L vs (valuesUse_fns vs fun f hf => dyn f (.text hf)))).bind fun _ _ => hret)
    | comment vs =>
      exact .step ((Tot.const (.ctxWrite L _)).bind fun _ _ =>
        (Tot.const (.renderValues L vs (valuesUse_fns vs fun f hf => dyn f (.comment hf)))).bind fun _ _ =>
        (Tot.const (.ctxWrite L _)).bind fun _ _ => hret)
    | fragment vs =>
      exact .step ((Tot.const (.renderValues L vs (valuesUse_fns vs fun f hf => dyn f (.fragment hf)))).bind fun _ _ => hret)
    | pi name vs =>
      exact .step ((Tot.const (.ctxWrite L _)).bind fun _ _ => (Tot.const (.ctxWrite L _)).bind fun _ _ =>
        (Tot.const (.ctxWrite L _)).bind fun _ _ =>
        (Tot.const (.renderValues L vs (valuesUse_fns vs fun f hf => dyn f (.pi hf)))).bind fun _ _ =>
        (Tot.const (.ctxWrite L _)).bind fun _ _ => hret)
    | collection ns =>
      exact .step ((Tot.collectionLoop ns fun m hm => (ih m (.within (.collection hm))).1).bind fun _ _ => hret)
    | conditional ns as k =>
      have hk : CondUses (Fine env B D) k := by
        cases k with
        | user f => exact cond f .conditional
        | has _ => trivial
        | hasNot _ => trivial
      refine .step ((Tot.const (.runCond L k hk)).bind fun b _ => Tot.bind (P := fun _ => True) ?_ fun _ _ => hret)
      cases b with
      | true => exact Tot.conditionalLoop ns fun m hm => (ih m (.within (.conditional hm))).1
      | false => exact .ret _
    | collector f =>
      refine .step ((Tot.body (m := Do.collect f) (P := fun ns => ∀ m, some m ∈ ns → NodeEnds env B D m) (body := B.collect f) (fun s =>
        body_ends _ (fun m hm => (ih m (.given .collector (.collect hm))).1)
          (fun ns hr m hm => (ih m (.given .collector (.collected hr hm))).1) (S.collect f s))
        fun _ => congrArg (Do.look >>= ·) (funext fun _ => bind_pure' _)).bind fun ns hns =>
        (Tot.ignoreLoop ns hns).bind fun _ _ => hret)
    | imperative f =>
      cases f with
      | none => exact .step (.ret _)
      | some f =>
        refine .step fun s hs => ?_
        exact Tot.runImp (env.imp f s) (fun m hm => ih m (.given .imperative (.imp hm))) (S.imp f s) [] s hs
    | iterator ns src =>
      have hk : SrcUses (Fine env B D) src := by
        cases src with
        | user f => exact fun s => body_ends _ (fun m hm => (ih m (.given .iterator (.items hm))).1) (fun _ _ => trivial) (S.items f s)
        | key _ => trivial
      exact .step (Tot.renderIterator ns (fun m hm => (ih m (.within (.iterator hm))).1) src hk)
    | yieldIterator ns f =>
      refine .step (n := .yieldIterator ns f) ((Tot.const (.act (by trivial))).bind fun c _ => ?_)
      cases c.frame.err with
      | some e => exact .ret _
      | none =>
        intro s hs
        exact (Tot.runYield ns (fun m hm => (ih m (.within (.yieldIterator hm))).1) (B.yields f s)
          (fun m hm => (ih m (.given .yieldIterator (.yields hm))).1) (S.yields f s) _).bind (fun _ _ => hret) s hs
    | document p cs =>
      refine .step ((Tot.documentLoop _ fun m hm => ?_).bind fun _ _ => hret)
      rcases List.mem_append.1 hm with hm | hm
      · cases Option.mem_toList.1 hm
        exact (ih m (.within .preamble)).1
      · exact (ih m (.within (.document hm))).1

theorem ends_of_founded (S : Steady env B D) {n : Node} (h : Founded env B D n) {s : St} (hs : HeapIn D s.dl) :
    ∃ e s', Ends env B n s e s' := by
  obtain ⟨e, s', f, -, h⟩ := (sound_of_founded S h).1.run s hs
  exact ⟨e, s', f, h f (Nat.le_refl f)⟩

end

end Aitch.Stream
