import Verif.Spec.Ends
import Verif.Proofs.Only
import Verif.Proofs.Fuel
import Verif.Proofs.Hoare
/-
Rendering ends.
-/
namespace Aitch

open Spec

/-- A program that depends on fuel ends in every state, if there is enough fuel. -/
def Halts {α : Type} (env : Env) (m : Nat → Prog α) : Prop := ∀ s, ∃ r F, ∀ f, F ≤ f → exec env (m f) s = some r

variable {env : Env} {α β : Type}

theorem Halts.bind {m : Nat → Prog α} {k : α → Nat → Prog β} (hm : Halts env m)
    (hk : ∀ s f a s', exec env (m f) s = some (a, s') → Halts env (k a)) : Halts env fun f => m f >>= fun a => k a f := by
  intro s
  obtain ⟨⟨a, s1⟩, F, h1⟩ := hm s
  obtain ⟨r, G, h2⟩ := hk s F a s1 (h1 F (Nat.le_refl _)) s1
  refine ⟨r, max F G, fun f hf => ?_⟩
  rw [exec_bind, h1 f (by omega)]
  exact h2 f (by omega)

theorem Halts.seq {m : Nat → Prog α} {k : α → Nat → Prog β} (hm : Halts env m) (hk : ∀ a, Halts env (k a)) :
    Halts env fun f => m f >>= fun a => k a f := hm.bind fun _ _ a _ _ => hk a

abbrev anyCtx : Ctx → Prop := fun _ => True
abbrev anyAct : Action → Prop := fun _ => True
abbrev anyRef : Nat → Prop := fun _ => True

theorem Halts.const {m : Prog α} (h : Only anyCtx anyAct m) : Halts env fun _ => m := by
  intro s
  obtain ⟨r, s', h1, _⟩ := h.exec (env := env) (fun _ _ _ _ => trivial) s trivial
  exact ⟨(r, s'), 0, fun _ _ => h1⟩

theorem Halts.ret (a : α) : Halts env fun _ => (pure a : Prog α) := .const (.ret a)

mutual
theorem valueUses_any : (v : Value) → ValueUses anyAct v
  | .mk _ (some (.user _)) _ => trivial
  | .mk _ (some (.key _)) _ => trivial
  | .mk _ (some .cargo) _ => trivial
  | .mk _ none cs => valuesUse_any cs
theorem valuesUse_any : (vs : List Value) → ValuesUse anyAct vs
  | [] => trivial
  | v :: vs => ⟨valueUses_any v, valuesUse_any vs⟩
end

theorem attrUses_any (a : Attr) : AttrUses anyAct anyRef a := by
  cases a with
  | plain n vs => exact valuesUse_any vs
  | bool n => trivial
  | delim n d r => trivial

theorem condUses_any (k : Cond) : CondUses anyAct k := by cases k <;> trivial

theorem headUses_any (h : ElemHead) : HeadUses anyAct anyRef h :=
  ⟨fun a _ => attrUses_any a, fun ca _ => ⟨attrUses_any ca.att, fun k _ => condUses_any k⟩⟩

theorem allows_any : Allows anyCtx anyAct anyAct anyRef where
  ctx := trivial
  write _ := trivial
  setErr _ := trivial
  heap c _ r _ := valuesUse_any (c.dl r)
  fns _ _ _ := trivial
  yields _ _ := trivial
  order _ := trivial
  enter _ := trivial
  setItem _ _ := trivial
  leave := trivial
  look _ _ := trivial
  user _ _ _ := trivial

theorem only_act {a : Action} {f : a.Resp → α} : Only anyCtx anyAct (.step a fun r => .pure (f r)) := .act trivial

theorem startWrite_any (l : List (Bytes × Option (List Value))) : Only anyCtx anyAct (startWrite l) := by
  induction l with
  | nil => exact .ret _
  | cons a l ih =>
    obtain ⟨n, vs⟩ := a
    refine .bind (.ctxWrite allows_any.toAllowsLeaf _) fun _ => .bind (.ctxWrite allows_any.toAllowsLeaf _) fun _ => .bind ?_ fun _ => ih
    cases vs with
    | none => exact .ret _
    | some vs =>
      exact .bind (.ctxWrite allows_any.toAllowsLeaf _) fun _ => .bind (.renderValues allows_any.toAllowsLeaf vs (valuesUse_any vs))
        fun _ => .ctxWrite allows_any.toAllowsLeaf _

theorem startTag_any (n : Bytes) (as : List (Option Node)) : Only anyCtx anyAct (startTag n as) :=
  .bind (.ctxWrite allows_any.toAllowsLeaf _) fun _ => .bind (.ctxWrite allows_any.toAllowsLeaf _) fun _ => .bind only_act fun _ =>
    .bind (startWrite_any _) fun _ => .ctxWrite allows_any.toAllowsLeaf _

theorem endAll_any (l : List Bytes) : Only anyCtx anyAct (endAll l) := by
  induction l with
  | nil => exact .ret _
  | cons n l ih => exact .bind (.renderEndTag allows_any.toAllowsLeaf n) fun _ => ih

section
variable {rec : Nat → Render}

theorem Halts.contentLoop : (ns : List Node) → (∀ n ∈ ns, Halts env fun f => rec f n) →
    Halts env fun f => contentLoop (rec f) ns
  | [], _ => .ret _
  | n :: ns, h => (h n (.head _)).seq fun _ => (Halts.const only_act).seq fun _ =>
      Halts.contentLoop ns fun m hm => h m (.tail _ hm)

theorem Halts.conditionalLoop : (ns : List Node) → (∀ n ∈ ns, Halts env fun f => rec f n) →
    Halts env fun f => conditionalLoop (rec f) ns
  | [], _ => .ret _
  | n :: ns, h => (h n (.head _)).seq fun e => (Halts.const only_act).seq fun _ => by
      cases e with
      | some e => exact .ret _
      | none => exact Halts.conditionalLoop ns fun m hm => h m (.tail _ hm)

theorem Halts.collectionLoop : (ns : List Node) → (∀ n ∈ ns, Halts env fun f => rec f n) →
    Halts env fun f => collectionLoop (rec f) ns
  | [], _ => .ret _
  | n :: ns, h => by
    unfold Aitch.collectionLoop
    split
    · exact Halts.collectionLoop ns fun m hm => h m (.tail _ hm)
    · exact (h n (.head _)).seq fun e => (Halts.const only_act).seq fun _ => by
        cases e with
        | some e => exact .ret _
        | none => exact Halts.collectionLoop ns fun m hm => h m (.tail _ hm)

theorem Halts.ignoreLoop : (ns : List (Option Node)) → (∀ n, some n ∈ ns → Halts env fun f => rec f n) →
    Halts env fun f => ignoreLoop (rec f) ns
  | [], _ => .ret _
  | none :: ns, h => Halts.ignoreLoop ns fun m hm => h m (.tail _ hm)
  | some n :: ns, h => by
    unfold Aitch.ignoreLoop
    split
    · exact Halts.ignoreLoop ns fun m hm => h m (.tail _ hm)
    · exact (h n (.head _)).seq fun e => Halts.ignoreLoop ns fun m hm => h m (.tail _ hm)

theorem Halts.documentLoop : (ns : List Node) → (∀ n ∈ ns, Halts env fun f => rec f n) →
    Halts env fun f => documentLoop (rec f) ns
  | [], _ => .ret _
  | n :: ns, h => (h n (.head _)).seq fun _ => Halts.documentLoop ns fun m hm => h m (.tail _ hm)

theorem Halts.iterNodes : (ns : List Node) → (∀ n ∈ ns, Halts env fun f => rec f n) →
    Halts env fun f => iterNodes (rec f) ns
  | [], _ => .ret _
  | n :: ns, h => (h n (.head _)).seq fun e => by
      cases e with
      | some e => exact .ret _
      | none => exact Halts.iterNodes ns fun m hm => h m (.tail _ hm)

theorem Halts.iterItems (ns : List Node) (h : ∀ n ∈ ns, Halts env fun f => rec f n) (d : Option MapId) :
    (its : List Any) → Halts env fun f => iterItems (rec f) ns d its
  | [] => .ret _
  | it :: its => (Halts.const only_act).seq fun _ => (Halts.iterNodes ns h).seq fun e => by
      cases e with
      | some e => exact .ret _
      | none => exact Halts.iterItems ns h d its

theorem Halts.renderIterator (ns : List Node) (h : ∀ n ∈ ns, Halts env fun f => rec f n) (fn : ItemSrc) :
    Halts env fun f => renderIterator (rec f) ns fn := by
  unfold Aitch.renderIterator
  refine (Halts.const only_act).seq fun c => ?_
  cases c.frame.err with
  | some e => exact .ret _
  | none =>
    refine (Halts.const (.runItems allows_any fn (by cases fn <;> trivial))).seq fun its => ?_
    cases its with
    | nil => exact .ret _
    | cons it its =>
      refine (Halts.const only_act).seq fun c => (Halts.const only_act).seq fun _ => (Halts.iterItems ns h _ _).seq fun e =>
        (Halts.const only_act).seq fun _ => ?_
      cases e with
      | some e => exact .const (.bind only_act fun _ => .ret _)
      | none => exact .ret _

theorem Halts.runYield (ns : List Node) (h : ∀ n ∈ ns, Halts env fun f => rec f n) (p : YieldProg) (child : Frame) :
    Halts env fun f => runYield (rec f) ns p child := by
  induction p generalizing child with
  | done => exact .ret _
  | user upd k ih => exact (Halts.const only_act).seq fun s => ih s child
  | write d k ih => exact (Halts.const only_act).seq fun r => (Halts.const only_act).seq fun s => ih r s child
  | yield it k ih =>
    exact (Halts.const only_act).seq fun _ => (Halts.const only_act).seq fun _ => (Halts.iterNodes ns h).seq fun e =>
      (Halts.const only_act).seq fun child => (Halts.const (by cases e; exact .ret _; exact only_act)).seq fun _ =>
      (Halts.const only_act).seq fun s => ih s child

theorem Halts.runOp (op : ImpOp) (stack : List Bytes)
    (h : ∀ ns, op = .writeNodes ns → ∀ n, some n ∈ ns → Halts env fun f => rec f n) :
    Halts env fun f => runOp (rec f) op stack := by
  cases op with
  | writeString d => exact .const (.bind (.ctxWrite allows_any.toAllowsLeaf _) fun _ => .ret _)
  | writeRaw d => exact .const (.bind (.ctxWrite allows_any.toAllowsLeaf _) fun _ => .ret _)
  | writeNodes ns => exact (Halts.ignoreLoop ns (h ns rfl)).seq fun _ => .ret _
  | start n v as => exact .const (.bind (startTag_any _ _) fun _ => .ret _)
  | «end» =>
    cases stack with
    | nil => exact .ret _
    | cons n stack => exact .const (.bind (.renderEndTag allows_any.toAllowsLeaf n) fun _ => .ret _)
  | endAll => exact .const (.bind (endAll_any _) fun _ => .ret _)

theorem Halts.runImp (p : ImpProg) (stack : List Bytes) (h : ∀ n, Supplies p n → Halts env fun f => rec f n) :
    Halts env fun f => runImp (rec f) p stack := by
  induction p generalizing stack with
  | ret e => exact .ret _
  | user upd k ih => exact (Halts.const only_act).seq fun s => ih s stack fun n hn => h n (.user hn)
  | call op k ih =>
    exact (Halts.runOp op stack fun ns e n hn => h n (e ▸ .now hn)).seq fun stack => (Halts.const only_act).seq fun s =>
      ih s stack fun n hn => h n (.later hn)
  | render n k ih =>
    exact (h n .render).seq fun e => (Halts.const only_act).seq fun s => ih e s stack fun m hm => h m (.rendered hm)
  | write d k ih =>
    exact (Halts.const only_act).seq fun r => (Halts.const only_act).seq fun s => ih r s stack fun m hm => h m (.write hm)

end

/-- A shift of the fuel. -/
theorem Halts.step {n : Node} (h : Halts env fun f => renderStep (renderProg f) n) : Halts env fun f => renderProg f n := by
  intro s
  obtain ⟨r, F, h⟩ := h s
  refine ⟨r, F + 1, fun f hf => ?_⟩
  obtain ⟨g, rfl⟩ : ∃ g, f = g + 1 := ⟨f - 1, by omega⟩
  exact h g (by omega)

theorem halts_of_ends {n : Node} (h : Ends env n) : Halts env fun f => renderProg f n := by
  have hret : Only anyCtx anyAct retErr := .retErr allows_any.toAllowsLeaf
  have leaf : ∀ {n : Node}, NodeUses anyAct anyRef n → depth n ≤ 1 → Halts env fun f => renderProg f n := by
    intro n hn hd s
    have := Only.renderProg allows_any 1 n hn hd
    obtain ⟨r, s', h1, _⟩ := this.exec (env := env) (fun _ _ _ _ => trivial) s trivial
    exact ⟨(r, s'), 1, fun f hf => (Le.renderProg hf n).exec h1⟩
  induction h with
  | @element h cs _ ih =>
    exact .step ((Halts.const (.renderStartTag allows_any h (headUses_any h))).seq fun _ => (Halts.contentLoop cs ih).seq
      fun _ => .const (.bind (.renderEndTag allows_any.toAllowsLeaf _) fun _ => hret))
  | voidElement => exact leaf (headUses_any _) (Nat.le_refl _)
  | attr => exact leaf (attrUses_any _) (Nat.le_refl _)
  | text => exact leaf (valuesUse_any _) (Nat.le_refl _)
  | comment => exact leaf (valuesUse_any _) (Nat.le_refl _)
  | fragment => exact leaf (valuesUse_any _) (Nat.le_refl _)
  | pi => exact leaf (valuesUse_any _) (Nat.le_refl _)
  | @collection ns _ ih => exact .step ((Halts.collectionLoop ns ih).seq fun _ => .const hret)
  | @conditional ns as k _ ih =>
    refine .step ((Halts.const (.runCond allows_any.toAllowsLeaf k (condUses_any k))).seq fun b => Halts.seq ?_ fun _ => .const hret)
    cases b with
    | true => exact Halts.conditionalLoop ns ih
    | false => exact .ret _
  | @collector f _ ih =>
    refine .step ((Halts.const only_act).bind fun s _ ns s' he => (Halts.ignoreLoop ns fun n hn => ?_).seq fun _ => .const hret)
    cases he
    exact ih s n hn
  | noImperative => exact leaf rfl (Nat.le_refl _)
  | @imperative f _ ih =>
    refine .step ((Halts.const only_act).bind fun s _ p s' he => Halts.runImp p [] fun n hn => ?_)
    cases he
    exact ih s n hn
  | @iterator ns src _ ih => exact .step (Halts.renderIterator ns ih src)
  | @yieldIterator ns f _ ih =>
    refine .step (n := .yieldIterator ns f) ((Halts.const only_act).seq fun c => ?_)
    cases c.frame.err with
    | some e => exact .ret _
    | none => exact (Halts.const only_act).seq fun p => (Halts.runYield ns ih p _).seq fun _ => .const hret
  | @document p cs _ _ ihp ihc =>
    refine .step ((Halts.documentLoop _ fun n hn => ?_).seq fun _ => .const hret)
    rcases List.mem_append.1 hn with hn | hn
    · exact ihp n (Option.mem_toList.1 hn)
    · exact ihc n hn

theorem runs_of_ends {n : Node} (h : Ends env n) (s : St) : ∃ e s', Runs env n s e s' := by
  obtain ⟨⟨e, s'⟩, F, h⟩ := halts_of_ends h s
  exact ⟨e, s', F, h F (Nat.le_refl _)⟩

mutual
theorem ends_of_fixed : (n : Node) → Fixed n → Ends env n
  | .element _ cs, h => .element (endsAll_of_fixed cs h)
  | .voidElement _, _ => .voidElement
  | .attr _, _ => .attr
  | .text _, _ => .text
  | .comment _, _ => .comment
  | .fragment _, _ => .fragment
  | .pi _ _, _ => .pi
  | .collection ns, h => .collection (endsAll_of_fixed ns h)
  | .conditional ns _ _, h => .conditional (endsAll_of_fixed ns h)
  | .iterator ns _, h => .iterator (endsAll_of_fixed ns h)
  | .yieldIterator ns _, h => .yieldIterator (endsAll_of_fixed ns h)
  | .document none cs, h => .document (fun _ e => by cases e) (endsAll_of_fixed cs h)
  | .document (some p) cs, h => .document (fun _ e => by cases e; exact ends_of_fixed p h.1) (endsAll_of_fixed cs h.2)
  | .collector _, h => h.elim
  | .imperative f, h => by cases h; exact .noImperative
theorem endsAll_of_fixed : (ns : List Node) → FixedAll ns → ∀ n ∈ ns, Ends env n
  | [], _, _, hn => by cases hn
  | m :: ns, h, n, hn => by
    have hm := ends_of_fixed m h.1
    have hs := endsAll_of_fixed ns h.2
    rcases List.mem_cons.1 hn with rfl | hn
    · exact hm
    · exact hs n hn
end

end Aitch
