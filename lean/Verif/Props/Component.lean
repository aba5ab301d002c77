import Verif.Proofs.Component
import Verif.Spec.Sample
/-
C86: node types of the user's own.
-/
namespace Aitch.Props
open Spec

/-! ### C86 — a component stands for what it renders -/

theorem exec_component {env : Env} {f : FnId} {g : St → Node} (h : Delegates env f g) (fuel : Nat) (s : St) :
    render env (fuel + 1) (component f) s = render env fuel (g s) s := by
  have e1 : render env (fuel + 1) (component f) s = exec env (runImp (renderProg fuel) (env.imp f s) []) s := rfl
  rw [e1, h s]
  change exec env (renderProg fuel (g s) >>= fun e => Do.look >>= fun _ => Pure.pure e) s = _
  rw [exec_bind]
  unfold render
  cases exec env (renderProg fuel (g s)) s <;> rfl

/-- Rendering a component that delegates to a node is rendering that node: the same calls of the writer, the same effects,
the same error; whatever the writer and the other functions do. -/
theorem C86_component {env : Env} {f : FnId} {g : St → Node} (h : Delegates env f g) (s : St) (e : Option Err) (s' : St) :
    Runs env (component f) s e s' ↔ Runs env (g s) s e s' := by
  constructor
  · rintro ⟨fuel, hr⟩
    cases fuel with
    | zero => simp [render, renderProg, exec] at hr
    | succ fuel => exact ⟨fuel, exec_component h fuel s ▸ hr⟩
  · rintro ⟨fuel, hr⟩
    exact ⟨fuel + 1, (exec_component h fuel s).trans hr⟩

/-- Nodes that run in the same way may be exchanged for each other anywhere in a template: again both run in the same way,
whatever the writer and the functions do. -/
theorem C86_exchange {env : Env} {n₁ n₂ m₁ m₂ : Node} (i₁ : Inert n₁) (i₂ : Inert n₂) (hs : SameRuns env n₁ n₂)
    (h : Swap False n₁ n₂ m₁ m₂) : SameRuns env m₁ m₂ :=
  sameRuns_like (i₁.1.trans i₂.1.symm) hs (swap_like i₁.1 i₂.1 (splits_inert i₁ i₂) h)

/-- ... and so may nodes that bring the same attributes, in templates where no two conditionals share a slot. -/
theorem C86_exchange_apart {env : Env} {n₁ n₂ m₁ m₂ : Node} (i₁ : n₁.isAttr = false) (i₂ : n₂.isAttr = false)
    (hd : declared [] n₁ = declared [] n₂) (hs : SameRuns env n₁ n₂) (h : Swap True n₁ n₂ m₁ m₂) : SameRuns env m₁ m₂ :=
  sameRuns_like (i₁.trans i₂.symm) hs (swap_like i₁ i₂ (splits_apart i₁ i₂ hd) h)

/-- So a component may stand anywhere for the node that it renders, if that brings no attributes. -/
theorem C86_anywhere {env : Env} {f : FnId} {n m₁ m₂ : Node} (hf : Delegates env f fun _ => n) (i : Inert n)
    (h : Swap False (component f) n m₁ m₂) : SameRuns env m₁ m₂ :=
  C86_exchange ⟨rfl, rfl, rfl⟩ i (C86_component hf) h

/-- A component that uses the writer itself calls it once, with all its data, and returns what that returns: also when
`ctx.Error` is set (unlike all that goes through the context), and it does not set `ctx.Error`. -/
theorem C86_writer {env : Env} {f : FnId} {d : St → Bytes} (h : WritesItself env f d) (s : St) :
    ∃ s', Runs env (component f) s (env.write s.log (d s)).2 s' ∧ s'.toCtx = s.toCtx ∧
      s'.log = s.log ++ [⟨d s, (env.write s.log (d s)).1, (env.write s.log (d s)).2⟩] := by
  refine ⟨s.wrote (d s) (env.write s.log (d s)), ⟨1, ?_⟩, rfl, rfl⟩
  have e1 : render env 1 (component f) s = exec env (runImp (renderProg 0) (env.imp f s) []) s := rfl
  rw [e1, h s]
  rfl

/-! ### Cases that meet the hypotheses -/

/-- A card: `<b>` with the user's name. -/
def cardNode : Node := (NewElement b%"b" [.dynKey b%"name"] .empty).1

/-- The sample's functions, and a component number 7 that renders the card, and a number 8 that uses the writer. -/
def cardEnv : Env :=
  { Sample.env with
    imp := fun f s => match f with
      | 7 => .render cardNode fun e _ => .ret e
      | 8 => .write b%"<hr>" fun r _ => .ret r.2
      | f => Sample.env.imp f s }

theorem card_delegates : Delegates cardEnv 7 fun _ => cardNode := fun _ => rfl

/-- The page with the card in it. -/
def cardPage (card : Node) : Node :=
  (NewElement b%"main" [.str b%"Hi ", .node card, .node (Collection [some card, some (Text (fun _ => []) [.str b%"!"])])] .empty).1

theorem cardPage_swap (a b : Node) : Swap False a b (cardPage a) (cardPage b) :=
  .newElement _ _ (.same (by intro n h; cases h) (.node .here (.node (.collection (.some .here (.some (.same (.text _ _)) .nil)))
    .nil))) False.elim

example : SameRuns cardEnv (cardPage (component 7)) (cardPage cardNode) :=
  C86_anywhere card_delegates ⟨rfl, rfl, rfl⟩ (cardPage_swap _ _)

/-- Both write the same page. -/
example : Writes cardEnv (cardPage (component 7)) Sample.st b%"<main>Hi <b>&lt;Bob&gt;</b><b>&lt;Bob&gt;</b>!</main>" :=
  by refine ⟨_, ⟨5, rfl⟩, ?_, ?_⟩ <;> rfl

example : ∃ s', Runs cardEnv (component 8) Sample.st none s' ∧ s'.toCtx = Sample.st.toCtx ∧
    s'.log = Sample.st.log ++ [⟨b%"<hr>", 4, none⟩] :=
  C86_writer (d := fun _ => b%"<hr>") (fun _ => rfl) Sample.st

/-- A component counts among functions that only compute: as calls, that is `WriteNodes` of the card. -/
example : MakesCalls (cardEnv.imp 7 Sample.st) [.writeNodes [some cardNode]] := .render rfl fun _ => .done
example : MakesCalls (cardEnv.imp 8 Sample.st) [.writeRaw b%"<hr>"] := .write fun _ _ => .done

/-- A conditional attribute, which an element takes from its contents. -/
def shyNode : Node := (match Conditional (some 0) [some (.attr (.bool b%"hidden"))] with
  | .val n => n
  | .panic => Collection [])

/-- A component that renders it. -/
def shyEnv : Env := { Sample.env with imp := fun _ _ => .render shyNode fun e _ => .ret e }

/-- Attributes do not come through a component: the condition that the node brings none is needed. -/
theorem C86_attributes :
    Delegates shyEnv 7 (fun _ => shyNode) ∧
    Writes shyEnv (NewElement b%"p" [.node shyNode] .empty).1 Sample.st b%"<p hidden></p>" ∧
    Writes shyEnv (NewElement b%"p" [.node (component 7)] .empty).1 Sample.st b%"<p></p>" :=
  ⟨fun _ => rfl, by refine ⟨_, ⟨3, rfl⟩, ?_, ?_⟩ <;> rfl, by refine ⟨_, ⟨4, rfl⟩, ?_, ?_⟩ <;> rfl⟩

end Aitch.Props
