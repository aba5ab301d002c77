import Verif.Proofs.StreamExchange
import Verif.Proofs.StreamTemplate
import Verif.Props.Component
import Verif.Props.Stream
/-
C108: exchanging nodes for each other when user functions write and render nodes.
-/
namespace Aitch.Props
open Spec Spec.Stream Aitch.Stream

/-! ### C108 — nodes that behave the same can be exchanged anywhere, also in what user functions render -/

section
variable {env₁ env₂ : Env} {B₁ B₂ : Bodies} {n₁ n₂ m₁ m₂ : Node}

theorem exchanged_like {apart : Prop} (i₁ : n₁.isAttr = false) (i₂ : n₂.isAttr = false) (sp : Splits apart n₁ n₂)
    (a b : Node) (h : Exchanged apart n₁ n₂ a b) : Like n₁ n₂ a b := by
  rcases h with rfl | h
  · exact .refl _
  · exact swap_like i₁ i₂ sp h

/-- Take a template and user functions, and put `n₂` in any number of places of `n₁`: in the template, in the nodes that
functions render, and in the nodes that they supply.  If `n₁` and `n₂` behave the same in the new program, then whatever
the old template does, the new one does: the same calls of the writer, the same effects, the same error. -/
theorem C108_exchange (i₁ : Inert n₁) (i₂ : Inert n₂) (W : AlikeFns (Exchanged False n₁ n₂) env₁ B₁ env₂ B₂)
    (hs : SameEnds env₂ B₂ n₁ n₂) (h : Swap False n₁ n₂ m₁ m₂) {s s' : St} {e : Option Err}
    (he : Spec.Stream.Ends env₁ B₁ m₁ s e s') : Spec.Stream.Ends env₂ B₂ m₂ s e s' :=
  ends_like W (exchanged_like i₁.1 i₂.1 (splits_inert i₁ i₂)) (i₁.1.trans i₂.1.symm) (fun s e s' => (hs s e s').1)
    (swap_like i₁.1 i₂.1 (splits_inert i₁ i₂) h) he

/-- ... and so it is for nodes that bring the same attributes, in templates where no two conditionals share a slot. -/
theorem C108_exchange_apart (i₁ : n₁.isAttr = false) (i₂ : n₂.isAttr = false) (hd : declared [] n₁ = declared [] n₂)
    (W : AlikeFns (Exchanged True n₁ n₂) env₁ B₁ env₂ B₂) (hs : SameEnds env₂ B₂ n₁ n₂) (h : Swap True n₁ n₂ m₁ m₂)
    {s s' : St} {e : Option Err} (he : Spec.Stream.Ends env₁ B₁ m₁ s e s') : Spec.Stream.Ends env₂ B₂ m₂ s e s' :=
  ends_like W (exchanged_like i₁ i₂ (splits_apart i₁ i₂ hd)) (i₁.trans i₂.symm) (fun s e s' => (hs s e s').1)
    (swap_like i₁ i₂ (splits_apart i₁ i₂ hd) h) he

/-- The new template does nothing else if the old one ends. -/
theorem C108_agree (i₁ : Inert n₁) (i₂ : Inert n₂) (W : AlikeFns (Exchanged False n₁ n₂) env₁ B₁ env₂ B₂)
    (hs : SameEnds env₂ B₂ n₁ n₂) (h : Swap False n₁ n₂ m₁ m₂) {s s₁ s₂ : St} {e₁ e₂ : Option Err}
    (h₁ : Spec.Stream.Ends env₁ B₁ m₁ s e₁ s₁) (h₂ : Spec.Stream.Ends env₂ B₂ m₂ s e₂ s₂) : e₁ = e₂ ∧ s₁ = s₂ :=
  C100_determined (C108_exchange i₁ i₂ W hs h h₁) h₂

/-- If `n₁` and `n₂` behave the same in both programs, then either both templates end, in the same state and with the same
result, or neither does. -/
theorem C108_both (i₁ : Inert n₁) (i₂ : Inert n₂) (W : AlikeFns (Exchanged False n₁ n₂) env₁ B₁ env₂ B₂)
    (hs₁ : SameEnds env₁ B₁ n₁ n₂) (hs₂ : SameEnds env₂ B₂ n₁ n₂) (h : Swap False n₁ n₂ m₁ m₂) (s : St) (e : Option Err)
    (s' : St) : Spec.Stream.Ends env₁ B₁ m₁ s e s' ↔ Spec.Stream.Ends env₂ B₂ m₂ s e s' :=
  ⟨C108_exchange i₁ i₂ W hs₂ h, ends_like (alikeFns_symm W)
    (fun a b hab => (exchanged_like i₁.1 i₂.1 (splits_inert i₁ i₂) b a hab).symm) (i₂.1.trans i₁.1.symm)
    (fun s e s' => (hs₁ s e s').2) (swap_like i₁.1 i₂.1 (splits_inert i₁ i₂) h).symm⟩

/-- With the same functions: nodes that behave the same may be exchanged anywhere in a template. -/
theorem C108_anywhere {env : Env} {B : Bodies} (i₁ : Inert n₁) (i₂ : Inert n₂) (hs : SameEnds env B n₁ n₂)
    (h : Swap False n₁ n₂ m₁ m₂) : SameEnds env B m₁ m₂ :=
  C108_both i₁ i₂ (alikeFns_refl (fun _ => .inl rfl) env B) hs hs h

/-- The same for `html/template` templates with nodes in them: `Execute` does the same in the new program. -/
theorem C108_template (i₁ : Inert n₁) (i₂ : Inert n₂) (W : AlikeFns (Exchanged False n₁ n₂) env₁ B₁ env₂ B₂)
    (hs : SameEnds env₂ B₂ n₁ n₂) {t₁ t₂ : List Part} (h : AlikeParts (Exchanged False n₁ n₂) t₁ t₂) {data : Option MapId}
    {cargo : Any} {s s' : St} {e : Option Err} (he : Executing env₁ B₁ t₁ data cargo s e s') :
    Executing env₂ B₂ t₂ data cargo s e s' :=
  executing_iff.2 (parts_like W (exchanged_like i₁.1 i₂.1 (splits_inert i₁ i₂)) (i₁.1.trans i₂.1.symm) i₁.1
    (fun s e s' => (hs s e s').1) h (executing_iff.1 he))

end

/-- Rendering a component (a node of the user's own type) that delegates to a node is rendering that node, also when user
functions write and render. -/
theorem C108_component {env : Env} {B : Bodies} {f : FnId} {g : St → Node} (h : Delegates env f g) (s : St) (e : Option Err)
    (s' : St) : Spec.Stream.Ends env B (component f) s e s' ↔ Spec.Stream.Ends env B (g s) s e s' := by
  have key : ∀ rr k, exec env (inlined B rr (nested B (k + 1) (component f))) s = exec env (inlined B rr (nested B k (g s))) s := by
    intro rr k
    have e1 : exec env (inlined B rr (nested B (k + 1) (component f))) s =
        exec env (inlined B rr (runImp (nested B k) (env.imp f s) [])) s := rfl
    rw [e1, h s]
    change exec env (inlined B rr (nested B k (g s) >>= fun e => Do.look >>= fun _ => Pure.pure e)) s = _
    rw [inlined_bind, exec_bind]
    cases exec env (inlined B rr (nested B k (g s))) s <;> rfl
  constructor
  · rintro ⟨fuel, hr⟩
    cases fuel with
    | zero => simp [renderWith, exec] at hr
    | succ fuel => exact ends_of_inlined ((key (renderWith B fuel) fuel).symm.trans hr)
  · intro hr
    obtain ⟨k, hk⟩ := inlined_of_ends hr
    exact ⟨k + 1, (key (renderWith B k) k).trans hk⟩

/-- So a component may stand for the node that it renders, anywhere in templates and in what user functions render. -/
theorem C108_stands {env₁ env₂ : Env} {B₁ B₂ : Bodies} {f : FnId} {n m₁ m₂ : Node} (h₁ : Delegates env₁ f fun _ => n)
    (h₂ : Delegates env₂ f fun _ => n) (i : Inert n) (W : AlikeFns (Exchanged False n (component f)) env₁ B₁ env₂ B₂)
    (h : Swap False n (component f) m₁ m₂) (s : St) (e : Option Err) (s' : St) :
    Spec.Stream.Ends env₁ B₁ m₁ s e s' ↔ Spec.Stream.Ends env₂ B₂ m₂ s e s' :=
  C108_both i ⟨rfl, rfl, rfl⟩ W (fun s e s' => (C108_component h₁ s e s').symm) (fun s e s' => (C108_component h₂ s e s').symm) h
    s e s'

/-! ### Cases that meet the hypotheses -/

/-- Functions that render or supply a card: the value function writes, renders the card, and returns a text; the others
render or supply it. -/
def cardBodies (card : Node) : Bodies where
  dyn := fun _ _ => .write b%"(" fun _ _ => .render card fun _ _ => .ret b%")"
  cond := fun _ _ => .render (cardPage card) fun _ _ => .ret true
  collect := fun _ _ => .ret [some card, none]
  items := fun _ _ => .ret []
  yields := fun _ _ => .render card fun _ _ => .done

theorem cardBodies_alike_of {apart : Prop} {a b : Node} (h : Swap apart a b (cardPage a) (cardPage b)) :
    AlikeFns (Exchanged apart a b) cardEnv (cardBodies a) cardEnv (cardBodies b) where
  write := rfl
  order := rfl
  dyn _ _ := .write fun _ _ => .render (.inr .here) fun _ _ => .ret rfl
  cond _ _ := .render (.inr h) fun _ _ => .ret rfl
  items _ _ := .ret rfl
  collect _ _ := .ret (.some (.inr .here) (.none .nil))
  yields _ _ := .render (.inr .here) fun _ _ => .done
  imp _ _ := alikeImp_refl (fun _ => .inl rfl) _

theorem cardBodies_alike (a b : Node) : AlikeFns (Exchanged False a b) cardEnv (cardBodies a) cardEnv (cardBodies b) :=
  cardBodies_alike_of (cardPage_swap a b)

/-- A page with the card and a text made by the value function, which renders the card. -/
def cardsPage (card : Node) : Node :=
  (NewElement b%"main" [.node card, .node (Text (fun _ => []) [.dynFunc true (some 3)])] .empty).1

theorem cardsPage_swap (a b : Node) : Swap False a b (cardsPage a) (cardsPage b) :=
  .newElement _ _ (.node .here (.node (.same (.text _ _)) .nil)) False.elim

example (s : St) (e : Option Err) (s' : St) :
    Spec.Stream.Ends cardEnv (cardBodies cardNode) (cardsPage cardNode) s e s' ↔
    Spec.Stream.Ends cardEnv (cardBodies (component 7)) (cardsPage (component 7)) s e s' :=
  C108_stands card_delegates card_delegates ⟨rfl, rfl, rfl⟩ (cardBodies_alike _ _) (cardsPage_swap _ _) s e s'

/-- Both write the same page. -/
theorem cards_end : ∃ s', Spec.Stream.Ends cardEnv (cardBodies cardNode) (cardsPage cardNode) Sample.st none s' ∧
    s'.out = b%"<main><b>&lt;Bob&gt;</b>(<b>&lt;Bob&gt;</b>)</main>" :=
  ⟨_, ⟨5, rfl⟩, by rfl⟩

example : ∃ s', Spec.Stream.Ends cardEnv (cardBodies (component 7)) (cardsPage (component 7)) Sample.st none s' ∧
    s'.out = b%"<main><b>&lt;Bob&gt;</b>(<b>&lt;Bob&gt;</b>)</main>" := by
  obtain ⟨s', h, ho⟩ := cards_end
  exact ⟨s', C108_exchange ⟨rfl, rfl, rfl⟩ ⟨rfl, rfl, rfl⟩ (cardBodies_alike _ _)
    (fun s e s' => (C108_component card_delegates s e s').symm) (cardsPage_swap _ _) h, ho⟩

example : SameEnds cardEnv (cardBodies cardNode) (cardsPage (component 7)) (cardsPage cardNode) :=
  C108_anywhere ⟨rfl, rfl, rfl⟩ ⟨rfl, rfl, rfl⟩ (C108_component card_delegates) (cardsPage_swap _ _)

/-- A template with the page in it. -/
example {s s' : St} {e : Option Err} {data : Option MapId} {cargo : Any}
    (h : Executing cardEnv (cardBodies cardNode) [.text b%"<body>", .call (cardsPage cardNode) .text] data cargo s e s') :
    Executing cardEnv (cardBodies (component 7)) [.text b%"<body>", .call (cardsPage (component 7)) .text] data cargo s e s' :=
  C108_template ⟨rfl, rfl, rfl⟩ ⟨rfl, rfl, rfl⟩ (cardBodies_alike _ _)
    (fun s e s' => (C108_component card_delegates s e s').symm) (.text (.call (.inr (cardsPage_swap _ _)) .nil)) h

/-- An attribute and the card. -/
def shownCard (card : Node) : Node := Collection [some (.attr (.bool b%"hidden")), some card]

theorem shownCard_same (B : Bodies) : SameEnds cardEnv B (shownCard cardNode) (shownCard (component 7)) := fun s e s' =>
  (C108_anywhere (m₁ := shownCard (component 7)) (m₂ := shownCard cardNode) ⟨rfl, rfl, rfl⟩ ⟨rfl, rfl, rfl⟩
    (C108_component card_delegates) (.collection (.some (.same (.newBooleanAttribute _)) (.some .here .nil))) s e s').symm

/-- Both bring the attribute to the element that they are put in. -/
example {s s' : St} {e : Option Err}
    (h : Spec.Stream.Ends cardEnv (cardBodies (shownCard cardNode)) (NewElement b%"p" [.node (shownCard cardNode)] .empty).1
      s e s') :
    Spec.Stream.Ends cardEnv (cardBodies (shownCard (component 7))) (NewElement b%"p" [.node (shownCard (component 7))] .empty).1
      s e s' := by
  have hp : Swap True (shownCard cardNode) (shownCard (component 7)) (cardPage (shownCard cardNode))
      (cardPage (shownCard (component 7))) :=
    .newElement _ _ (.same (by intro n h; cases h) (.node .here (.node (.collection (.some .here (.some (.same (.text _ _)) .nil)))
      .nil))) fun _ => by simp [Apart, nodesIn, SeparateAll, Separate, shownCard, Collection, component, cardNode, NewElement, Text]
  have hq : Swap True (shownCard cardNode) (shownCard (component 7)) (NewElement b%"p" [.node (shownCard cardNode)] .empty).1
      (NewElement b%"p" [.node (shownCard (component 7))] .empty).1 := .newElement _ _ (.node .here .nil) fun _ => by
    simp [Apart, nodesIn, SeparateAll, Separate, shownCard, Collection, component, cardNode, NewElement]
  exact C108_exchange_apart (n₁ := shownCard cardNode) (n₂ := shownCard (component 7)) rfl rfl rfl (cardBodies_alike_of hp) (shownCard_same _) hq h

/-- The card's program, but component number 7 renders a given node. -/
def loopEnv (n : Node) : Env := { Sample.env with imp := fun _ _ => .render n fun e _ => .ret e }

/-- That the nodes behave the same in the new program is needed: a component behaves as the card that it renders, but if it
is put in the place of the card in its own method, then it never ends. -/
theorem C108_needed (B : Bodies) :
    SameEnds (loopEnv cardNode) B cardNode (component 7) ∧
    AlikeFns (Exchanged False cardNode (component 7)) (loopEnv cardNode) B (loopEnv (component 7)) B ∧
    (∃ s', Spec.Stream.Ends (loopEnv cardNode) B cardNode Sample.st none s') ∧
    ∀ s e s', ¬ Spec.Stream.Ends (loopEnv (component 7)) B (component 7) s e s' := by
  refine ⟨fun s e s' => (C108_component (f := 7) (g := fun _ => cardNode) (fun _ => rfl) s e s').symm, ?_, ⟨_, 3, rfl⟩, ?_⟩
  · exact { alikeFns_refl (fun _ => .inl rfl) (loopEnv cardNode) B with imp := fun _ _ => .render (.inr .here) fun _ _ => .ret }
  · intro s e s' h
    obtain ⟨k, h'⟩ := inlined_of_ends h
    clear h
    generalize renderWith B k = rr at h'
    revert h'
    intro h
    induction k generalizing e s' with
    | zero => simp [nested, inlined, exec] at h
    | succ k ih =>
      change exec _ (inlined B rr (nested B k (component 7) >>= fun e => Do.look >>= fun _ => Pure.pure e)) s = _ at h
      rw [inlined_bind, exec_bind] at h
      cases h1 : exec (loopEnv (component 7)) (inlined B rr (nested B k (component 7))) s with
      | none => rw [h1] at h; cases h
      | some x => exact ih x.1 x.2 h1

end Aitch.Props
