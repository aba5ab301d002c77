import Verif.Spec.Does
import Verif.Proofs.OrderComplete
import Verif.Proofs.Swap
import Verif.Proofs.Laws
/-
Rearranging templates whose functions have side effects.
-/
namespace Aitch
open Spec

theorem does_iff {E : Effects} (K : Calm E) {n : Node} (b : Built n) {c c' : Ctx} (he : c.frame.err = none) {w : Bytes} :
    Does E n c w c' ↔ Plays E n c w c' := by
  constructor
  · rintro ⟨env, H, A, s, s', rfl, ⟨fuel, hr⟩, ho, rfl⟩
    obtain ⟨w', ho', -, -, h3⟩ := recPlays ⟨H, A, K⟩ fuel n s.toCtx b.wf he s none s' rfl hr
    rw [ho'] at ho
    rwa [← List.append_cancel_left ho]
  · intro h
    obtain ⟨env, L, fuel, s, s', hs, hr, ho, hc⟩ := run_of_plays K b.wf he h
    exact ⟨env, L.healthy, L.acts, s, s', hs, ⟨fuel, hr⟩, ho, hc⟩

section
variable {F : Effects}

mutual
theorem steps_node (K : Calm F) : {n : Node} → {c : Ctx} → {w : Bytes} → {c' : Ctx} → Plays F n c w c' → Step c c'
  | _, _, _, _, .element hl hw => (step_tag K hl).trans (steps_nodes K hw)
  | _, _, _, _, .voidElement hl => step_tag K hl
  | _, _, _, _, .attr => step_attr K _ _
  | _, _, _, _, .text => step_values K _ _
  | _, _, _, _, .comment => step_values K _ _
  | _, _, _, _, .fragment => step_values K _ _
  | _, _, _, _, .pi => step_values K _ _
  | _, _, _, _, .collection hw => steps_nodes K hw
  | _, _, _, _, .conditionalOn _ hw => (step_cond K _ _).trans (steps_nodes K hw)
  | _, _, _, _, .conditionalOff _ => step_cond K _ _
  | _, _, _, _, @Plays.collector _ f c _ _ hw => (step_within (K.collect f) c).trans (steps_nodes K hw)
  | _, _, _, _, .imperativeNil => Step.refl _
  | _, _, _, _, @Plays.imperative _ f c _ _ hw => steps_doing K hw (K.imp f c)
  | _, _, _, _, .iterator hw =>
    (step_items K _ _).trans ⟨fun h => by rw [(steps_items hw).1]; exact h, (steps_items hw).2⟩
  | _, _, _, _, @Plays.yieldIterator _ _ f c _ _ hw => steps_yields K hw (K.yields f c)
  | _, _, _, _, .document hw => steps_nodes K hw
theorem steps_nodes (K : Calm F) : {ns : List Node} → {c : Ctx} → {w : Bytes} → {c' : Ctx} → PlaysAll F ns c w c' → Step c c'
  | _, _, _, _, .nil => Step.refl _
  | _, _, _, _, .cons h hs => (steps_node K h).trans (steps_nodes K hs)
theorem steps_items : {ns : List Node} → {d : Option MapId} → {its : List Any} → {c : Ctx} → {fr : Frame} →
    {w : Bytes} → {c' : Ctx} → {fr' : Frame} → PlaysItems F ns d its c fr w c' fr' →
    c'.frame = c.frame ∧ c'.parents = c.parents
  | _, _, _, _, _, _, _, _, .nil => ⟨rfl, rfl⟩
  | _, _, _, _, _, _, _, _, .cons _ hs => by
    have h := steps_items hs
    exact h
theorem steps_yields (K : Calm F) : {ns : List Node} → {y : Yielding} → {c : Ctx} → {fr : Frame} → {w : Bytes} → {c' : Ctx} →
    PlaysYields F ns y c fr w c' → y.Calm → Step c c'
  | _, _, _, _, _, _, .done, _ => Step.refl _
  | _, _, _, _, _, _, .yield _ hs, hy => by
    have h := steps_yields K hs (hy _)
    exact Step.trans ⟨id, rfl⟩ h
  | _, _, _, _, _, _, .act h, hy => (step_within hy.1 _).trans (steps_yields K h (hy.2 _))
  | _, _, _, _, _, _, .write h, hy => steps_yields K h (hy _)
theorem steps_doing (K : Calm F) : {p : Doing} → {stack : List Bytes} → {c : Ctx} → {w : Bytes} → {c' : Ctx} →
    PlaysDoing F p stack c w c' → p.Calm → Step c c'
  | _, _, _, _, _, .done, _ => Step.refl _
  | _, _, _, _, _, .act h, hp => (step_within hp.1 _).trans (steps_doing K h (hp.2 _))
  | _, _, _, _, _, .writeString h, hp => steps_doing K h (hp.2 _)
  | _, _, _, _, _, .writeRaw h, hp => steps_doing K h (hp.2 _)
  | _, _, _, _, _, .writeNodes h hs, hp => (steps_nodes K h).trans (steps_doing K hs (hp.2 _))
  | _, _, _, _, _, .startVoid h, hp => (step_start K _ _ _).trans (steps_doing K h (hp.2 _))
  | _, _, _, _, _, .start h, hp => (step_start K _ _ _).trans (steps_doing K h (hp.2 _))
  | _, _, _, _, _, .endNone h, hp => steps_doing K h (hp.2 _)
  | _, _, _, _, _, .endSome h, hp => steps_doing K h (hp.2 _)
  | _, _, _, _, _, .endAll h, hp => steps_doing K h (hp.2 _)
end

theorem playsItems_like (K : Calm F) {as bs : List Node}
    (h : ∀ c w c', c.frame.err = none → PlaysAll F as c w c' → PlaysAll F bs c w c') :
    {d : Option MapId} → {its : List Any} → {c : Ctx} → {fr : Frame} → {w : Bytes} → {c' : Ctx} → {fr' : Frame} →
    fr.err = none → PlaysItems F as d its c fr w c' fr' → PlaysItems F bs d its c fr w c' fr'
  | _, _, _, _, _, _, _, _, .nil => .nil
  | _, _, _, _, _, _, _, he, .cons ho hs =>
    .cons (h _ _ _ he ho) (playsItems_like K h ((steps_nodes K ho).1 he) hs)

theorem playsYields_like (K : Calm F) {as bs : List Node}
    (h : ∀ c w c', c.frame.err = none → PlaysAll F as c w c' → PlaysAll F bs c w c') :
    {y : Yielding} → {c : Ctx} → {fr : Frame} → {w : Bytes} → {c' : Ctx} →
    fr.err = none → PlaysYields F as y c fr w c' → PlaysYields F bs y c fr w c'
  | _, _, _, _, _, _, .done => .done
  | _, _, _, _, _, he, .yield ho hs =>
    .yield (h _ _ _ he ho) (playsYields_like K h ((steps_nodes K ho).1 he) hs)
  | _, _, _, _, _, he, .act hs => .act (playsYields_like K h he hs)
  | _, _, _, _, _, he, .write hs => .write (playsYields_like K h he hs)

section
variable {n₁ n₂ : Node} (K : Calm F) (o₁ : n₁.isAttr = false) (o₂ : n₂.isAttr = false)
  (hw : ∀ c w c', c.frame.err = none → Plays F n₁ c w c' → Plays F n₂ c w c')
include K o₁ o₂ hw

set_option linter.unusedSectionVars false in
mutual
theorem plays_like : {a b : Node} → Like n₁ n₂ a b → (c : Ctx) → (w : Bytes) → (c' : Ctx) → c.frame.err = none →
    Plays F a c w c' → Plays F b c w c'
  | _, _, .here, c, w, c', he, h => hw c w c' he h
  | _, _, .refl _, _, _, _, _, h => h
  | _, _, .element hd hs, c, w, c', he, h => by
    have ih := playsAll_like hs
    cases h with
    | element ht ho => exact .element ht ((ih _ _ _ ((step_tag K ht).1 he)).1 ho)
  | _, _, .collection hs, c, w, c', he, h => by
    have ih := playsAll_like hs
    cases h with
    | collection ho => exact .collection ((ih c _ _ he).2 ho)
  | _, _, .conditional xs fn hs, c, w, c', he, h => by
    have ih := playsAll_like hs
    cases h with
    | conditionalOn hf ho => exact .conditionalOn hf ((ih _ _ _ ((step_cond K fn c).1 he)).1 ho)
    | conditionalOff hf => exact .conditionalOff hf
  | _, _, .iterator fn hs, c, w, c', he, h => by
    have ih := playsAll_like hs
    cases h with
    | iterator ho => exact .iterator (playsItems_like K (fun c w c' he => (ih c w c' he).1) rfl ho)
  | _, _, .yieldIterator f hs, c, w, c', he, h => by
    have ih := playsAll_like hs
    cases h with
    | yieldIterator ho => exact .yieldIterator (playsYields_like K (fun c w c' he => (ih c w c' he).1) rfl ho)
  | _, _, .document p hs, c, w, c', he, h => by
    have ih := playsAll_like hs
    cases h with
    | document ho =>
      cases p with
      | none => exact .document ((ih c _ _ he).1 ho)
      | some p =>
        cases ho with
        | cons h1 h2 => exact .document (.cons h1 ((ih _ _ _ ((steps_node K h1).1 he)).1 h2))
theorem playsAll_like : {as bs : List Node} → LikeAll n₁ n₂ as bs → (c : Ctx) → (w : Bytes) → (c' : Ctx) → c.frame.err = none →
    (PlaysAll F as c w c' → PlaysAll F bs c w c') ∧
      (PlaysAll F (as.filter fun n => !n.isAttr) c w c' → PlaysAll F (bs.filter fun n => !n.isAttr) c w c')
  | _, _, .nil, _, _, _, _ => ⟨id, id⟩
  | _, _, .cons h hs, c, w, c', he => by
    have h1 := plays_like h c
    have h2 := playsAll_like hs
    refine ⟨fun ho => ?_, fun ho => ?_⟩
    · cases ho with
      | cons g1 g2 => exact .cons (h1 _ _ he g1) ((h2 _ _ _ ((steps_node K g1).1 he)).1 g2)
    · rw [List.filter_cons] at ho ⊢
      rw [← h.isAttr o₁ o₂]
      split at ho
      · next hh =>
        rw [if_pos hh]
        cases ho with
        | cons g1 g2 => exact .cons (h1 _ _ he g1) ((h2 _ _ _ ((steps_node K g1).1 he)).2 g2)
      · next hh =>
        rw [if_neg hh]
        exact (h2 _ _ _ he).2 ho
end
end

end

/-- Exchanging parts that can do the same keeps what can be done. -/
theorem swap_sameEffect {n₁ n₂ a b : Node} {apart : Prop} (b₁ : Built n₁) (b₂ : Built n₂) (o₁ : n₁.isAttr = false)
    (o₂ : n₂.isAttr = false) (hsp : Splits apart n₁ n₂) (hsp' : Splits apart n₂ n₁)
    (hs : SameEffect n₁ n₂) (h : Swap apart n₁ n₂ a b) : SameEffect a b := by
  intro E K c he w c'
  have ha := swap_built b₁ h
  have hb := swap_built b₂ h.symm
  rw [does_iff K ha he, does_iff K hb he]
  constructor
  · refine plays_like K o₁ o₂ (fun c w c' he ho => ?_) (swap_like o₁ o₂ hsp h) c w c' he
    exact (does_iff K b₂ he).1 ((hs E K c he w c').1 ((does_iff K b₁ he).2 ho))
  · refine plays_like K o₂ o₁ (fun c w c' he ho => ?_) (swap_like o₂ o₁ hsp' h.symm) c w c' he
    exact (does_iff K b₁ he).1 ((hs E K c he w c').2 ((does_iff K b₂ he).2 ho))

/-! ### What collections and iterations do -/

theorem sameEffect_of_plays {n₁ n₂ : Node} (b₁ : Built n₁) (b₂ : Built n₂)
    (h : ∀ E c w c', Plays E n₁ c w c' ↔ Plays E n₂ c w c') : SameEffect n₁ n₂ := by
  intro E K c he w c'
  rw [does_iff K b₁ he, does_iff K b₂ he]
  exact h E c w c'

section
variable {F : Effects} {c c' : Ctx} {w : Bytes}

theorem playsAll_append {ns ms : List Node} : PlaysAll F (ns ++ ms) c w c' ↔
    ∃ w₁ c1 w₂, PlaysAll F ns c w₁ c1 ∧ PlaysAll F ms c1 w₂ c' ∧ w = w₁ ++ w₂ := by
  induction ns generalizing c w with
  | nil =>
    constructor
    · intro h; exact ⟨[], c, w, .nil, h, rfl⟩
    · rintro ⟨_, _, _, h1, h2, rfl⟩; cases h1; exact h2
  | cons n ns ih =>
    constructor
    · intro h
      cases h with
      | cons h1 h2 =>
        obtain ⟨w₁, c1, w₂, h3, h4, rfl⟩ := ih.1 h2
        exact ⟨_, _, _, .cons h1 h3, h4, by simp⟩
    · rintro ⟨_, _, w₂, h1, h2, rfl⟩
      cases h1 with
      | cons h3 h4 =>
        rw [List.append_assoc]
        exact .cons h3 (ih.2 ⟨_, _, _, h4, h2, rfl⟩)

theorem playsAll_one {n : Node} : PlaysAll F [n] c w c' ↔ Plays F n c w c' := by
  constructor
  · intro h
    cases h with
    | cons h1 h2 => cases h2; simpa using h1
  · intro h
    simpa using PlaysAll.cons h .nil

theorem plays_collection {ns : List (Option Node)} :
    Plays F (Collection ns) c w c' ↔ PlaysAll F (contentNodes ns) c w c' := by
  constructor
  · intro h
    cases h with
    | collection h => exact h
  · exact .collection

theorem playsAll_collection {ns : List (Option Node)} :
    PlaysAll F (contentNodes [some (Collection ns)]) c w c' ↔ PlaysAll F (contentNodes ns) c w c' := by
  rw [contentNodes_some rfl]
  show PlaysAll F [Collection ns] c w c' ↔ _
  rw [playsAll_one, plays_collection]

theorem playsItems_congr {as bs : List Node} (h : ∀ c w c', PlaysAll F as c w c' ↔ PlaysAll F bs c w c')
    {d : Option MapId} {its : List Any} {fr fr' : Frame} :
    PlaysItems F as d its c fr w c' fr' ↔ PlaysItems F bs d its c fr w c' fr' := by
  induction its generalizing c fr w with
  | nil => constructor <;> (intro h; cases h; exact .nil)
  | cons it its ih =>
    constructor
    · intro ho
      cases ho with
      | cons h1 h2 => exact .cons ((h _ _ _).1 h1) (ih.1 h2)
    · intro ho
      cases ho with
      | cons h1 h2 => exact .cons ((h _ _ _).2 h1) (ih.2 h2)

theorem playsYields_congr {as bs : List Node} (h : ∀ c w c', PlaysAll F as c w c' ↔ PlaysAll F bs c w c')
    (y : Yielding) : {c : Ctx} → {fr : Frame} → {w : Bytes} →
    (PlaysYields F as y c fr w c' ↔ PlaysYields F bs y c fr w c') := by
  induction y with
  | done => intro c fr w; constructor <;> (intro h; cases h; exact .done)
  | yield it k ih =>
    intro c fr w
    constructor
    · intro ho
      cases ho with
      | yield h1 h2 => exact .yield ((h _ _ _).1 h1) ((ih _).1 h2)
    · intro ho
      cases ho with
      | yield h1 h2 => exact .yield ((h _ _ _).2 h1) ((ih _).2 h2)
  | write d k ih =>
    intro c fr w
    constructor
    · intro ho
      cases ho with
      | write h2 => exact .write ((ih _).1 h2)
    · intro ho
      cases ho with
      | write h2 => exact .write ((ih _).2 h2)
  | act upd k ih =>
    intro c fr w
    constructor
    · intro ho
      cases ho with
      | act h2 => exact .act ((ih _).1 h2)
    · intro ho
      cases ho with
      | act h2 => exact .act ((ih _).2 h2)

theorem plays_iterator {as bs : List Node} (h : ∀ c w c', PlaysAll F as c w c' ↔ PlaysAll F bs c w c') {fn : ItemSrc} :
    Plays F (.iterator as fn) c w c' ↔ Plays F (.iterator bs fn) c w c' := by
  constructor
  · intro ho
    cases ho with
    | iterator ho => exact .iterator ((playsItems_congr h).1 ho)
  · intro ho
    cases ho with
    | iterator ho => exact .iterator ((playsItems_congr h).2 ho)

theorem plays_yieldIterator {as bs : List Node} (h : ∀ c w c', PlaysAll F as c w c' ↔ PlaysAll F bs c w c') {f : FnId} :
    Plays F (.yieldIterator as f) c w c' ↔ Plays F (.yieldIterator bs f) c w c' := by
  constructor
  · intro ho
    cases ho with
    | yieldIterator ho => exact .yieldIterator ((playsYields_congr h _).1 ho)
  · intro ho
    cases ho with
    | yieldIterator ho => exact .yieldIterator ((playsYields_congr h _).2 ho)

theorem plays_conditional {as bs : List Node} (h : ∀ c w c', PlaysAll F as c w c' ↔ PlaysAll F bs c w c') {xs ys : List Attr}
    {fn : Cond} : Plays F (.conditional as xs fn) c w c' ↔ Plays F (.conditional bs ys fn) c w c' := by
  constructor
  · intro ho
    cases ho with
    | conditionalOn h1 ho => exact .conditionalOn h1 ((h _ _ _).1 ho)
    | conditionalOff h1 => exact .conditionalOff h1
  · intro ho
    cases ho with
    | conditionalOn h1 ho => exact .conditionalOn h1 ((h _ _ _).2 ho)
    | conditionalOff h1 => exact .conditionalOff h1

theorem playValues_append (vs ws : List Value) : playValues F (vs ++ ws) c =
    ((playValues F vs c).1 ++ (playValues F ws (playValues F vs c).2).1, (playValues F ws (playValues F vs c).2).2) := by
  induction vs generalizing c with
  | nil => simp [playValues]
  | cons v vs ih => simp [playValues, ih]

theorem plays_text {vs : List Value} :
    Plays F (.text vs) c w c' ↔ w = (playValues F vs c).1 ∧ c' = (playValues F vs c).2 :=
  ⟨fun h => by cases h; exact ⟨rfl, rfl⟩, fun ⟨h1, h2⟩ => by rw [h1, h2]; exact .text⟩

end

end Aitch
