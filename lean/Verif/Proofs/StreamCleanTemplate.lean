import Verif.Spec.StreamCleanTemplate
import Verif.Proofs.StreamClean
/-
Templates that keep to the rules write trees.
-/
namespace Aitch.Stream
open Spec Spec.Stream Markup

variable {Q : Rules}

/-- Whatever the attributes in the tag, the page goes on properly. -/
def Continues (Q : Rules) (st : List Bytes) (name : Bytes) (v : Bytes) : Prop :=
  ∀ attrs : List (Bytes × Option Bytes), AttrsOK attrs → (∀ a ∈ attrs, a.1 ∈ Q.attributes) →
    Left Q .content st (writeTag name attrs ++ v)

/-- What may follow at a place. -/
def LeftAt (Q : Rules) : Reading → Bytes → Prop
  | .content st, w => Left Q .content st w
  | .inText st name, w => ∃ x v, w = x ++ endBytes name ++ v ∧ Q.Fits .text x ∧ Left Q .content st v
  | .inValue st name names, w => ∃ (x : Bytes) (l : List (Bytes × Option Bytes)) (v : Bytes),
      w = x ++ b%"\"" ++ l.flatMap writeAttr ++ b%">" ++ v ∧ Q.Fits .text x ∧ NeatTag Q name (names ++ l.map (·.1)) ∧
      Continues Q st name v

theorem left_textElement (N : Markup.GoodNames Q.elements Q.attributes) {st : List Bytes} {name : Bytes}
    {attrs : List (Bytes × Option Bytes)} {w : Bytes} (hn : name ∈ Q.elements) (ht : lower name ∈ textNames) (ha : AttrsOK attrs)
    (hb : ∀ a ∈ attrs, a.1 ∈ Q.attributes) (h : LeftAt Q (.inText st name) w) :
    Left Q .content st (writeTag name attrs ++ w) := by
  obtain ⟨x, v, rfl, hx, hv⟩ := h
  have := hv.pre (fits_textElement N hn ht ha hb hx)
  simpa [List.append_assoc] using this

theorem _root_.Aitch.Spec.Stream.NeatTag.ok (N : Markup.GoodNames Q.elements Q.attributes) {name : Bytes} {attrs : List (Bytes × Option Bytes)}
    (h : NeatTag Q name (attrs.map (·.1))) : AttrsOK attrs ∧ ∀ a ∈ attrs, a.1 ∈ Q.attributes := by
  have hb : ∀ a ∈ attrs, a.1 ∈ Q.attributes := fun a ha => h.attributes _ (List.mem_map_of_mem ha)
  exact ⟨attrsOK_of N hb h.distinct, hb⟩

theorem left_endValue {st : List Bytes} {name : Bytes} {names : List Bytes} {attrs : List (Bytes × Option Bytes)} {w : Bytes}
    (h : NeatTag Q name (names ++ attrs.map (·.1))) (hw : Continues Q st name w) :
    LeftAt Q (.inValue st name names) (b%"\"" ++ attrs.flatMap writeAttr ++ b%">" ++ w) :=
  ⟨[], attrs, w, rfl, fits_nil .text, h, hw⟩

theorem left_leads (N : Markup.GoodNames Q.elements Q.attributes) {r r' : Reading} {v w : Bytes} (h : Leads Q r v r')
    (hw : LeftAt Q r' w) : LeftAt Q r (v ++ w) := by
  induction h with
  | nil => exact hw
  | trees hx _ ih =>
    rw [List.append_assoc]
    exact Left.pre hx (ih hw)
  | start hn ht _ ih =>
    rw [List.append_assoc]
    exact Left.start N hn.element ht (hn.ok N).1 (hn.ok N).2 (ih hw)
  | close _ ih =>
    rw [List.append_assoc]
    exact Left.close (ih hw)
  | startText hn ht _ ih =>
    rw [List.append_assoc]
    exact left_textElement N hn.element ht (hn.ok N).1 (hn.ok N).2 (ih hw)
  | @text st name s v r _ ih =>
    obtain ⟨x, u, e, hx, hu⟩ := ih hw
    exact ⟨escaped s ++ x, u, by rw [List.append_assoc, e]; simp [List.append_assoc],
      fits_append (p := .text) ⟨s, rfl⟩ hx, hu⟩
  | closeText _ ih => exact ⟨[], _, by rw [List.append_assoc]; rfl, fits_nil .text, ih hw⟩
  | @openValue st name attrs a v r _ ih =>
    obtain ⟨x, l, u, e, ⟨s, rfl⟩, ht, hc⟩ := ih hw
    have ht : NeatTag Q name ((attrs ++ (a, some s) :: l).map (·.1)) := by simpa [List.append_assoc] using ht
    have := hc _ (ht.ok N).1 (ht.ok N).2
    have e' : (b%"<" ++ name ++ attrs.flatMap writeAttr ++ b%" " ++ a ++ b%"=\"" ++ v) ++ w =
        writeTag name (attrs ++ (a, some s) :: l) ++ u := by
      rw [List.append_assoc, e]
      simp [writeTag, writeAttr, List.append_assoc]
    rw [e']
    exact this
  | @value st name names s v r _ ih =>
    obtain ⟨x, l, u, e, hx, hc⟩ := ih hw
    exact ⟨escaped s ++ x, l, u, by rw [List.append_assoc, e]; simp [List.append_assoc],
      fits_append (p := .text) ⟨s, rfl⟩ hx, hc⟩
  | @nextValue st name names attrs a v r _ ih =>
    obtain ⟨x, l, u, e, ⟨s, rfl⟩, ht, hc⟩ := ih hw
    refine ⟨[], attrs ++ (a, some s) :: l, u, ?_, fits_nil .text, by simpa [List.append_assoc] using ht, hc⟩
    rw [List.append_assoc, e]
    simp [writeAttr, List.append_assoc]
  | endTag hn ht _ ih =>
    rw [List.append_assoc]
    exact left_endValue hn fun attrs h1 h2 => Left.start N hn.element ht h1 h2 (ih hw)
  | endVoid hn ht _ ih =>
    rw [List.append_assoc]
    exact left_endValue hn fun attrs h1 h2 => Left.pre (fits_void N hn.element ht h1 h2) (ih hw)
  | endTextTag hn ht _ ih =>
    rw [List.append_assoc]
    exact left_endValue hn fun attrs h1 h2 => left_textElement N hn.element ht h1 h2 (ih hw)

theorem neat_parts {E : Tellers} (N : Markup.GoodNames Q.elements Q.attributes) (F : Spec.Stream.Follows Q E) {ps : List Part}
    {t t' : Tape} (h : StreamsParts E ps t t') (hs : SafeMemory Q t.toCtx) {r : Reading} (hr : NeatParts Q r ps) :
    Adds Q t t' (LeftAt Q r) := by
  induction h generalizing r with
  | nil =>
    cases hr
    exact .same hs Left.nil
  | text _ ih =>
    cases hr with
    | text hl hr =>
      exact (Adds.put (F := (· = _)) hs rfl).seq (ih hs hr) fun a b ha hb => by rw [ha]; exact left_leads N hl hb
  | @node n p w ps t t₁ t' hn hl _ ih =>
    cases hr with
    | node h1 h2 h3 =>
      cases hl
      have g := neat_node N F hn hs h2 h1
      have put : t₁.put [] = t₁ := by simp [Tape.put]
      rw [put] at ih
      exact g.seq (ih g.1 h3) fun a b ha hb => Left.pre ha hb
    | inText h1 h2 h3 =>
      cases hl
      have g := neat_node N F hn hs h2 h1
      have put : t₁.put [] = t₁ := by simp [Tape.put]
      rw [put] at ih
      refine g.seq (ih g.1 h3) fun a b ha hb => ?_
      obtain ⟨x, v, rfl, hx, hv⟩ := hb
      exact ⟨a ++ x, v, by simp [List.append_assoc], fits_append ha hx, hv⟩
    | inValue h1 h2 h3 =>
      cases hl
      have g := neat_node N F hn hs h2 h1
      have put : t₁.put [] = t₁ := by simp [Tape.put]
      rw [put] at ih
      refine g.seq (ih g.1 h3) fun a b ha hb => ?_
      obtain ⟨x, l, v, rfl, hx, hv⟩ := hb
      exact ⟨a ++ x, l, v, by simp [List.append_assoc], fits_append ha hx, hv⟩

end Aitch.Stream
