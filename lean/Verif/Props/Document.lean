import Verif.Proofs.Element
import Verif.Spec.Sample
/-
C39: the shape of a document.
-/
namespace Aitch.Props
open Spec

/-! ### C39 — document shape -/

/-- The memory in which the body is made: after the head, if there is one. -/
def afterHead (head : List Any) (h : Heap) : Heap := if head = [] then h else (NewElement b%"head" head h).2

theorem langArg_ne {dl : Nat → List Value} {lang : Any} (h : lang ≠ .nil) :
    langArg dl lang = .node (NewAttribute dl b%"lang" [lang]) := by cases lang <;> first | exact absurd rfl h | rfl

/-- The `html` element, its last content being an element. -/
theorem html_out {P : Fns} {c : Ctx} {dl : Nat → List Value} {lang : Any} {e : ElemHead} {cs : List Node} {h : Heap}
    {a : Any} (ha : a = .nil ∨ ∃ e cs, a = .node (.element e cs)) {w : Bytes} :
    Out P c (NewElement b%"html" [langArg dl lang, a, .node (.element e cs)] h).1 w ↔ ∃ langBytes wa wb,
      (lang = .nil ∧ langBytes = [] ∨ lang ≠ .nil ∧ Out P c (NewAttribute dl b%"lang" [lang]) langBytes) ∧
      (a = .nil ∧ wa = [] ∨ ∃ n, a = .node n ∧ Out P c n wa) ∧ Out P c (.element e cs) wb ∧
      w = b%"<html" ++ langBytes ++ b%">" ++ wa ++ wb ++ b%"</html>" := by
  have key : ∀ (att : List Node) (l : List Shown) (n : Node),
      (∃ hd, (NewElement b%"html" [langArg dl lang, a, .node (.element e cs)] h).1 =
          .element hd (att ++ [n, .element e cs]) ∧ hd.name = b%"html" ∧ (∀ l', TagShows P c hd l' ↔ l' = l) ∧
          ∀ w, OutAll P c att w ↔ w = []) →
      (Out P c (NewElement b%"html" [langArg dl lang, a, .node (.element e cs)] h).1 w ↔ ∃ wa wb, Out P c n wa ∧
        Out P c (.element e cs) wb ∧ w = b%"<html" ++ l.flatMap Shown.bytes ++ b%">" ++ wa ++ wb ++ b%"</html>") := by
    rintro att l n ⟨hd, h1, h2, h3, h4⟩
    rw [h1]
    constructor
    · intro ho
      cases ho with
      | element ht hc =>
        rw [(h3 _).1 ht, h2]
        obtain ⟨w1, w2, hc1, hc2, rfl⟩ := outAll_append.1 hc
        rw [(h4 _).1 hc1]
        cases hc2 with
        | cons ha hb => exact ⟨_, _, ha, outAll_one.1 hb, by simp [tagBytes, endBytes]⟩
    · rintro ⟨wa, wb, ha, hb, rfl⟩
      have := Out.element ((h3 l).2 rfl) (outAll_append.2 ⟨[], _, (h4 []).2 rfl, .cons ha (outAll_one.2 hb), rfl⟩)
      rw [h2] at this
      simpa [tagBytes, endBytes] using this
  have hempty : ∀ w, Out P c (.text []) w ↔ w = [] := fun w =>
    ⟨fun h => by cases h; rfl, fun h => by subst h; exact .text⟩
  have hatt : ∀ w, Out P c (NewAttribute dl b%"lang" [lang]) w ↔
      w = Shown.bytes (shown P c (.plain b%"lang" (newValues dl [lang]))) := fun w =>
    ⟨fun h => by cases h; rfl, fun h => by subst h; exact .attr⟩
  by_cases hl : lang = .nil
  · subst hl
    rcases ha with rfl | ⟨e', cs', rfl⟩
    · rw [key [.text []] [] (.text []) ⟨⟨b%"html", [], [], []⟩, rfl, rfl, fun l' => Iff.rfl,
        fun w => by rw [outAll_one, hempty]⟩]
      constructor
      · rintro ⟨wa, wb, h1, h2, rfl⟩
        exact ⟨[], wa, wb, .inl ⟨rfl, rfl⟩, .inl ⟨rfl, (hempty _).1 h1⟩, h2, rfl⟩
      · rintro ⟨_, wa, wb, ⟨-, rfl⟩ | ⟨h, -⟩, ⟨-, rfl⟩ | ⟨n, hn, h1⟩, h2, rfl⟩
        · exact ⟨[], wb, (hempty _).2 rfl, h2, rfl⟩
        · simp at hn
        all_goals exact absurd rfl h
    · rw [key [.text []] [] (.element e' cs') ⟨⟨b%"html", [], [], []⟩, rfl, rfl, fun l' => Iff.rfl,
        fun w => by rw [outAll_one, hempty]⟩]
      constructor
      · rintro ⟨wa, wb, h1, h2, rfl⟩
        exact ⟨[], wa, wb, .inl ⟨rfl, rfl⟩, .inr ⟨_, rfl, h1⟩, h2, rfl⟩
      · rintro ⟨_, wa, wb, ⟨-, rfl⟩ | ⟨h, -⟩, ⟨h', -⟩ | ⟨n, hn, h1⟩, h2, rfl⟩
        · simp at h'
        · simp only [Any.node.injEq] at hn; subst hn; exact ⟨wa, wb, h1, h2, rfl⟩
        all_goals exact absurd rfl h
  · rw [langArg_ne hl] at key ⊢
    rcases ha with rfl | ⟨e', cs', rfl⟩
    · rw [key [] [shown P c (.plain b%"lang" (newValues dl [lang]))] (.text [])
        ⟨⟨b%"html", [.plain b%"lang" (newValues dl [lang])], [(b%"lang", 0)], []⟩, rfl, rfl, fun l' => Iff.rfl,
        fun w => ⟨fun h => by cases h; rfl, fun h => by subst h; exact .nil⟩⟩]
      constructor
      · rintro ⟨wa, wb, h1, h2, rfl⟩
        exact ⟨_, wa, wb, .inr ⟨hl, (hatt _).2 rfl⟩, .inl ⟨rfl, (hempty _).1 h1⟩, h2, by simp⟩
      · rintro ⟨_, wa, wb, ⟨h, -⟩ | ⟨-, h0⟩, ⟨-, rfl⟩ | ⟨n, hn, h1⟩, h2, rfl⟩
        · exact absurd h hl
        · exact absurd h hl
        · rw [(hatt _).1 h0]; exact ⟨[], wb, (hempty _).2 rfl, h2, by simp⟩
        · simp at hn
    · rw [key [] [shown P c (.plain b%"lang" (newValues dl [lang]))] (.element e' cs')
        ⟨⟨b%"html", [.plain b%"lang" (newValues dl [lang])], [(b%"lang", 0)], []⟩, rfl, rfl, fun l' => Iff.rfl,
        fun w => ⟨fun h => by cases h; rfl, fun h => by subst h; exact .nil⟩⟩]
      constructor
      · rintro ⟨wa, wb, h1, h2, rfl⟩
        exact ⟨_, wa, wb, .inr ⟨hl, (hatt _).2 rfl⟩, .inr ⟨_, rfl, h1⟩, h2, by simp⟩
      · rintro ⟨_, wa, wb, ⟨h, -⟩ | ⟨-, h0⟩, ⟨h', -⟩ | ⟨n, hn, h1⟩, h2, rfl⟩
        · exact absurd h hl
        · exact absurd h hl
        · simp at h'
        · simp only [Any.node.injEq] at hn; subst hn
          rw [(hatt _).1 h0]; exact ⟨wa, wb, h1, h2, by simp⟩

/-- What a document can write: the doctype line; then one `html` element whose start tag has the `lang` attribute iff
`lang` is not nil, and which contains a `head` element iff `head` is not empty, then a `body` element. -/
theorem C39_document {P : Fns} (F : BuiltFns P) (c : Ctx) (he : c.frame.err = none) (lang : Any)
    (head body : List Any) (h : Heap) (hh : ∀ n ∈ nodesIn head, Built n) (hb : ∀ n ∈ nodesIn body, Built n)
    (w : Bytes) :
    Renders P c (Document lang head body h).1 w ↔ ∃ langBytes headBytes bodyBytes,
      (lang = .nil ∧ langBytes = [] ∨ lang ≠ .nil ∧ Renders P c (NewAttribute h.dl b%"lang" [lang]) langBytes) ∧
      (head = [] ∧ headBytes = [] ∨ head ≠ [] ∧ Renders P c (NewElement b%"head" head h).1 headBytes) ∧
      Renders P c (NewElement b%"body" body (afterHead head h)).1 bodyBytes ∧
      w = b%"<!DOCTYPE html>\n" ++ b%"<html" ++ langBytes ++ b%">" ++ headBytes ++ bodyBytes ++ b%"</html>" := by
  rw [(Built.document lang head body h hh hb).renders_iff F he, document_eq]
  have bB := Built.newElement b%"body" body (afterHead head h) hb
  rw [show (headArg head h).2 = afterHead head h from by cases head <;> rfl]
  obtain ⟨e, h', h1, -⟩ := newElement_head b%"body" body (afterHead head h)
  have hbody : (Body body (afterHead head h)).1 = (NewElement b%"body" body (afterHead head h)).1 := rfl
  have hdoc : ∀ x, Out P c (DocType (Body body (afterHead head h)).2.dl) x ↔ x = b%"<!DOCTYPE html>\n" := by
    intro x
    constructor
    · intro hx; cases hx; rfl
    · rintro rfl; exact .pi
  have bA := Built.newAttribute h.dl b%"lang" [lang]
  have bH := Built.newElement b%"head" head h hh
  have hcase : (headArg head h).1 = .nil ∨ ∃ e cs, (headArg head h).1 = .node (.element e cs) := by
    cases head with
    | nil => exact .inl rfl
    | cons x xs =>
      obtain ⟨e', h'', h2, -⟩ := newElement_head b%"head" (x :: xs) h
      exact .inr ⟨e', nonAttrs ((x :: xs).map (asNode h.dl)),
        by show Any.node (NewElement b%"head" (x :: xs) h).1 = _; rw [h2]⟩
  have hhead : ∀ wa, ((headArg head h).1 = .nil ∧ wa = [] ∨ ∃ n, (headArg head h).1 = .node n ∧ Out P c n wa) ↔
      (head = [] ∧ wa = [] ∨ head ≠ [] ∧ Out P c (NewElement b%"head" head h).1 wa) := by
    intro wa
    cases head with
    | nil => simp [headArg]
    | cons x xs => simp [headArg, Head]
  simp only [bA.renders_iff F he, bH.renders_iff F he, bB.renders_iff F he]
  rw [hbody, h1]
  constructor
  · intro ho
    cases ho with
    | document hd =>
      obtain ⟨w1, w2, hd1, hd2, rfl⟩ := outAll_append (ns := [_]).1 hd
      rw [(hdoc _).1 (outAll_one.1 hd1)]
      obtain ⟨wl, wa, wb, hl, ha, hb', rfl⟩ := (html_out hcase).1 (outAll_one.1 hd2)
      exact ⟨wl, wa, wb, hl, (hhead _).1 ha, hb', by simp⟩
  · rintro ⟨wl, wa, wb, hl, ha, hb', rfl⟩
    have := Out.document (prologue := some _) (contents := [_]) (OutAll.cons ((hdoc _).2 rfl)
      (outAll_one.2 ((html_out (h := (Body body (afterHead head h)).2) hcase).2 ⟨wl, wa, wb, hl, (hhead _).2 ha, hb', rfl⟩)))
    simpa using this

example : Renders Sample.fns Sample.ctx
    (Document (.str b%"en") [.node (NewElement b%"title" [.str b%"a&b"] .empty).1] [.dynKey b%"name"] .empty).1
    b%"<!DOCTYPE html>\n<html lang=\"en\"><head><title>a&amp;b</title></head><body>&lt;Bob&gt;</body></html>" :=
  ⟨Sample.env, Sample.healthy, Sample.computes, Sample.st, _, rfl, ⟨5, rfl⟩, rfl⟩

example : Renders Sample.fns Sample.ctx (Document .nil [] [.str b%"x"] .empty).1
    b%"<!DOCTYPE html>\n<html><body>x</body></html>" :=
  ⟨Sample.env, Sample.healthy, Sample.computes, Sample.st, _, rfl, ⟨5, rfl⟩, rfl⟩

end Aitch.Props
