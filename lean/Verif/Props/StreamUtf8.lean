import Verif.Proofs.StreamUtf8
import Verif.Props.Utf8
import Verif.Props.StreamConcurrent
/-
C109: pages are valid UTF-8, when user functions write and render nodes.
-/
namespace Aitch.Props
open Spec Spec.Stream Aitch.Stream

/-! ### C109 — valid UTF-8 in, valid UTF-8 out, when user functions write and render -/

section
variable {env : Env} {B : Bodies}

/-- For any class of texts that has the library's own markup and is closed under escaping: if the texts of the template, of
the data, and all that user functions write, render and return are in the class, then so is the data of every single call
of `Write`, for any writer; and so are the texts in memory afterwards. -/
theorem C109_class {T : Bytes → Prop} (C : TextClass T) (F : BodiesTexts T env B) {n : Node} (hn : NodeTexts T n)
    {s s' : St} {e : Option Err} (hs : MemoryTexts T s.toCtx) (hl : ∀ ev ∈ s.log, T ev.data)
    (hr : Spec.Stream.Ends env B n s e s') : (∀ ev ∈ s'.log, T ev.data) ∧ MemoryTexts T s'.toCtx := by
  obtain ⟨fuel, hr⟩ := hr
  have := trip_renderWith C F fuel n hn s e s' ⟨hs, hl⟩ hr
  exact ⟨this.2, this.1⟩

/-- In particular for valid UTF-8: no character is ever torn apart. -/
theorem C109_writes (F : BodiesTexts Utf8 env B) {n : Node} (hn : NodeTexts Utf8 n) {s s' : St} {e : Option Err}
    (hs : MemoryTexts Utf8 s.toCtx) (hl : ∀ ev ∈ s.log, Utf8 ev.data) (hr : Spec.Stream.Ends env B n s e s') :
    ∀ ev ∈ s'.log, Utf8 ev.data := (C109_class utf8_class F hn hs hl hr).1

/-- With a writer that takes everything, the page is valid UTF-8. -/
theorem C109_page (H : Healthy env) (F : BodiesTexts Utf8 env B) {n : Node} (hn : NodeTexts Utf8 n) {s s' : St}
    {e : Option Err} (hs : MemoryTexts Utf8 s.toCtx) (h0 : s.log = []) (hr : Spec.Stream.Ends env B n s e s') :
    Utf8 s'.out := by
  have h1 := C109_writes F hn hs (by rw [h0]; intro ev h; cases h) hr
  obtain ⟨fuel, hr⟩ := hr
  exact utf8_accepted _ (exec_full H hr (by rw [h0]; intro ev h; cases h)) h1

/-- The same for ASCII. -/
theorem C109_ascii (F : BodiesTexts Ascii env B) {n : Node} (hn : NodeTexts Ascii n) {s s' : St} {e : Option Err}
    (hs : MemoryTexts Ascii s.toCtx) (hl : ∀ ev ∈ s.log, Ascii ev.data) (hr : Spec.Stream.Ends env B n s e s') :
    ∀ ev ∈ s'.log, Ascii ev.data := (C109_class ascii_class F hn hs hl hr).1

/-- The same for `html/template` templates with nodes in them, executed with data and cargo of valid UTF-8 (the data is in
memory). -/
theorem C109_template (F : BodiesTexts Utf8 env B) {t : List Part} (ht : ∀ p ∈ t, PartTexts Utf8 p) {s s' : St}
    {e : Option Err} {data : Option MapId} {cargo : Any} (hc : AnyTexts Utf8 cargo) (hs : MemoryTexts Utf8 s.toCtx)
    (hl : ∀ ev ∈ s.log, Utf8 ev.data) (hr : Executing env B t data cargo s e s') : ∀ ev ∈ s'.log, Utf8 ev.data :=
  (parts_texts utf8_class F (fun m hm => utf8_of_ascii m (by revert m; unfold Ascii; decide)) ht
    (s := startedWith s data cargo) ⟨⟨hc, fun _ h => (List.not_mem_nil h).elim, hs.maps, hs.delimited⟩, hl⟩
    (executing_iff.1 hr)).2

end

/-! ### Cases that meet the hypotheses -/

/-- "é". -/
theorem utf8_eacute : Utf8 [195, 169] := ⟨['é'], by decide⟩

/-- `Text("é<")`, which the functions below render. -/
def accentText : Node := Text Heap.empty.dl [.str [195, 169, 60]]

theorem accentText_utf8 : NodeTexts Utf8 accentText := ⟨⟨⟨"é&lt;".toList, by decide⟩, trivial⟩, trivial⟩

/-- Functions that write "é", render that text, and supply more of the kind. -/
def accentBodies : Bodies where
  dyn := fun _ _ => .write [195, 169] fun _ _ => .render accentText fun _ _ => .ret [60, 195, 169]
  cond := fun _ _ => .write [195, 169] fun _ _ => .ret true
  collect := fun _ _ => .render accentText fun _ _ => .ret [some accentText, none]
  items := fun _ _ => .write [195, 169] fun _ _ => .ret [.str [195, 169]]
  yields := fun _ _ => .yield (.str [195, 169]) fun _ => .render accentText fun _ _ => .done

/-- With `Imperative` functions that write "é". -/
def accentEnv : Env := { Sample.env with imp := fun _ _ => .call (.writeString [195, 169]) fun _ => .ret none }

theorem accent_met : BodiesTexts Utf8 accentEnv accentBodies where
  dyn _ _ _ := .write utf8_eacute fun _ _ _ => .render accentText_utf8 fun _ _ _ => .ret ⟨['<', 'é'], by decide⟩
  cond _ _ _ := .write utf8_eacute fun _ _ _ => .ret trivial
  collect _ _ _ := .render accentText_utf8 fun _ _ _ => .ret fun n hn => by
    simp at hn; subst hn; exact accentText_utf8
  items _ _ _ := .write utf8_eacute fun _ _ _ => .ret ⟨utf8_eacute, trivial⟩
  yields _ _ _ := .yield utf8_eacute fun _ _ => .render accentText_utf8 fun _ _ _ => .done
  imp _ _ _ := .call utf8_eacute fun _ _ => .ret

/-- A page that calls all of them. -/
def accentPage : Node := (NewElement b%"p" [.str [195, 169], .dynFunc false (some 0), .node (.conditional [accentText] [] (.user 0)),
  .node (.collector 0), .node (.iterator [accentText] (.user 0)), .node (.yieldIterator [accentText] 0),
  .node (Imperative (some 0))] Heap.empty).1

theorem accentPage_utf8 : NodeTexts Utf8 accentPage :=
  (C70_constructors (h := Heap.empty) (.newElement (utf8_of_ascii _ (by unfold Ascii; decide))
    (contents := [.str [195, 169], .dynFunc false (some 0), .node (.conditional [accentText] [] (.user 0)),
      .node (.collector 0), .node (.iterator [accentText] (.user 0)), .node (.yieldIterator [accentText] 0),
      .node (Imperative (some 0))])
    ⟨utf8_eacute, trivial, ⟨⟨accentText_utf8, trivial⟩, fun _ h => (List.not_mem_nil h).elim⟩, trivial,
      ⟨accentText_utf8, trivial⟩, ⟨accentText_utf8, trivial⟩, trivial, trivial⟩) fun _ => trivial).1

/-- The memory of a render with data "é". -/
def accentSt : St := { Sample.st with maps := fun _ => [(b%"k", .str [195, 169])] }

theorem accentSt_utf8 : MemoryTexts Utf8 accentSt.toCtx where
  cargo := utf8_of_ascii _ (by unfold Ascii; decide)
  parents _ h := (List.not_mem_nil h).elim
  maps _ p hp := by
    simp [accentSt] at hp; subst hp; exact utf8_eacute
  delimited _ := trivial

/-- What is rendered. -/
example : ∃ s', Spec.Stream.Ends accentEnv accentBodies accentPage accentSt none s' ∧
    s'.out = "<p>ééé&lt;<ééé&lt;é&lt;é&lt;éé&lt;é&lt;é&lt;é</p>".toList.flatMap String.utf8EncodeChar :=
  ⟨_, ⟨3, rfl⟩, by decide +kernel⟩

example : ∀ s', Spec.Stream.Ends accentEnv accentBodies accentPage accentSt none s' → Utf8 s'.out := fun _ =>
  C109_page (fun _ _ => rfl) accent_met accentPage_utf8 accentSt_utf8 rfl

/-- A template: a text and the page. -/
def accentTemplate : List Part := [.text [195, 169], .call accentPage .text]

example : ∃ e s', Executing accentEnv accentBodies accentTemplate (some 0) (.str [195, 169]) accentSt e s' ∧
    ∀ ev ∈ s'.log, Utf8 ev.data := by
  have h : ∃ e s', Executing accentEnv accentBodies accentTemplate (some 0) (.str [195, 169]) accentSt e s' :=
    ⟨none, _, ⟨4, rfl⟩⟩
  obtain ⟨e, s', h⟩ := h
  refine ⟨e, s', h, C109_template accent_met (fun p hp => ?_) (show AnyTexts Utf8 (.str [195, 169]) from utf8_eacute)
    accentSt_utf8 (fun _ h => (List.not_mem_nil h).elim) h⟩
  simp [accentTemplate] at hp
  rcases hp with rfl | rfl
  · exact utf8_eacute
  · exact accentPage_utf8

/-- Functions of which one writes the first byte of "é" and returns the empty text. -/
def tornBodies : Bodies := { accentBodies with dyn := fun _ _ => .write [195] fun _ _ => .ret [] }

/-- The condition on what functions write is needed: with this one a page is not valid UTF-8, though every text in the
template, in memory and returned by a function is. -/
theorem C109_needed : NodeTexts Utf8 countNode ∧ MemoryTexts Utf8 accentSt.toCtx ∧
    ∃ s', Spec.Stream.Ends accentEnv tornBodies countNode accentSt none s' ∧ ¬ Utf8 s'.out := by
  refine ⟨⟨⟨utf8_nil, trivial⟩, trivial⟩, accentSt_utf8, _, ⟨2, rfl⟩, ?_⟩
  rintro ⟨cs, h⟩
  have h' : [195] = cs.flatMap String.utf8EncodeChar := h
  have : ByteArray.IsValidUTF8 ⟨#[195]⟩ := ⟨cs, by
    rw [List.utf8Encode, ← h']; rfl⟩
  exact absurd this (by decide)

end Aitch.Props
