import Verif.Proofs.Utf8
import Verif.Spec.Obs
import Verif.Spec.Sample
/-
C70: pages are valid UTF-8.
-/
namespace Aitch.Props
open Spec

/-! ### C70 — valid UTF-8 in, valid UTF-8 out -/

/-- Escaping works on characters: each character is replaced as the table says, whatever the lengths of the encodings. -/
theorem C70_escape (cs : List Char) :
    htmlEscapeString (cs.flatMap String.utf8EncodeChar) = (cs.flatMap escapedChar).flatMap String.utf8EncodeChar :=
  escape_chars cs

/-- If the texts of the template, of the data and of the user functions are valid UTF-8, then so is the data of every
single call of `Write`: no character is ever torn apart.  For any writer, any node and any functions, also such with
side effects. -/
theorem C70_writes {env : Env} (F : FnsTexts Utf8 env) {n : Node} (hn : NodeTexts Utf8 n) {s s' : St} {e : Option Err}
    (hs : MemoryTexts Utf8 s.toCtx) (hl : ∀ ev ∈ s.log, Utf8 ev.data) (hr : Runs env n s e s') :
    ∀ ev ∈ s'.log, Utf8 ev.data := by
  obtain ⟨fuel, hr⟩ := hr
  exact (KW.renderProg utf8_class F fuel n hn s e s' ⟨hs, hl⟩ hr).2

/-- With a writer that takes everything, the page is valid UTF-8. -/
theorem C70_page {env : Env} (H : Healthy env) (F : FnsTexts Utf8 env) {n : Node} (hn : NodeTexts Utf8 n) {s s' : St}
    {e : Option Err} (hs : MemoryTexts Utf8 s.toCtx) (h0 : s.log = []) (hr : Runs env n s e s') : Utf8 s'.out := by
  have h1 := C70_writes F hn hs (by rw [h0]; intro ev h; cases h) hr
  obtain ⟨fuel, hr⟩ := hr
  exact utf8_accepted _ (exec_full H hr (by rw [h0]; intro ev h; cases h)) h1

/-- The same for any class of texts that has the library's own markup and is closed under escaping. -/
theorem C70_class {T : Bytes → Prop} (C : TextClass T) {env : Env} (F : FnsTexts T env) {n : Node} (hn : NodeTexts T n)
    {s s' : St} {e : Option Err} (hs : MemoryTexts T s.toCtx) (hl : ∀ ev ∈ s.log, T ev.data) (hr : Runs env n s e s') :
    (∀ ev ∈ s'.log, T ev.data) ∧ MemoryTexts T s'.toCtx := by
  obtain ⟨fuel, hr⟩ := hr
  have := KW.renderProg C F fuel n hn s e s' ⟨hs, hl⟩ hr
  exact ⟨this.2, this.1⟩

/-- The same for ASCII. -/
theorem C70_ascii {env : Env} (F : FnsTexts Ascii env) {n : Node} (hn : NodeTexts Ascii n) {s s' : St} {e : Option Err}
    (hs : MemoryTexts Ascii s.toCtx) (hl : ∀ ev ∈ s.log, Ascii ev.data) (hr : Runs env n s e s') :
    ∀ ev ∈ s'.log, Ascii ev.data := by
  obtain ⟨fuel, hr⟩ := hr
  exact (KW.renderProg ascii_class F fuel n hn s e s' ⟨hs, hl⟩ hr).2

/-- Constructors called with valid UTF-8 make nodes of valid UTF-8. -/
theorem C70_constructors {n : Node} {h h' : Heap} (hc : Constructs Utf8 h n h') (hh : HeapTexts Utf8 h) :
    NodeTexts Utf8 n ∧ HeapTexts Utf8 h' :=
  texts_constructs utf8_class (fun m hm => utf8_of_ascii m (document_ascii m hm)) hc hh

/-! The sample functions and data meet the hypotheses. -/

theorem sample_fns_utf8 : FnsTexts Utf8 Sample.env := by
  have A : ∀ w : Bytes, Ascii w → Utf8 w := utf8_of_ascii
  refine ⟨?_, fun _ _ h => h, fun _ _ h => h, ?_, fun _ _ h => h, ?_, fun _ _ h => h, ?_, ?_⟩
  · intro f s _
    change Utf8 (if f = 0 then b%"dyn" else [])
    split
    · exact A _ (by unfold Ascii; decide)
    · exact utf8_nil
  · intro f s n _ hn
    change some n ∈ (if f = 0 then _ else _) at hn
    split at hn
    · simp at hn; subst hn; exact ⟨⟨A _ (by unfold Ascii; decide), trivial⟩, trivial⟩
    · simp at hn
  · intro f s _
    change AnysTexts Utf8 (if f = 0 then [.str b%"x", .map 1, .int .int 7] else [])
    split
    · exact ⟨A _ (by unfold Ascii; decide), trivial, trivial, trivial⟩
    · trivial
  · intro f s _
    change YieldTexts Utf8 (yieldsOf (if f = 0 then [.str b%"x", .map 1, .int .int 7] else []))
    split
    · exact .yield (A _ (by unfold Ascii; decide)) fun _ _ => .yield trivial fun _ _ => .yield trivial fun _ _ => .done
    · exact .done
  · intro f s _
    change ImpTexts Utf8 (impOf (if f = 0 then [.start b%"p" false [], .writeString b%"a<b", .end] else []))
    split
    · exact .call ⟨A _ (by unfold Ascii; decide), by simp⟩ fun _ _ => .call (A _ (by unfold Ascii; decide)) fun _ _ =>
        .call trivial fun _ _ => .ret
    · exact .ret

theorem sample_memory_utf8 : MemoryTexts Utf8 Sample.st.toCtx := by
  have A : ∀ w : Bytes, Ascii w → Utf8 w := utf8_of_ascii
  refine ⟨A _ (by unfold Ascii; decide), fun f h => (List.not_mem_nil h).elim, ?_, fun _ => trivial⟩
  intro m p hp
  match m with
  | 0 =>
    rcases List.mem_cons.1 hp with rfl | hp
    · exact A _ (by unfold Ascii; decide)
    rcases List.mem_cons.1 hp with rfl | hp
    · trivial
    rcases List.mem_cons.1 hp with rfl | hp
    · trivial
    rw [List.mem_singleton.1 hp]
    exact ⟨A _ (by unfold Ascii; decide), A _ (by unfold Ascii; decide), trivial⟩
  | 1 =>
    rw [List.mem_singleton.1 hp]
    exact A _ (by unfold Ascii; decide)
  | m + 2 => cases hp

/-- An element with the text `é<` (the first character takes two bytes), a key of the data and an Imperative. -/
def utf8Page : Node := (NewElement b%"p" [.str [195, 169, 60], .dynKey b%"name", .node (Imperative (some 0))] Heap.empty).1

example : NodeTexts Utf8 utf8Page :=
  (C70_constructors (h := Heap.empty) (.newElement (utf8_of_ascii _ (by unfold Ascii; decide))
    (contents := [.str [195, 169, 60], .dynKey b%"name", .node (Imperative (some 0))])
    ⟨⟨['é', '<'], by decide⟩, trivial, trivial, trivial⟩) fun _ => trivial).1

example : Writes Sample.env utf8Page Sample.st (b%"<p>" ++ [195, 169] ++ b%"&lt;&lt;Bob&gt;<p>a&lt;b</p></p>") :=
  ⟨_, ⟨2, rfl⟩, rfl, rfl⟩

end Aitch.Props
