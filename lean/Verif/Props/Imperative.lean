import Verif.Proofs.Nesting
import Verif.Spec.Sample
/-
C25: markup written through an ImperativeContext.
-/
namespace Aitch.Props
open Spec

/-- What an Imperative node can write, as calls. -/
theorem renders_imperative {P : Fns} (F : BuiltFns P) {c : Ctx} (he : c.frame.err = none) (f : FnId) (w : Bytes) :
    Renders P c (Imperative (some f)) w ↔ OutOps P c (P.imp f c) [] w := by
  rw [(Built.imperative (some f)).renders_iff F he]
  constructor
  · intro h; cases h; assumption
  · exact .imperative

/-- Functions for the examples: opening `ul` and `li`, writing a void `br`, closing `li`, opening another, `EndAll`. -/
def impFns : Fns := { Sample.fns with
  collect := fun _ _ => []
  imp := fun _ _ => [.start b%"ul" false [], .start b%"li" false [], .start b%"br" true [], .end,
    .start b%"li" false [some (NewBooleanAttribute b%"hidden")], .writeString b%"a<b", .writeNodes [none]] ++ [.endAll] }

theorem impFns_built : BuiltFns impFns := by
  refine ⟨fun f c n hn => by simp [impFns] at hn, fun f c ns n hn hm => ?_⟩
  simp [impFns] at hn
  subst hn; simp at hm

theorem impFns_renders : Renders impFns Sample.ctx (Imperative (some 0))
    b%"<ul><li><br></li><li hidden>a&lt;b</li></ul>" :=
  ⟨{ Sample.env with collect := fun _ s => ([], s), imp := fun f s => impOf (impFns.imp f s.toCtx) }, fun _ _ => rfl,
    ⟨fun _ _ => rfl, fun _ _ => rfl, fun _ _ => rfl, fun _ _ => rfl, fun _ _ => rfl, fun _ _ => makesCalls_impOf _⟩,
    Sample.st, _, rfl, ⟨2, rfl⟩, rfl⟩

/-! ### C25 — imperative markup is balanced after EndAll -/

/-- Whenever the calls end with nothing left open (as they do after `EndAll`, see `C25_endAll`), what they write is
properly nested markup: the pieces that are no end tags are, in order, those of the calls other than `End` and
`EndAll`. -/
theorem C25_closed {P : Fns} (F : BuiltFns P) (c : Ctx) (he : c.frame.err = none) (f : FnId)
    (ho : openAfter (P.imp f c) [] = []) (w : Bytes) (h : Renders P c (Imperative (some f)) w) :
    ∃ ps : List Piece, Nested ps ∧ w = ps.flatMap Piece.bytes ∧
      Each (CallWrites P c) ((P.imp f c).filter fun o => !isEnd o) (ps.filter fun p => !p.isClose) := by
  obtain ⟨ps, h1, h2, h3⟩ := pieces F he (fun ns n => F.imp f c ns n) ((renders_imperative F he f w).1 h) ho
  cases h1 with
  | nil h1 => exact ⟨ps, h1, h2, h3⟩

example := C25_closed impFns_built Sample.ctx rfl 0 rfl _ impFns_renders

/-- The calls of a function that ends with `EndAll`: properly nested, everything closed. -/
theorem C25_endAll {P : Fns} (F : BuiltFns P) (c : Ctx) (he : c.frame.err = none) (f : FnId) (ops : List ImpOp)
    (hops : P.imp f c = ops ++ [.endAll]) (w : Bytes) (h : Renders P c (Imperative (some f)) w) :
    ∃ ps : List Piece, Nested ps ∧ w = ps.flatMap Piece.bytes ∧
      Each (CallWrites P c) (ops.filter fun o => !isEnd o) (ps.filter fun p => !p.isClose) := by
  obtain ⟨ps, h1, h2, h3⟩ := C25_closed F c he f (by rw [hops, openAfter_append]; rfl) w h
  refine ⟨ps, h1, h2, ?_⟩
  rw [hops] at h3
  simpa [isEnd] using h3

example := C25_endAll impFns_built Sample.ctx rfl 0 _ rfl _ impFns_renders

/-- `End` writes the end tag of the most recently opened element that is still open, and nothing if there is none:
`f` makes the calls of `g` and then `End`. -/
theorem C25_end {P : Fns} (F : BuiltFns P) (c : Ctx) (he : c.frame.err = none) (f g : FnId)
    (hops : P.imp f c = P.imp g c ++ [.end]) (w : Bytes) :
    Renders P c (Imperative (some f)) w ↔ ∃ w₁, Renders P c (Imperative (some g)) w₁ ∧
      w = w₁ ++ (match (openAfter (P.imp g c) []).head? with
        | some n => b%"</" ++ n ++ b%">"
        | none => []) := by
  rw [renders_imperative F he, hops, outOps_append]
  have hr := fun w => renders_imperative F he g w
  generalize openAfter (P.imp g c) [] = st
  constructor
  · rintro ⟨w₁, w₂, h1, h2, rfl⟩
    refine ⟨w₁, (hr _).2 h1, ?_⟩
    cases h2 with
    | endNone h2 => cases h2; rfl
    | endSome h2 => cases h2; simp [endBytes]
  · rintro ⟨w₁, h1, rfl⟩
    refine ⟨w₁, _, (hr _).1 h1, ?_, rfl⟩
    cases st with
    | nil => exact .endNone .nil
    | cons n st =>
      have := OutOps.endSome (P := P) (c := c) (n := n) (stack := st) .nil
      simpa [endBytes] using this

/-- Function 1 opens an element, function 0 closes it again. -/
example (w : Bytes) := C25_end
  (P := { impFns with imp := fun f _ => .start b%"p" false [] :: if f = 0 then [.end] else [] })
  ⟨fun f c n hn => by simp [impFns] at hn, fun f c ns n hn hm => by
    simp only [List.mem_cons, reduceCtorEq, false_or] at hn
    split at hn <;> simp at hn⟩ Sample.ctx rfl 0 1 rfl w

/-- Everything that such a function can write is written by some run: there is at least one. -/
theorem C25_runs {P : Fns} (F : BuiltFns P) (c : Ctx) (he : c.frame.err = none) (f : FnId)
    (ht : ∀ ns, .writeNodes ns ∈ P.imp f c → ∃ w, RendersAll P c (nonAttrs (ns.filterMap id)) w) :
    ∃ w, Renders P c (Imperative (some f)) w := by
  simp only [renders_imperative F he]
  have hb := fun ns n => F.imp f c ns n
  generalize P.imp f c = ops at *
  generalize ([] : List Bytes) = st
  induction ops generalizing st with
  | nil => exact ⟨_, .nil⟩
  | cons op ops ih =>
    have ih := ih (fun ns h => ht ns (.tail _ h)) (fun ns n h => hb ns n (.tail _ h))
    cases op with
    | writeString d => exact (ih st).imp' _ fun w h => .writeString h
    | writeRaw d => exact (ih st).imp' _ fun w h => .writeRaw h
    | writeNodes ns =>
      obtain ⟨w, hw⟩ := ht ns (.head _)
      obtain ⟨w', h⟩ := ih st
      refine ⟨_, .writeNodes ((rendersAll_iff F he fun n hn => hb ns n (.head _) ?_).1 hw) h⟩
      simpa using nonAttrs_mem hn
    | start n v as =>
      cases v with
      | false => exact (ih (n :: st)).imp' _ fun w h => .start h
      | true => exact (ih st).imp' _ fun w h => .startVoid h
    | «end» =>
      cases st with
      | nil => exact (ih []).imp' _ fun w h => .endNone h
      | cons n st => exact (ih st).imp' _ fun w h => .endSome h
    | endAll => exact (ih []).imp' _ fun w h => .endAll h

example := C25_runs impFns_built Sample.ctx rfl 0 fun ns h => ⟨[], by
  have : ns = [none] := by simpa [impFns] using h
  subst this
  exact ⟨[], .nil, rfl⟩⟩

/-- Nesting is a real restriction. -/
example : ¬ Nested [.tag b%"p" false b%"<p>"] ∧ ¬ Nested [.close b%"p"] ∧
    ¬ Nested [.tag b%"p" false b%"<p>", .close b%"q"] := by
  refine ⟨?_, ?_, ?_⟩
  · intro h
    generalize hl : [Piece.tag b%"p" false b%"<p>"] = l at h
    cases h <;> simp at hl
  · intro h
    generalize hl : [Piece.close b%"p"] = l at h
    cases h <;> simp at hl
  · intro h
    generalize hl : [Piece.tag b%"p" false b%"<p>", .close b%"q"] = l at h
    cases h with
    | @element n b l l' h1 h2 =>
      simp at hl
      cases l with
      | nil => simp at hl; obtain ⟨⟨h, -⟩, h', -⟩ := hl; exact absurd (h.trans h'.symm) (by decide)
      | cons x l => simp at hl
    | _ => simp at hl

end Aitch.Props
