import Verif.Proofs.AfterError
import Verif.Proofs.Silence
import Verif.Proofs.Built
import Verif.Spec.Sample
/-
C81: rendering in a context that has an error already.
-/
namespace Aitch.Props
open Spec

/-! ### C81 — once the context has an error nothing more is written

False: values are rendered straight to the writer, without a look at the context's error (value.go, `render`), and
then the error is replaced by theirs, that is, cleared when the writer accepts them. -/

/-- The English claim: a node rendered in a context that has an error makes no call of the writer. -/
def C81_claim : Prop :=
  ∀ (env : Env) (P : Fns) (n : Node) (s s' : St) (e : Option Err), Computes env P → Built n → s.frame.err ≠ none →
    Runs env n s e s' → s'.log = s.log

section
open Sample

private def failed : St := { st with frame := { st.frame with err := some 7 } }

/-- Text is written. -/
theorem C81_false : ¬ C81_claim := fun h => by
  have := h env fns (.text [.mk b%"a" none []]) failed _ _ computes (.text (fun _ => []) [.bytes b%"a"])
    (by simp [failed]) ⟨1, rfl⟩
  cases this

end

/-! For the examples: `<ul>…</ul>` with an iterator writes nothing in a context with an error; `<p id="a">b</p>` writes
the end of itself, and clears the error. -/

section
open Sample

private def item : Node := (NewElement b%"li" [.dynFunc true (some 0)] ⟨fun _ => [], 0⟩).1
private def list : Node := (NewElement b%"ul" [.node (.iterator [item] (.user 0))] ⟨fun _ => [], 0⟩).1
private def para : Node :=
  .element { name := b%"p", attributes := [.plain b%"id" [.mk b%"a" none []]], attIndices := [(b%"id", 0)], conditionals := [] }
    [.text [.mk b%"b" none []]]

theorem list_mute : Mute fns failed.toCtx list ∧ Simple list ∧ ∃ s', Runs env list failed (some 7) s' ∧ s'.out = [] := by
  refine ⟨.element rfl (fun a ha => by cases ha) fun n hn => ?_, ⟨rfl, trivial, trivial⟩, _, ⟨9, rfl⟩, rfl⟩
  change n ∈ [Node.iterator [item] (ItemSrc.user 0)] at hn
  rcases List.mem_singleton.1 hn with rfl
  exact .iterator

theorem para_shows : Shows fns failed.toCtx para ∧ Simple para ∧ ∃ s', Runs env para failed none s' ∧ s'.out = b%"a\">b</p>" :=
  ⟨.head rfl (.head _) (by simp [HasValues]), ⟨rfl, trivial, trivial⟩, _, ⟨9, rfl⟩, rfl⟩

end

/-- True of mute nodes: those of which no value is reached.  They call the writer not at all, leave the context as it
is, and return its error. -/
theorem C81_mute_partial {env : Env} {P : Fns} (C : Computes env P) {n : Node} {s s' : St} {x : Err} {e : Option Err}
    (hx : s.frame.err = some x) (hn : Mute P s.toCtx n) (h : Runs env n s e s') :
    s'.log = s.log ∧ s'.toCtx = s.toCtx ∧ e = some x := by
  obtain ⟨fuel, h⟩ := h
  obtain ⟨h1, h2, h3⟩ := idle_of_mute hx C hn fuel s e s' rfl h
  exact ⟨h2, h1, h3⟩

example := C81_mute_partial Sample.computes rfl list_mute.1 list_mute.2.2.choose_spec.1

/-- False of all nodes of which a value is reached. -/
theorem C81_shows_partial {env : Env} {P : Fns} (C : Computes env P) {n : Node} {s s' : St} {e : Option Err}
    (hx : s.frame.err ≠ none) (hn : Shows P s.toCtx n) (h : Runs env n s e s') : s.log.length < s'.log.length := by
  obtain ⟨x, hx⟩ := Option.ne_none_iff_exists'.1 hx
  obtain ⟨fuel, h⟩ := h
  exact moves_of_shows hx C hn fuel s e s' rfl h

example := C81_shows_partial Sample.computes (by simp [failed]) para_shows.1 para_shows.2.2.choose_spec.1

/-- For trees without conditional attributes, collectors and imperative parts this settles it: they write nothing
exactly when they are mute. -/
theorem C81_exact_partial {env : Env} {P : Fns} (C : Computes env P) {n : Node} (hn : Simple n) {s s' : St}
    {e : Option Err} (hx : s.frame.err ≠ none) (h : Runs env n s e s') : s'.log = s.log ↔ Mute P s.toCtx n := by
  obtain ⟨x, hx'⟩ := Option.ne_none_iff_exists'.1 hx
  refine ⟨fun h1 => (mute_or_shows P s.toCtx n hn).resolve_right fun h2 => ?_, fun h1 => (C81_mute_partial C hx' h1 h).1⟩
  have := C81_shows_partial C hx h2 h
  rw [h1] at this
  exact Nat.lt_irrefl _ this

example := C81_exact_partial Sample.computes para_shows.2.1 (by simp [failed]) para_shows.2.2.choose_spec.1

example := C81_exact_partial Sample.computes list_mute.2.1 (by simp [failed]) list_mute.2.2.choose_spec.1

/-- The exact statement for all nodes, also with conditional attributes, collectors and imperative parts (whose functions
make their calls and return nil, whatever the error): a render makes no call of the writer exactly when `Silent` says so,
and then returns and leaves behind what `Silent` says. -/
theorem C81_silent_partial {env : Env} {P : Fns} (C : Computes env P) (I : OnlyCalls env P) (F : BuiltFns P) {n : Node}
    (b : Built n) {s s' : St} {e : Option Err} (h : Runs env n s e s') :
    (s'.log = s.log ↔ ∃ e₀ c₀, Silent P s.toCtx n e₀ c₀) ∧
      ∀ e₀ c₀, Silent P s.toCtx n e₀ c₀ → e = e₀ ∧ s'.toCtx = c₀ := by
  obtain ⟨fuel, h⟩ := h
  obtain ⟨h1, h2⟩ := Mum.renderProg C I F.wf fuel n b.wf s.toCtx s e s' rfl h
  exact ⟨⟨fun hl => ⟨_, _, h1 hl⟩, fun ⟨_, _, hs⟩ => (h2 _ _ hs).1⟩, fun _ _ hs => (h2 _ _ hs).2⟩

/-- Such a render returns the error of the context or nil, and leaves the context as it was or without an error: that of
`Imperative`, which returns nil, can clear the error. -/
theorem C81_kept_partial {env : Env} {P : Fns} (C : Computes env P) (I : OnlyCalls env P) (F : BuiltFns P) {n : Node}
    (b : Built n) {s s' : St} {e : Option Err} (h : Runs env n s e s') (hl : s'.log = s.log) :
    (e = s.frame.err ∨ e = none) ∧ (s'.toCtx = s.toCtx ∨ s'.toCtx = s.toCtx.erring none) := by
  obtain ⟨h1, h2⟩ := C81_silent_partial C I F b h
  obtain ⟨e₀, c₀, hs⟩ := h1.1 hl
  obtain ⟨rfl, rfl⟩ := h2 _ _ hs
  exact silent_kept hs

/-! For the examples: `<p hidden>` with a conditional `hidden`; and an Imperative without calls before `<br>` in a
collection, which clears the error, so that `<br>` is written. -/

section
open Sample

private def hideIf : Node := .conditional [] [.bool b%"hidden"] (.user 0)
private def shy : Node := (NewElement b%"p" [.node hideIf] ⟨fun _ => [], 0⟩).1
private def clearing (n : Node) : Node := Collection [some (Imperative (some 1)), some n]

example : ∃ s', Runs env shy failed (some 7) s' ∧ s'.log = failed.log := by
  refine ⟨_, ⟨9, rfl⟩, ?_⟩
  rfl

theorem clearing_clears : (∃ s', Runs env (clearing (.text [])) failed none s' ∧ s'.log = failed.log ∧ s'.frame.err = none) ∧
    ∃ s', Runs env (clearing (NewVoidElement b%"br" [] ⟨fun _ => [], 0⟩).1) failed none s' ∧ s'.out = b%"<br>" :=
  ⟨⟨_, ⟨9, rfl⟩, rfl, rfl⟩, _, ⟨9, rfl⟩, rfl⟩

theorem clearing_built {n : Node} (h : Built n) : Built (clearing n) :=
  .collection _ fun m hm => by
    rcases List.mem_cons.1 hm with hm | hm
    · cases hm; exact .imperative _
    · cases List.mem_singleton.1 hm; exact h

example := C81_silent_partial computes (fun _ _ => rfl) built (clearing_built (.text (fun _ => []) []))
  clearing_clears.1.choose_spec.1

example := C81_kept_partial computes (fun _ _ => rfl) built (clearing_built (.text (fun _ => []) []))
  clearing_clears.1.choose_spec.1 clearing_clears.1.choose_spec.2.1

end

end Aitch.Props
