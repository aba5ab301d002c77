import Verif.Proofs.Live
import Verif.Spec.Each
import Verif.Props.Values
import Verif.Proofs.Element
/-
C84: when the functions and `String` methods among the arguments are called.
-/
namespace Aitch.Props
open Spec Spec.Live Live

/-! ### C84 — functions given as content are called once, when the node is made -/

/-- A constructor asks its arguments one after the other, each once, and makes the node that it makes of the values they
turn out to be.  So everything else that is proved about nodes holds of this node. -/
theorem C84_once {W : Type} {L : Code W} (m : Maker) {args : List Arg} {w w' : W} {cs : List Call} {vs : List Any}
    (h : SaysAll L args w cs vs w') (hp : Heap) :
    ∃ k, ∀ fuel, k ≤ fuel → m.run L fuel args hp w = some (m.make vs hp, w', cs) := run_says m h hp

/-- Nothing else can happen. -/
theorem C84_only {W : Type} {L : Code W} (m : Maker) {fuel : Nat} {args : List Arg} {w w' : W} {cs : List Call} {hp : Heap}
    {r : Node × Heap} (h : m.run L fuel args hp w = some (r, w', cs)) :
    ∃ vs, SaysAll L args w cs vs w' ∧ r = m.make vs hp := says_run m h

/-- When the functions return no functions, the calls are those of the arguments, in their order. -/
theorem C84_order {W : Type} {L : Code W} (hd : Direct L) (m : Maker) {fuel : Nat} {args : List Arg} {w w' : W}
    {cs : List Call} {hp : Heap} {r : Node × Heap} (h : m.run L fuel args hp w = some (r, w', cs)) :
    cs = args.filterMap Arg.call := by
  obtain ⟨vs, hv, -⟩ := C84_only m h
  clear h
  induction hv with
  | nil => rfl
  | cons h _ ih =>
    rw [ih, List.filterMap_cons]
    cases h with
    | any v => rfl
    | string h => rfl
    | @func f _ a w₁ cs v _ h hs =>
      obtain ⟨u, hu⟩ := hd f _
      rw [h] at hu
      simp only at hu
      subst hu
      cases hs
      rfl

/-- Then every constructor ends. -/
theorem C84_ends {W : Type} {L : Code W} (hd : Direct L) (m : Maker) (args : List Arg) (w : W) (hp : Heap) :
    ∃ k, ∀ fuel, k ≤ fuel → ∃ r w', m.run L fuel args hp w = some (r, w', args.filterMap Arg.call) := by
  have key : ∃ cs vs w', SaysAll L args w cs vs w' := by
    induction args generalizing w with
    | nil => exact ⟨_, _, _, .nil w⟩
    | cons a as ih =>
      have : ∃ cs v w', Says L a w cs v w' := by
        cases a with
        | any v => exact ⟨_, _, _, .any v w⟩
        | stringer f => exact ⟨_, _, _, .string rfl⟩
        | func f =>
          obtain ⟨v, hv⟩ := hd f w
          exact ⟨_, _, _, .func (a := .any v) (w₁ := (L.func f w).2) (by rw [← hv]) (.any v _)⟩
      obtain ⟨cs, v, w₁, h1⟩ := this
      obtain ⟨cs', vs, w₂, h2⟩ := ih w₁
      exact ⟨_, _, _, .cons h1 h2⟩
  obtain ⟨cs, vs, w', h⟩ := key
  obtain ⟨k, hk⟩ := C84_once m h hp
  refine ⟨k, fun fuel hf => ⟨m.make vs hp, w', ?_⟩⟩
  rw [hk fuel hf, ← C84_order hd m (hk fuel hf)]

/-- The constructors that check names do the same when the name is valid. -/
theorem C84_valid {W : Type} {L : Code W} (strict : Bool) {name : Bytes} (hn : ValidName name) (d : Bytes)
    {args : List Arg} {w w' : W} {cs : List Call} {vs : List Any} (h : SaysAll L args w cs vs w') (hp : Heap) :
    ∃ k, ∀ fuel, k ≤ fuel →
      Live.Attribute L fuel strict hp.dl name args w = some (Aitch.Attribute strict hp.dl name vs, w', cs) ∧
      Live.DelimitedAttribute L fuel strict name d args hp w =
        some (Aitch.DelimitedAttribute strict name d vs hp, w', cs) ∧
      Live.Element L fuel strict name args hp w = some (Aitch.Element strict name vs hp, w', cs) ∧
      Live.VoidElement L fuel strict name args hp w = some (Aitch.VoidElement strict name vs hp, w', cs) := by
  have hm := (htmlTagMatch_iff name).2 hn
  obtain ⟨k₁, h₁⟩ := C84_once (.attribute name) h hp
  obtain ⟨k₂, h₂⟩ := C84_once (.delimited name d) h hp
  obtain ⟨k₃, h₃⟩ := C84_once (.element name) h hp
  obtain ⟨k₄, h₄⟩ := C84_once (.void name) h hp
  refine ⟨max (max k₁ k₂) (max k₃ k₄), fun fuel hf => ?_⟩
  have h₁ := h₁ fuel (by omega)
  have h₂ := h₂ fuel (by omega)
  have h₃ := h₃ fuel (by omega)
  have h₄ := h₄ fuel (by omega)
  refine ⟨?_, ?_, ?_, ?_⟩
  · unfold Live.Attribute Aitch.Attribute
    rw [if_pos hm, if_pos hm]
    obtain ⟨n, h5, h6⟩ := map_iff.1 h₁
    cases h6
    exact map_iff.2 ⟨_, h5, rfl⟩
  · unfold Live.DelimitedAttribute Aitch.DelimitedAttribute
    rw [if_pos hm, if_pos hm]
    exact map_iff.2 ⟨_, h₂, rfl⟩
  · unfold Live.Element Aitch.Element
    rw [if_pos hm, if_pos hm]
    split
    · exact map_iff.2 ⟨_, h₄, rfl⟩
    · exact map_iff.2 ⟨_, h₃, rfl⟩
  · unfold Live.VoidElement Aitch.VoidElement
    rw [if_pos hm, if_pos hm]
    exact map_iff.2 ⟨_, h₄, rfl⟩

/-- With an invalid name nothing is called. -/
theorem C84_invalid {W : Type} (L : Code W) (strict : Bool) {name : Bytes} (hn : ¬ ValidName name) (d : Bytes)
    (args : List Arg) (w : W) (hp : Heap) (fuel : Nat) (vs : List Any) :
    Live.Attribute L fuel strict hp.dl name args w = some (Aitch.Attribute strict hp.dl name vs, w, []) ∧
    Live.DelimitedAttribute L fuel strict name d args hp w = some (Aitch.DelimitedAttribute strict name d vs hp, w, []) ∧
    Live.Element L fuel strict name args hp w = some (Aitch.Element strict name vs hp, w, []) ∧
    Live.VoidElement L fuel strict name args hp w = some (Aitch.VoidElement strict name vs hp, w, []) := by
  have hm : ¬ htmlTagMatch name = true := fun h => hn ((htmlTagMatch_iff name).1 h)
  refine ⟨?_, ?_, ?_, ?_⟩
  · unfold Live.Attribute Aitch.Attribute
    rw [if_neg hm, if_neg hm]
    cases strict <;> rfl
  · unfold Live.DelimitedAttribute Aitch.DelimitedAttribute
    rw [if_neg hm, if_neg hm]
    cases strict <;> rfl
  · unfold Live.Element Aitch.Element
    rw [if_neg hm, if_neg hm]
    cases strict <;> rfl
  · unfold Live.VoidElement Aitch.VoidElement
    rw [if_neg hm, if_neg hm]
    cases strict <;> rfl

/-- `NewValue` and `NewConcatValue`. -/
theorem C84_value {W : Type} {L : Code W} {args : List Arg} {w w' : W} {cs : List Call} {vs : List Any}
    (h : SaysAll L args w cs vs w') (dl : Nat → List Value) :
    ∃ k, ∀ fuel, k ≤ fuel →
      Live.NewConcatValue L fuel dl args w = some (Aitch.NewConcatValue dl vs, w', cs) ∧
      ∀ a v, args = [a] → vs = [v] → Live.NewValue L fuel dl a w = some (Aitch.NewValue dl v, w', cs) := by
  obtain ⟨k, hk⟩ := newValues_says dl h
  by_cases h1 : ∃ a v, args = [a] ∧ vs = [v]
  · obtain ⟨a, v, rfl, rfl⟩ := h1
    cases h with
    | cons h1 h2 =>
      cases h2
      rw [List.append_nil] at hk ⊢
      obtain ⟨k', hk'⟩ := newValue_says dl h1
      refine ⟨max k k', fun fuel hf => ⟨map_iff.2 ⟨_, hk fuel (by omega), rfl⟩, ?_⟩⟩
      intro a' v' ha hv
      cases ha; cases hv
      have := bind_some (k := fun values => (match values with | [x] => return x | values => return .mk [] none values : Build W Value))
        (hk' fuel (by omega)) (b := Aitch.NewValue dl v) (w₂ := w') (cs' := [])
        (by unfold Aitch.NewValue; rcases Aitch.newValue dl v with _ | ⟨x, _ | ⟨y, l⟩⟩ <;> rfl)
      rw [List.append_nil] at this
      exact this
  · exact ⟨k, fun fuel hf => ⟨map_iff.2 ⟨_, hk fuel hf, rfl⟩, fun a v ha hv => absurd ⟨a, v, ha, hv⟩ h1⟩⟩

/-- A text made of functions and of values with a `String` method shows what they said when it was made, whenever and
wherever it is rendered. -/
theorem C84_text {W : Type} {L : Code W} {fuel : Nat} {args : List Arg} (ha : ∀ a ∈ args, a.call ≠ none) {w w' : W}
    {cs : List Call} {hp : Heap} {r : Node × Heap} (h : Maker.text.run L fuel args hp w = some (r, w', cs)) :
    ∃ vs ts, SaysAll L args w cs vs w' ∧ Each FormatsAs vs ts ∧
      ∀ {P : Fns} (_ : BuiltFns P) (c : Ctx), c.frame.err = none → RendersExactly P c r.1 ts.flatten := by
  obtain ⟨vs, hv, rfl⟩ := C84_only .text h
  clear h
  have hp' : Each FormatsAs vs (vs.map valueToBytes) := by
    clear hv
    induction vs with
    | nil => exact .nil
    | cons v vs ih => exact .cons (formatsAs_valueToBytes v) ih
  refine ⟨vs, _, hv, hp', fun {P} F c he => ?_⟩
  obtain ⟨u, h1, h2⟩ := C36_text F c he hp.dl vs
  have : u = (vs.map valueToBytes).flatten := by
    clear h2 hp'
    induction hv generalizing u with
    | nil => cases h1; rfl
    | @cons a as _ _ _ _ _ v vs hs _ ih =>
      cases h1 with
      | @cons _ _ u₁ u₂ h3 h4 =>
        rw [ih (fun a h => ha a (.tail _ h)) u₂ h4, List.map_cons, List.flatten_cons]
        congr 1
        have hf : FormatsAs v u₁ := by
          cases hs with
          | any => exact absurd rfl (ha _ (.head _))
          | string h => cases h3 with | data _ h => exact h
          | func h hs => cases h3 with | data _ h => exact h
        exact formatsAs_unique hf (formatsAs_valueToBytes v)
  rw [this] at h2
  exact h2

/-- A counter: a function that returns the next number (in strokes), and a `String` method that shows it and leaves it. -/
def counter : Code Nat where
  func _ n := (.any (.str (List.replicate n c%'I')), n + 1)
  string _ n := (b%"<" ++ List.replicate n c%'I' ++ b%">", n)

theorem counter_direct : Direct counter := fun _ n => ⟨.str (List.replicate n c%'I'), rfl⟩

/-- A function whose function is the counter. -/
def twice : Code Nat where
  func f n := if f = 0 then (.func 1, n + 10) else (.any (.str (List.replicate n c%'I')), n + 1)
  string _ n := (List.replicate n c%'I', n)

def countArgs : List Arg := [.func 0, .any (.str b%" & "), .func 0, .stringer 1]

theorem countArgs_says : SaysAll counter countArgs 2 [.func 0, .func 0, .string 1]
    [.thunk (.str b%"II"), .str b%" & ", .thunk (.str b%"III"), .stringer 0 b%"<IIII>" .nil] 4 :=
  .cons (cs := [.func 0]) (w₁ := 3) (.func rfl (.any (.str b%"II") 3)) (.cons (cs := []) (.any _ 3)
    (.cons (cs := [.func 0]) (w₁ := 4) (.func rfl (.any (.str b%"III") 4))
      (.cons (cs := [.string 1]) (.string rfl) (.nil (L := counter) 4))))

example := C84_once (.element b%"p") countArgs_says .empty
example : (Maker.element b%"p").run counter 1 countArgs .empty 2 =
    some ((Maker.element b%"p").make [.thunk (.str b%"II"), .str b%" & ", .thunk (.str b%"III"), .stringer 0 b%"<IIII>" .nil]
      .empty, 4, [.func 0, .func 0, .string 1]) := rfl
example : Writes Sample.env ((Maker.element b%"p").make [.thunk (.str b%"II"), .str b%" & ", .thunk (.str b%"III"),
    .stringer 0 b%"<IIII>" .nil] .empty).1 Sample.st b%"<p>II &amp; III<IIII></p>" := ⟨_, ⟨2, rfl⟩, rfl, rfl⟩
example := C84_only (.void b%"br") (L := counter) (fuel := 1) (args := countArgs) (w := 2) (hp := .empty) rfl
example := C84_order counter_direct (.style b%"top: ") (fuel := 1) (args := countArgs) (w := 2) (hp := .empty) rfl
example := C84_ends counter_direct .comment countArgs 2 .empty
example := C84_valid true ((htmlTagMatch_iff b%"br").1 (by decide)) b%" " countArgs_says .empty
example := C84_invalid counter false (name := b%"1") (by rw [← htmlTagMatch_iff]; decide) b%" " countArgs 2 .empty 0 []
example := C84_value countArgs_says fun _ => []
example := C84_text (L := twice) (fuel := 2) (args := [.func 0, .stringer 3]) (by simp [Arg.call]) (w := 5) (hp := .empty) rfl

/-- The function's function is called too; with less fuel nothing comes out. -/
example : (Maker.text.run twice 2 [.func 0] .empty 5).map (·.2) = some (16, [.func 0, .func 1]) ∧
    (Maker.text.run twice 1 [.func 0] .empty 5).isNone = true := ⟨rfl, rfl⟩

end Aitch.Props
