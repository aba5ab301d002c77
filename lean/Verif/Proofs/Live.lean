import Verif.Spec.Live
/-
Constructors that call code do what the constructors do for the values that come out.
-/
namespace Aitch.Live
open Spec.Live

variable {W : Type} {L : Code W}

theorem pure_eq {α : Type} (a : α) : (pure a : Build W α) = fun w => some (a, w, []) := rfl

theorem bind_some {α β : Type} {m : Build W α} {k : α → Build W β} {w w₁ w₂ : W} {a : α} {b : β} {cs cs' : List Call}
    (h : m w = some (a, w₁, cs)) (h' : k a w₁ = some (b, w₂, cs')) : (m >>= k) w = some (b, w₂, cs ++ cs') := by
  show Build.andThen m k w = _
  unfold Build.andThen
  rw [h]
  simp only [h']

theorem bind_inv {α β : Type} {m : Build W α} {k : α → Build W β} {w w₂ : W} {b : β} {cs : List Call}
    (h : (m >>= k) w = some (b, w₂, cs)) :
    ∃ a w₁ cs₁ cs₂, m w = some (a, w₁, cs₁) ∧ k a w₁ = some (b, w₂, cs₂) ∧ cs = cs₁ ++ cs₂ := by
  change Build.andThen m k w = _ at h
  unfold Build.andThen at h
  split at h
  · cases h
  next a w₁ cs₁ h1 =>
    split at h
    · cases h
    next b' w' cs₂ h2 =>
      cases h
      exact ⟨a, w₁, cs₁, cs₂, h1, h2, rfl⟩

theorem pure_inv {α : Type} {a b : α} {w w' : W} {cs : List Call} (h : (pure a : Build W α) w = some (b, w', cs)) :
    b = a ∧ w' = w ∧ cs = [] := by
  rw [pure_eq] at h
  cases h
  exact ⟨rfl, rfl, rfl⟩

theorem map_iff {α β : Type} {m : Build W α} {f : α → β} {w w' : W} {b : β} {cs : List Call} :
    (do let x ← m; return f x : Build W β) w = some (b, w', cs) ↔ ∃ a, m w = some (a, w', cs) ∧ b = f a := by
  constructor
  · intro h
    obtain ⟨a, w₁, cs₁, cs₂, h1, h2, rfl⟩ := bind_inv h
    obtain ⟨rfl, rfl, rfl⟩ := pure_inv h2
    exact ⟨a, by simpa using h1, rfl⟩
  · rintro ⟨a, h, rfl⟩
    have := bind_some (k := fun x => (return f x : Build W β)) h rfl
    rwa [List.append_nil] at this

/-! ### One value -/

theorem valueToBytes_says {a : Arg} {w w' : W} {cs : List Call} {v : Any} (h : Says L a w cs v w') :
    ∃ k, ∀ fuel, k ≤ fuel → valueToBytes L fuel a w = some (Aitch.valueToBytes v, w', cs) := by
  induction h with
  | any v w => exact ⟨0, fun fuel _ => by unfold valueToBytes; rfl⟩
  | @string f w out w' h =>
    refine ⟨0, fun fuel _ => ?_⟩
    unfold valueToBytes callString
    rw [h]
    rfl
  | @func f w a w₁ cs v w₂ h hs ih =>
    obtain ⟨k, hk⟩ := ih
    refine ⟨k + 1, fun fuel hf => ?_⟩
    obtain ⟨n, rfl⟩ : ∃ n, fuel = n + 1 := ⟨fuel - 1, by omega⟩
    have h1 : callFunc L f w = some (a, w₁, [.func f]) := by unfold callFunc; rw [h]
    have := bind_some (k := valueToBytes L n) h1 (hk n (by omega))
    rw [valueToBytes]
    exact this

theorem says_valueToBytes {fuel : Nat} {a : Arg} {w w' : W} {cs : List Call} {b : Bytes}
    (h : valueToBytes L fuel a w = some (b, w', cs)) : ∃ v, Says L a w cs v w' ∧ b = Aitch.valueToBytes v := by
  induction fuel generalizing a w cs with
  | zero =>
    cases a with
    | any v => unfold valueToBytes at h; obtain ⟨rfl, rfl, rfl⟩ := pure_inv h; exact ⟨v, .any v _, rfl⟩
    | stringer f => unfold valueToBytes callString at h; cases h; exact ⟨_, .string rfl, rfl⟩
    | func f => unfold valueToBytes at h; cases h
  | succ n ih =>
    cases a with
    | any v => unfold valueToBytes at h; obtain ⟨rfl, rfl, rfl⟩ := pure_inv h; exact ⟨v, .any v _, rfl⟩
    | stringer f => unfold valueToBytes callString at h; cases h; exact ⟨_, .string rfl, rfl⟩
    | func f =>
      rw [valueToBytes] at h
      obtain ⟨r, w₁, cs₁, cs₂, h1, h2, rfl⟩ := bind_inv h
      unfold callFunc at h1
      cases h1
      obtain ⟨v, hv, rfl⟩ := ih h2
      exact ⟨.thunk v, .func rfl hv, rfl⟩

theorem newValue_says (dl : Nat → List Value) {a : Arg} {w w' : W} {cs : List Call} {v : Any} (h : Says L a w cs v w') :
    ∃ k, ∀ fuel, k ≤ fuel → newValue L fuel dl a w = some (Aitch.newValue dl v, w', cs) := by
  obtain ⟨k, hk⟩ := valueToBytes_says h
  refine ⟨k, fun fuel hf => ?_⟩
  cases h with
  | any v w => rfl
  | string h => exact map_iff.2 ⟨_, hk fuel hf, rfl⟩
  | func h hs => exact map_iff.2 ⟨_, hk fuel hf, rfl⟩

theorem says_newValue {dl : Nat → List Value} {fuel : Nat} {a : Arg} {w w' : W} {cs : List Call} {r : List Value}
    (h : newValue L fuel dl a w = some (r, w', cs)) : ∃ v, Says L a w cs v w' ∧ r = Aitch.newValue dl v := by
  cases a with
  | any v => obtain ⟨rfl, rfl, rfl⟩ := pure_inv h; exact ⟨v, .any v _, rfl⟩
  | stringer f =>
    obtain ⟨b, h1, rfl⟩ := map_iff.1 h
    obtain ⟨v, hv, rfl⟩ := says_valueToBytes h1
    refine ⟨v, hv, ?_⟩
    cases hv; rfl
  | func f =>
    obtain ⟨b, h1, rfl⟩ := map_iff.1 h
    obtain ⟨v, hv, rfl⟩ := says_valueToBytes h1
    refine ⟨v, hv, ?_⟩
    cases hv; rfl

/-! ### Lists -/

theorem baseValues_cons (dl : Nat → List Value) (v : Any) (vs : List Any) :
    Aitch.newValues dl (v :: vs) = Aitch.newValue dl v ++ Aitch.newValues dl vs := by
  cases v <;> rfl

theorem newValues_cons (fuel : Nat) (dl : Nat → List Value) (a : Arg) (as : List Arg) (w : W) :
    newValues L fuel dl (a :: as) w =
      (do let x ← newValue L fuel dl a; let y ← newValues L fuel dl as; return x ++ y : Build W (List Value)) w := by
  match a with
  | .any .nil =>
    rw [newValues]
    cases h : newValues L fuel dl as w with
    | none =>
      symm
      show Build.andThen (newValue L fuel dl (.any .nil)) _ w = none
      have h2 : (newValues L fuel dl as >>= fun y => (return [] ++ y : Build W (List Value))) w = none := by
        show Build.andThen (newValues L fuel dl as) _ w = none
        unfold Build.andThen
        rw [h]
      unfold Build.andThen
      simp only [newValue, pure_eq] at h2 ⊢
      simp only [Aitch.newValue]
      rw [h2]
    | some r =>
      obtain ⟨y, w', cs⟩ := r
      symm
      have h1 : newValue L fuel dl (.any .nil) w = some ([], w, []) := rfl
      have := bind_some (k := fun x => (do let y ← newValues L fuel dl as; return x ++ y : Build W (List Value))) h1
        (map_iff.2 ⟨y, h, rfl⟩)
      simpa using this
  | .any (.bool _) | .any (.bytes _) | .any (.str _) | .any (.int _ _) | .any (.float _ _) | .any (.stringer _ _ _)
  | .any (.thunk _) | .any (.dynFunc _ _) | .any (.dynKey _) | .any (.value _) | .any (.node _) | .any (.map _)
  | .any (.anySlice _) | .any (.slice _ _) | .any (.strMap _ _ _) | .any (.struct _ _) | .any (.ptr _)
  | .any (.other _) | .func _ | .stringer _ => rfl

theorem newValues_says (dl : Nat → List Value) {as : List Arg} {w w' : W} {cs : List Call} {vs : List Any}
    (h : SaysAll L as w cs vs w') :
    ∃ k, ∀ fuel, k ≤ fuel → newValues L fuel dl as w = some (Aitch.newValues dl vs, w', cs) := by
  induction h with
  | nil w => exact ⟨0, fun _ _ => rfl⟩
  | cons h _ ih =>
    obtain ⟨k, hk⟩ := newValue_says dl h
    obtain ⟨k', hk'⟩ := ih
    refine ⟨max k k', fun fuel hf => ?_⟩
    rw [newValues_cons, baseValues_cons]
    exact bind_some (hk fuel (by omega)) (map_iff.2 ⟨_, hk' fuel (by omega), rfl⟩)

theorem says_newValues {dl : Nat → List Value} {fuel : Nat} {as : List Arg} {w w' : W} {cs : List Call} {r : List Value}
    (h : newValues L fuel dl as w = some (r, w', cs)) : ∃ vs, SaysAll L as w cs vs w' ∧ r = Aitch.newValues dl vs := by
  induction as generalizing w cs r with
  | nil => obtain ⟨rfl, rfl, rfl⟩ := pure_inv h; exact ⟨[], .nil _, rfl⟩
  | cons a as ih =>
    rw [newValues_cons] at h
    obtain ⟨x, w₁, cs₁, cs₂, h1, h2, rfl⟩ := bind_inv h
    obtain ⟨y, h3, rfl⟩ := map_iff.1 h2
    obtain ⟨v, hv, rfl⟩ := says_newValue h1
    obtain ⟨vs, hvs, rfl⟩ := ih h3
    exact ⟨v :: vs, .cons hv hvs, (baseValues_cons dl v vs).symm⟩

/-! ### Contents of elements -/

theorem baseNodes_cons (dl : Nat → List Value) (v : Any) (vs : List Any) :
    Aitch.contentsToNodes dl (v :: vs) = Aitch.contentsToNodes dl [v] ++ Aitch.contentsToNodes dl vs := rfl

/-- What one content becomes. -/
def one (fuel : Nat) (dl : Nat → List Value) : Arg → Build W Node
  | .any (.node n) => return n
  | c => Text L fuel dl [c]

theorem contentsToNodes_cons (fuel : Nat) (dl : Nat → List Value) (a : Arg) (as : List Arg) (w : W) :
    contentsToNodes L fuel dl (a :: as) w =
      (do let n ← one (L := L) fuel dl a; let ns ← contentsToNodes L fuel dl as; return n :: ns : Build W (List Node)) w := by
  match a with
  | .any (.node n) =>
    rw [contentsToNodes]
    · show _ = Build.andThen (one (L := L) fuel dl (.any (.node n))) _ w
      unfold Build.andThen
      simp only [one, pure_eq]
      cases (contentsToNodes L fuel dl as >>= fun ns => fun w => some (n :: ns, w, [])) w with
      | none => rfl
      | some r => obtain ⟨y, w', cs⟩ := r; rfl
  | .any .nil | .any (.bool _) | .any (.bytes _) | .any (.str _) | .any (.int _ _) | .any (.float _ _)
  | .any (.stringer _ _ _)
  | .any (.thunk _) | .any (.dynFunc _ _) | .any (.dynKey _) | .any (.value _) | .any (.map _)
  | .any (.anySlice _) | .any (.slice _ _) | .any (.strMap _ _ _) | .any (.struct _ _) | .any (.ptr _)
  | .any (.other _) | .func _ | .stringer _ => rfl

theorem text_says (dl : Nat → List Value) {as : List Arg} {w w' : W} {cs : List Call} {vs : List Any}
    (h : SaysAll L as w cs vs w') :
    ∃ k, ∀ fuel, k ≤ fuel → Text L fuel dl as w = some (Aitch.Text dl vs, w', cs) := by
  obtain ⟨k, hk⟩ := newValues_says dl h
  exact ⟨k, fun fuel hf => map_iff.2 ⟨_, hk fuel hf, rfl⟩⟩

theorem says_text {dl : Nat → List Value} {fuel : Nat} {as : List Arg} {w w' : W} {cs : List Call} {n : Node}
    (h : Text L fuel dl as w = some (n, w', cs)) : ∃ vs, SaysAll L as w cs vs w' ∧ n = Aitch.Text dl vs := by
  obtain ⟨x, h1, rfl⟩ := map_iff.1 h
  obtain ⟨vs, hvs, rfl⟩ := says_newValues h1
  exact ⟨vs, hvs, rfl⟩

theorem saysAll_one {a : Arg} {w w' : W} {cs : List Call} {v : Any} (h : Says L a w cs v w') :
    SaysAll L [a] w cs [v] w' := by
  have := SaysAll.cons h (.nil _)
  rwa [List.append_nil] at this

theorem one_says (dl : Nat → List Value) {a : Arg} {w w' : W} {cs : List Call} {v : Any} (h : Says L a w cs v w') :
    ∃ k, ∀ fuel, k ≤ fuel → ∃ n, one (L := L) fuel dl a w = some (n, w', cs) ∧ Aitch.contentsToNodes dl [v] = [n] := by
  obtain ⟨k, hk⟩ := text_says dl (saysAll_one h)
  refine ⟨k, fun fuel hf => ?_⟩
  have hk := hk fuel hf
  cases h with
  | any v w =>
    cases v <;> first | exact ⟨_, hk, rfl⟩ | exact ⟨_, rfl, rfl⟩
  | string h => exact ⟨_, hk, rfl⟩
  | func h hs => exact ⟨_, hk, rfl⟩

theorem says_one {dl : Nat → List Value} {fuel : Nat} {a : Arg} {w w' : W} {cs : List Call} {n : Node}
    (h : one (L := L) fuel dl a w = some (n, w', cs)) :
    ∃ v, Says L a w cs v w' ∧ Aitch.contentsToNodes dl [v] = [n] := by
  have key : ∀ {a}, Text L fuel dl [a] w = some (n, w', cs) → (∀ m, a ≠ .any (.node m)) →
      ∃ v, Says L a w cs v w' ∧ Aitch.contentsToNodes dl [v] = [n] := by
    intro a h hn
    obtain ⟨vs, hvs, rfl⟩ := says_text h
    cases hvs with
    | cons h1 h2 =>
      cases h2
      rw [List.append_nil]
      refine ⟨_, h1, ?_⟩
      cases h1 with
      | any =>
        cases ‹Any› <;> first | rfl | exact absurd rfl (hn _)
      | string h => rfl
      | func h hs => rfl
  match a, h with
  | .any (.node m), h =>
    obtain ⟨rfl, rfl, rfl⟩ := pure_inv h
    exact ⟨_, .any _ _, rfl⟩
  | .any .nil, h | .any (.bool _), h | .any (.bytes _), h | .any (.str _), h | .any (.int _ _), h | .any (.float _ _), h
  | .any (.stringer _ _ _), h
  | .any (.thunk _), h | .any (.dynFunc _ _), h | .any (.dynKey _), h | .any (.value _), h | .any (.map _), h
  | .any (.anySlice _), h | .any (.slice _ _), h | .any (.strMap _ _ _), h | .any (.struct _ _), h | .any (.ptr _), h
  | .any (.other _), h | .func _, h | .stringer _, h => exact key h (by rintro _ ⟨⟩)

theorem nodes_says (dl : Nat → List Value) {as : List Arg} {w w' : W} {cs : List Call} {vs : List Any}
    (h : SaysAll L as w cs vs w') :
    ∃ k, ∀ fuel, k ≤ fuel → contentsToNodes L fuel dl as w = some (Aitch.contentsToNodes dl vs, w', cs) := by
  induction h with
  | nil w => exact ⟨0, fun _ _ => rfl⟩
  | cons h _ ih =>
    obtain ⟨k, hk⟩ := one_says dl h
    obtain ⟨k', hk'⟩ := ih
    refine ⟨max k k', fun fuel hf => ?_⟩
    obtain ⟨n, hn, he⟩ := hk fuel (by omega)
    rw [contentsToNodes_cons, baseNodes_cons, he]
    exact bind_some hn (map_iff.2 ⟨_, hk' fuel (by omega), rfl⟩)

theorem says_nodes {dl : Nat → List Value} {fuel : Nat} {as : List Arg} {w w' : W} {cs : List Call} {r : List Node}
    (h : contentsToNodes L fuel dl as w = some (r, w', cs)) :
    ∃ vs, SaysAll L as w cs vs w' ∧ r = Aitch.contentsToNodes dl vs := by
  induction as generalizing w cs r with
  | nil => obtain ⟨rfl, rfl, rfl⟩ := pure_inv h; exact ⟨[], .nil _, rfl⟩
  | cons a as ih =>
    rw [contentsToNodes_cons] at h
    obtain ⟨x, w₁, cs₁, cs₂, h1, h2, rfl⟩ := bind_inv h
    obtain ⟨y, h3, rfl⟩ := map_iff.1 h2
    obtain ⟨v, hv, he⟩ := says_one h1
    obtain ⟨vs, hvs, rfl⟩ := ih h3
    exact ⟨v :: vs, .cons hv hvs, by rw [baseNodes_cons, he]; rfl⟩

/-! ### Constructors -/

theorem saysAll_before {v : Any} {as : List Arg} {w w' : W} {cs : List Call} {vs : List Any} :
    SaysAll L (.any v :: as) w cs vs w' ↔ ∃ us, vs = v :: us ∧ SaysAll L as w cs us w' := by
  constructor
  · intro h
    cases h with
    | cons h1 h2 => cases h1; exact ⟨_, rfl, h2⟩
  · rintro ⟨us, rfl, h⟩
    exact .cons (.any v w) h

theorem run_says (m : Maker) {as : List Arg} {w w' : W} {cs : List Call} {vs : List Any} (h : SaysAll L as w cs vs w')
    (hp : Heap) : ∃ k, ∀ fuel, k ≤ fuel → m.run L fuel as hp w = some (m.make vs hp, w', cs) := by
  obtain ⟨k, hk⟩ := newValues_says hp.dl h
  obtain ⟨k₂, hk₂⟩ := nodes_says hp.dl h
  cases m with
  | text => exact ⟨k, fun f hf => map_iff.2 ⟨_, map_iff.2 ⟨_, hk f hf, rfl⟩, rfl⟩⟩
  | comment => exact ⟨k, fun f hf => map_iff.2 ⟨_, map_iff.2 ⟨_, hk f hf, rfl⟩, rfl⟩⟩
  | fragment => exact ⟨k, fun f hf => map_iff.2 ⟨_, map_iff.2 ⟨_, hk f hf, rfl⟩, rfl⟩⟩
  | pi n => exact ⟨k, fun f hf => map_iff.2 ⟨_, map_iff.2 ⟨_, hk f hf, rfl⟩, rfl⟩⟩
  | «attribute» n => exact ⟨k, fun f hf => map_iff.2 ⟨_, map_iff.2 ⟨_, hk f hf, rfl⟩, rfl⟩⟩
  | delimited n d => exact ⟨k, fun f hf => map_iff.2 ⟨_, hk f hf, rfl⟩⟩
  | style n =>
    obtain ⟨k, hk⟩ := newValues_says hp.dl (saysAll_before.2 ⟨vs, rfl, h⟩ : SaysAll L (.any (.bytes n) :: as) w cs _ w')
    refine ⟨k, fun f hf => ?_⟩
    have := bind_some (k := fun v => NewDelimitedAttribute L f b%"style" b%"; " [.any (.value v)] hp)
      (map_iff.2 ⟨_, hk f hf, rfl⟩ : NewConcatValue L f hp.dl (.any (.bytes n) :: as) w = some (_, w', cs))
      (map_iff.2 ⟨_, rfl, rfl⟩)
    simp only [List.append_nil] at this
    exact this
  | element n => exact ⟨k₂, fun f hf => map_iff.2 ⟨_, hk₂ f hf, rfl⟩⟩
  | void n => exact ⟨k₂, fun f hf => map_iff.2 ⟨_, hk₂ f hf, rfl⟩⟩

theorem says_run (m : Maker) {fuel : Nat} {as : List Arg} {w w' : W} {cs : List Call} {hp : Heap} {r : Node × Heap}
    (h : m.run L fuel as hp w = some (r, w', cs)) : ∃ vs, SaysAll L as w cs vs w' ∧ r = m.make vs hp := by
  cases m with
  | text => obtain ⟨_, h1, rfl⟩ := map_iff.1 h; obtain ⟨_, h2, rfl⟩ := map_iff.1 h1; obtain ⟨vs, hv, rfl⟩ := says_newValues h2; exact ⟨vs, hv, rfl⟩
  | comment => obtain ⟨_, h1, rfl⟩ := map_iff.1 h; obtain ⟨_, h2, rfl⟩ := map_iff.1 h1; obtain ⟨vs, hv, rfl⟩ := says_newValues h2; exact ⟨vs, hv, rfl⟩
  | fragment => obtain ⟨_, h1, rfl⟩ := map_iff.1 h; obtain ⟨_, h2, rfl⟩ := map_iff.1 h1; obtain ⟨vs, hv, rfl⟩ := says_newValues h2; exact ⟨vs, hv, rfl⟩
  | pi n => obtain ⟨_, h1, rfl⟩ := map_iff.1 h; obtain ⟨_, h2, rfl⟩ := map_iff.1 h1; obtain ⟨vs, hv, rfl⟩ := says_newValues h2; exact ⟨vs, hv, rfl⟩
  | «attribute» n => obtain ⟨_, h1, rfl⟩ := map_iff.1 h; obtain ⟨_, h2, rfl⟩ := map_iff.1 h1; obtain ⟨vs, hv, rfl⟩ := says_newValues h2; exact ⟨vs, hv, rfl⟩
  | delimited n d => obtain ⟨_, h2, rfl⟩ := map_iff.1 h; obtain ⟨vs, hv, rfl⟩ := says_newValues h2; exact ⟨vs, hv, rfl⟩
  | style n =>
    obtain ⟨v, w₁, cs₁, cs₂, h1, h2, rfl⟩ := bind_inv h
    obtain ⟨_, h3, rfl⟩ := map_iff.1 h1
    obtain ⟨vs, hv, rfl⟩ := says_newValues h3
    obtain ⟨us, rfl, hus⟩ := saysAll_before.1 hv
    obtain ⟨_, h4, rfl⟩ := map_iff.1 h2
    obtain ⟨vs, hv, rfl⟩ := says_newValues h4
    obtain ⟨us', rfl, hus'⟩ := saysAll_before.1 hv
    cases hus'
    rw [List.append_nil]
    exact ⟨us, hus, rfl⟩
  | element n => obtain ⟨_, h2, rfl⟩ := map_iff.1 h; obtain ⟨vs, hv, rfl⟩ := says_nodes h2; exact ⟨vs, hv, rfl⟩
  | void n => obtain ⟨_, h2, rfl⟩ := map_iff.1 h; obtain ⟨vs, hv, rfl⟩ := says_nodes h2; exact ⟨vs, hv, rfl⟩

end Aitch.Live
