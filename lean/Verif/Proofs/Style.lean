import Verif.Spec.Style
/-
Reading declarations back.
-/
namespace Aitch.Spec.Css

theorem split_read {s s' : State} {v out : Bytes} (h : read s v = some (s', out)) (acc rest : Bytes) :
    split s acc (v ++ rest) = split s' (acc ++ out) rest := by
  induction v generalizing s acc out with
  | nil =>
    simp only [read, Option.some.injEq, Prod.mk.injEq] at h
    simp [h.1, ← h.2]
  | cons c v ih =>
    simp only [read] at h
    rw [List.cons_append, split]
    generalize hs : step s c = r at h
    obtain ⟨o, _ | s1⟩ := r
    · cases h
    · simp only [Option.map_eq_some_iff] at h
      obtain ⟨⟨s2, o2⟩, h1, h2⟩ := h
      simp only [Prod.mk.injEq] at h2
      simp only
      rw [ih (h2.1 ▸ h1), ← h2.2, List.append_assoc]

theorem read_append {s s' s'' : State} {v v' out out' : Bytes} (h : read s v = some (s', out))
    (h' : read s' v' = some (s'', out')) : read s (v ++ v') = some (s'', out ++ out') := by
  induction v generalizing s out with
  | nil =>
    simp only [read, Option.some.injEq, Prod.mk.injEq] at h
    simp [h.1, ← h.2, h']
  | cons c v ih =>
    simp only [read] at h
    rw [List.cons_append, read]
    generalize hs : step s c = r at h
    obtain ⟨o, _ | s1⟩ := r
    · cases h
    · simp only [Option.map_eq_some_iff] at h
      obtain ⟨⟨s2, o2⟩, h1, h2⟩ := h
      simp only [Prod.mk.injEq] at h2
      simp only
      rw [ih (h2.1 ▸ h1), ← h2.2]
      simp

/-- The name of a property with its colon, as the functions of the library write it. -/
structure Prefix (k : Bytes) : Prop where
  read : read start (k ++ b%":") = some (start, k ++ b%":")
  name : ∀ c ∈ k, isNameChar c = true
  start : isName k = true

theorem isSpace_name {c : UInt8} (h : isNameChar c = true) : isSpace c = false := by
  have : ∀ n : Fin 256, isNameChar (UInt8.ofNat n.1) = true → isSpace (UInt8.ofNat n.1) = false := by decide +kernel
  have h1 := this ⟨c.toNat, c.toNat_lt⟩
  simpa [h] using h1

theorem declaration_prefix {k v pre : Bytes} (hk : Prefix k) (hp : ∀ c ∈ pre, isSpace c = true) (hv : trim v = v) :
    declaration (pre ++ (k ++ b%":" ++ v)) = some (k, v) := by
  have h1 : trimStart (pre ++ (k ++ b%":" ++ v)) = k ++ b%":" ++ v := by
    unfold trimStart
    rw [List.dropWhile_append_of_pos hp]
    have := hk.start
    cases k with
    | nil => cases this
    | cons c k => simp [isSpace_name (hk.name c (by simp))]
  have h2 : (k ++ b%":" ++ v).takeWhile isNameChar = k := by
    rw [List.append_assoc, List.takeWhile_append_of_pos hk.name]
    simp [isNameChar]
  have h3 : (k ++ b%":" ++ v).dropWhile isNameChar = b%":" ++ v := by
    rw [List.append_assoc, List.dropWhile_append_of_pos hk.name]
    simp [isNameChar]
  have h4 : trimStart (b%":" ++ v) = c%':' :: v := by simp [trimStart, isSpace]
  simp only [declaration, h1, h2, h3, h4]
  simp [hk.start, hv]

/-- Declarations separated by `; ` are read one by one. -/
theorem declarations_join (ds : List (Bytes × Bytes)) (h : ∀ d ∈ ds, Prefix d.1 ∧ Contained d.2 ∧ trim d.2 = d.2) :
    declarations (List.intercalate b%"; " (ds.map fun d => d.1 ++ b%":" ++ d.2)) = ds := by
  have key : ∀ (ds : List (Bytes × Bytes)) (d : Bytes × Bytes) (pre : Bytes), (∀ c ∈ pre, isSpace c = true) →
      (∀ d' ∈ d :: ds, Prefix d'.1 ∧ Contained d'.2 ∧ trim d'.2 = d'.2) →
      (split start pre (List.intercalate b%"; " ((d :: ds).map fun d => d.1 ++ b%":" ++ d.2))).filterMap declaration =
        d :: ds := by
    intro ds
    induction ds with
    | nil =>
      intro d pre hp h
      obtain ⟨h1, ⟨n, h2⟩, h3⟩ := h d (by simp)
      have hr := read_append h1.read h2
      rw [show List.intercalate b%"; " ([d].map fun d => d.1 ++ b%":" ++ d.2) = (d.1 ++ b%":" ++ d.2) ++ [] by
        simp [List.intercalate], split_read hr]
      have := declaration_prefix h1 hp h3
      simp only [split, reduceCtorEq, if_false, List.append_nil, List.filterMap_cons, this, List.filterMap_nil]
    | cons e ds ih =>
      intro d pre hp h
      obtain ⟨h1, ⟨n, h2⟩, h3⟩ := h d (by simp)
      have hr := read_append h1.read h2
      have hi : List.intercalate b%"; " ((d :: e :: ds).map fun d => d.1 ++ b%":" ++ d.2) =
          (d.1 ++ b%":" ++ d.2) ++ (c%';' :: c%' ' :: List.intercalate b%"; " ((e :: ds).map fun d => d.1 ++ b%":" ++ d.2)) := by
        simp [List.intercalate]
      rw [hi, split_read hr, split]
      have hs : step ⟨.plain, [], n⟩ c%';' = ([], none) := rfl
      rw [hs]
      simp only
      rw [split]
      have hs : step start c%' ' = ([c%' '], some start) := rfl
      rw [hs]
      simp only [List.append_nil, List.nil_append]
      have := declaration_prefix h1 hp h3
      rw [List.filterMap_cons, this]
      simp only
      rw [ih e [c%' '] (by simp [isSpace]) fun d' hd' => h d' (List.mem_cons_of_mem _ hd')]
  cases ds with
  | nil => rfl
  | cons d ds => exact key ds d [] (by simp) h

/-- A text without quotes, brackets, semicolons, slashes and backslashes is contained. -/
theorem contained_simple {v : Bytes} (h : ∀ c ∈ v, c ∉ b%";\"'\\/()[]{}") : Contained v := by
  have key : ∀ (v : Bytes) (n : Bytes), (∀ c ∈ v, c ∉ b%";\"'\\/()[]{}") →
      ∃ n', read ⟨.plain, [], n⟩ v = some (⟨.plain, [], n'⟩, v) := by
    intro v
    induction v with
    | nil => intro n _; exact ⟨n, rfl⟩
    | cons c v ih =>
      intro n h
      have hc := h c (by simp)
      simp only [List.mem_cons, not_or, List.not_mem_nil, not_false_eq_true, and_true] at hc
      obtain ⟨a1, a2, a3, a4, a5, a6, a7, a8, a9, a10, a11⟩ := hc
      have hs : ∃ n', step ⟨.plain, [], n⟩ c = ([c], some ⟨.plain, [], n'⟩) := by
        simp only [step, stepPlain, a1, a2, a3, a4, a5, a6, a8, a10, false_and, if_false, or_self, List.head?_nil,
          reduceCtorEq]
        split
        · exact ⟨_, rfl⟩
        · exact ⟨_, rfl⟩
      obtain ⟨n', hs⟩ := hs
      obtain ⟨n'', hr⟩ := ih n' fun d hd => h d (by simp [hd])
      exact ⟨n'', by simp [read, hs, hr]⟩
  exact key v [] h

end Aitch.Spec.Css
