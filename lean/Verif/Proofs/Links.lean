import Verif.Spec.Links
import Verif.Proofs.Clean
import Verif.Proofs.Lines
/-
Templates whose links begin with text of their own.
-/
namespace Aitch

open Spec Markup

/-! ### URLs -/

theorem dropWhile_append' {α : Type} {p : α → Bool} {a : List α} (b : List α) (h : a.all p = false) :
    (a ++ b).dropWhile p = a.dropWhile p ++ b ∧ (a ++ b).takeWhile p = a.takeWhile p ∧ a.dropWhile p ≠ [] := by
  induction a with
  | nil => simp at h
  | cons x a ih =>
    by_cases hx : p x = true
    · have := ih (by simpa [hx] using h)
      simpa [hx] using this
    · simp [hx]

theorem dropWhile_all {α : Type} {p : α → Bool} {a : List α} (b : List α) (h : a.all p = true) :
    (a ++ b).dropWhile p = b.dropWhile p ∧ (a ++ b).takeWhile p = a ++ b.takeWhile p ∧ a.dropWhile p = [] := by
  induction a with
  | nil => simp
  | cons x a ih =>
    simp only [List.all_cons, Bool.and_eq_true] at h
    have := ih h.2
    simpa [h.1] using this

/-- The characters that a browser keeps in a URL. -/
def keptChar (c : UInt8) : Bool := decide (c ≠ 9 ∧ c ≠ 10 ∧ c ≠ 13)

theorem trimmed_append {s : Bytes} (t : Bytes) (h : trimmed s ≠ []) : trimmed (s ++ t) = trimmed s ++ t.filter keptChar := by
  by_cases ha : s.all (· ≤ 32) = true
  · exfalso
    apply h
    unfold trimmed
    rw [(dropWhile_all [] ha).2.2]; rfl
  · unfold trimmed
    rw [(dropWhile_append' t (by simpa using ha)).1, List.filter_append]; rfl

theorem trimmed_blank {s : Bytes} (t : Bytes) (h : trimmed s = []) : trimmed (s ++ t) = trimmed t := by
  by_cases ha : s.all (· ≤ 32) = true
  · unfold trimmed
    rw [(dropWhile_all t ha).1]
  · exfalso
    have hne := (dropWhile_append' (p := fun c : UInt8 => decide (c ≤ 32)) [] (by simpa using ha)).2.2
    have hx := List.head?_dropWhile_not (fun c : UInt8 => decide (c ≤ 32)) s
    unfold trimmed at h
    revert hne hx h
    cases s.dropWhile (fun c : UInt8 => decide (c ≤ 32)) with
    | nil => intro _ h1; exact (h1 rfl).elim
    | cons x l =>
      intro h2 _ h1
      simp only [List.head?_cons] at h1
      have hk : decide (x ≠ 9 ∧ x ≠ 10 ∧ x ≠ 13) = true := by
        rw [decide_eq_true_eq]
        refine ⟨?_, ?_, ?_⟩ <;> (rintro rfl; revert h1; decide)
      rw [List.filter_cons, if_pos hk] at h2
      cases h2

theorem settlesScheme_of {s : Bytes} (h1 : scheme (s ++ b%"a:") = scheme s) (h2 : scheme (s ++ b%":") = scheme s) :
    settlesScheme s = true := by
  unfold settlesScheme
  cases hs : trimmed s with
  | nil =>
    have := h1
    unfold scheme at this
    rw [trimmed_blank _ hs, hs] at this
    revert this; decide
  | cons c r =>
    simp only
    by_cases hc : letter c = true
    · by_cases ha : (c :: r).all schemeChar = true
      · exfalso
        have := h2
        unfold scheme at this
        rw [trimmed_append _ (by rw [hs]; simp), hs, List.cons_append] at this
        simp only at this
        rw [if_pos hc, if_pos hc, ← List.cons_append, (dropWhile_all _ ha).1, (dropWhile_all [] ha).2.2] at this
        have e : List.dropWhile schemeChar (List.filter keptChar b%":") = [c%':'] := by decide
        rw [e] at this
        simp at this
      · simp [ha]
    · simp [hc]

/-- The text settles the scheme exactly if nothing that can follow changes it. -/
theorem settlesScheme_iff (s : Bytes) : settlesScheme s = true ↔ ∀ t, scheme (s ++ t) = scheme s := by
  constructor
  · intro h t
    unfold settlesScheme at h
    cases hs : trimmed s with
    | nil => rw [hs] at h; simp at h
    | cons c r =>
      rw [hs] at h
      have ha := trimmed_append t (s := s) (by rw [hs]; simp)
      unfold scheme
      rw [ha, hs, List.cons_append]
      simp only
      by_cases hc : letter c = true
      · rw [if_pos hc, if_pos hc]
        simp only [hc, Bool.not_true, Bool.false_or, Bool.not_eq_true'] at h
        obtain ⟨h1, h2, h3⟩ := dropWhile_append' (t.filter keptChar) h
        rw [← List.cons_append, h1, h2]
        cases hd : List.dropWhile schemeChar (c :: r) with
        | nil => exact (h3 hd).elim
        | cons d l => rfl
      · rw [if_neg hc, if_neg hc]
  · exact fun h => settlesScheme_of (h _) (h _)

theorem scheme_of_trimmed {a b : Bytes} (h : trimmed a = trimmed b) : scheme a = scheme b := by
  unfold scheme; rw [h]

theorem settlesSite_of {s : Bytes} (h0 : OnSite (s ++ [])) (h1 : OnSite (s ++ b%"a:")) (h2 : OnSite (s ++ b%":"))
    (h3 : OnSite (s ++ b%"/")) : settlesSite s = true := by
  have colon : ∀ {c r}, trimmed s = c :: r → letter c = true → (c :: r).all schemeChar = true → ¬ OnSite (s ++ b%":") := by
    intro c r hs hc ha ho
    have := ho.1
    unfold scheme at this
    rw [trimmed_append _ (by rw [hs]; simp), hs, List.cons_append] at this
    simp only at this
    rw [if_pos hc, ← List.cons_append, (dropWhile_all _ ha).1] at this
    have e : List.dropWhile schemeChar (List.filter keptChar b%":") = [c%':'] := by decide
    rw [e] at this
    simp at this
  unfold settlesSite
  cases hs : trimmed s with
  | nil =>
    have := h1.1
    rw [scheme_of_trimmed (trimmed_blank _ hs)] at this
    revert this; decide
  | cons c r =>
    cases r with
    | nil =>
      simp only [Bool.and_eq_true, Bool.not_eq_true']
      refine ⟨?_, ?_⟩
      · by_cases hc : letter c = true
        · exfalso
          refine colon hs hc ?_ h2
          simp [schemeChar, hc]
        · simpa using hc
      · by_cases hc : slash c = true
        · exfalso
          refine h3.2 c c%'/' [] ?_ ⟨hc, by decide⟩
          rw [trimmed_append _ (by rw [hs]; simp), hs]; rfl
        · simpa using hc
    | cons d r =>
      simp only
      by_cases hc : slash c = true
      · rw [if_pos hc]
        by_cases hd : slash d = true
        · exfalso
          refine h0.2 c d r ?_ ⟨hc, hd⟩
          rw [List.append_nil, hs]
        · simpa using hd
      · rw [if_neg hc]
        by_cases hl : letter c = true
        · by_cases hall : (c :: d :: r).all schemeChar = true
          · exact (colon hs hl hall h2).elim
          · have hd3 := (dropWhile_append' [] (p := schemeChar) (a := c :: d :: r) (by simpa using hall)).2.2
            have := h0.1
            rw [List.append_nil] at this
            unfold scheme at this
            rw [hs] at this
            simp only at this
            rw [if_pos hl] at this
            cases hd : List.dropWhile schemeChar (c :: d :: r) with
            | nil => exact (hd3 hd).elim
            | cons e l =>
              rw [hd] at this
              simp only at this
              split at this
              · cases this
              · rename_i hne; simp [hl, hne]
        · simp [hl]

/-- The text settles that the URL leads to the site of the page exactly if it does whatever follows. -/
theorem settlesSite_iff (s : Bytes) : settlesSite s = true ↔ ∀ t, OnSite (s ++ t) := by
  have notSlash : ∀ {c}, letter c = true → slash c = false := by
    have : ∀ c : UInt8, letter c = true → slash c = false := forall_byte (by decide +kernel)
    exact fun {c} => this c
  constructor
  · intro h t
    unfold settlesSite at h
    cases hs : trimmed s with
    | nil => rw [hs] at h; simp at h
    | cons c r =>
      rw [hs] at h
      have ha := trimmed_append t (s := s) (by rw [hs]; simp)
      rw [hs] at ha
      -- a letter first: there is another character before any colon
      by_cases hc : letter c = true
      · cases r with
        | nil => simp [hc] at h
        | cons d r =>
          simp only [notSlash hc, Bool.false_eq_true, if_false, hc, Bool.not_true, Bool.false_or] at h
          by_cases hall : (c :: d :: r).all schemeChar = true
          · rw [(dropWhile_all [] hall).2.2] at h; simp at h
          · have h1 := (dropWhile_append' (t.filter keptChar) (a := c :: d :: r) (by simpa using hall)).1
            refine ⟨?_, fun x y l e hxy => ?_⟩
            · unfold scheme
              rw [ha, List.cons_append]
              simp only
              rw [if_pos hc, ← List.cons_append, h1]
              cases hd : List.dropWhile schemeChar (c :: d :: r) with
              | nil => rw [hd] at h; simp at h
              | cons e l =>
                rw [hd] at h
                simp only [bne_iff_ne, ne_eq] at h
                simp [h]
            · rw [ha] at e
              cases e
              rw [notSlash hc] at hxy
              simp at hxy
      · refine ⟨?_, fun x y l e hxy => ?_⟩
        · unfold scheme
          rw [ha, List.cons_append]
          simp only
          rw [if_neg hc]
        · rw [ha] at e
          cases r with
          | nil =>
            simp only [List.cons_append, List.nil_append, List.cons.injEq] at e
            rw [e.1] at h
            simp [hxy.1] at h
          | cons d r =>
            simp only [List.cons_append, List.cons.injEq] at e
            rw [e.1, e.2.1] at h
            simp [hxy.1, hxy.2] at h
  · exact fun h => settlesSite_of (h _) (h _) (h _) (h _)

/-- Two continuations tell. -/
theorem settlesScheme_iff' (s : Bytes) :
    settlesScheme s = true ↔ scheme (s ++ b%"a:") = scheme s ∧ scheme (s ++ b%":") = scheme s := by
  refine ⟨fun h => ⟨(settlesScheme_iff s).1 h _, (settlesScheme_iff s).1 h _⟩, fun ⟨h1, h2⟩ => ?_⟩
  exact settlesScheme_of h1 h2

/-- Four continuations tell. -/
theorem settlesSite_iff' (s : Bytes) :
    settlesSite s = true ↔ OnSite (s ++ []) ∧ OnSite (s ++ b%"a:") ∧ OnSite (s ++ b%":") ∧ OnSite (s ++ b%"/") :=
  ⟨fun h => ⟨(settlesSite_iff s).1 h _, (settlesSite_iff s).1 h _, (settlesSite_iff s).1 h _, (settlesSite_iff s).1 h _⟩,
    fun ⟨h0, h1, h2, h3⟩ => settlesSite_of h0 h1 h2 h3⟩

/-- Line ends make no difference to a URL. -/
theorem trimmed_newlines : ∀ v, trimmed (newlines v) = trimmed v := by
  have kept : ∀ v, (newlines v).filter keptChar = v.filter keptChar := by
    intro v
    fun_induction newlines v with
    | case1 => rfl
    | case2 c =>
      by_cases h : c = 13
      · subst h; decide
      · rw [if_neg h]
    | case3 rest ih =>
      rw [List.filter_cons_of_neg (by decide), List.filter_cons_of_neg (by decide), List.filter_cons_of_neg (by decide), ih]
    | case4 c d rest _ ih =>
      by_cases h : c = 13
      · subst h
        rw [if_pos rfl, List.filter_cons_of_neg (by decide), ih]
        exact (List.filter_cons_of_neg (by decide)).symm
      · rw [if_neg h, List.filter_cons, ih, List.filter_cons (x := c)]
  intro v
  unfold trimmed
  show ((newlines v).dropWhile _).filter keptChar = (v.dropWhile _).filter keptChar
  fun_induction newlines v with
  | case1 => rfl
  | case2 c =>
    by_cases h : c = 13
    · subst h; decide
    · rw [if_neg h]
  | case3 rest ih =>
    rw [List.dropWhile_cons_of_pos (by decide), List.dropWhile_cons_of_pos (by decide), List.dropWhile_cons_of_pos (by decide), ih]
  | case4 c d rest _ ih =>
    by_cases h : c = 13
    · subst h
      rw [if_pos rfl, List.dropWhile_cons_of_pos (by decide), ih]
      exact congrArg _ (List.dropWhile_cons_of_pos (by decide)).symm
    · rw [if_neg h]
      by_cases hc : c ≤ 32
      · rw [List.dropWhile_cons_of_pos (by simpa using hc), ih, List.dropWhile_cons_of_pos (a := c) (by simpa using hc)]
      · rw [List.dropWhile_cons_of_neg (by simpa using hc), List.dropWhile_cons_of_neg (a := c) (by simpa using hc),
          List.filter_cons, kept, List.filter_cons (x := c)]

/-! ### Pages -/

theorem seen_append (a b : Bytes) : seen (a ++ b) = seen a ++ seen b := List.filter_append ..

/-- The rule: attributes with names in `U` have values that satisfy `F`. -/
def Rule.fixes (P : Fns) (U : List Bytes) (F : Bytes → Prop) : Rule P where
  ok
    | .plain n vs => lower n ∈ U → ∃ s rest, vs = .mk (escaped s) none [] :: rest ∧ F (seen s) ∧
        (rest ≠ [] → ∀ t, F (seen s ++ t))
    | .bool n => lower n ∈ U → F []
    | .delim n _ _ => lower n ∉ U
  value n v := lower n ∈ U → F (seen (v.getD []))
  bool _ h := h
  plain n vs h S c hc hs := by
    by_cases hn : lower n ∈ U
    · obtain ⟨s, rest, rfl, h1, h2⟩ := h hn
      obtain ⟨t, ht⟩ := esc_values S hc rest hs.2
      refine ⟨s ++ t, ?_, fun _ => ?_⟩
      · unfold valuesBytes
        rw [ht, escaped_append]
        unfold valueBytes
        rfl
      · simp only [Option.getD_some, seen_append]
        by_cases hr : rest = []
        · subst hr
          have : seen t = [] := by
            have : escaped t = [] := by rw [← ht]; rfl
            unfold seen
            rw [List.filter_eq_nil_iff]
            intro c hc h0
            have h0 : c ≠ 0 := by simpa using h0
            obtain ⟨a, b, rfl⟩ := List.append_of_mem hc
            rw [escaped_append] at this
            have := List.append_eq_nil_iff.1 this
            have : escapedByte c ++ escaped b = [] := this.2
            have := (List.append_eq_nil_iff.1 this).1
            unfold escapedByte at this
            repeat' split at this
            all_goals first | exact h0 (by assumption) | simp at this
          rw [this, List.append_nil]
          exact h1
        · exact h2 hr _
    · exact (esc_values S hc vs hs).imp fun s h => ⟨h, fun h => (hn h).elim⟩
  delim n _ _ h s hn := (h hn).elim

theorem fixes_allows {P : Fns} {U : List Bytes} {F : Bytes → Prop} (d : Decl) (h : Fixes U F d) :
    (Rule.fixes P U F).Allows d := by
  cases d with
  | plain n values =>
    intro dl hn
    obtain ⟨s, rest, rfl, h1, h2⟩ := h hn
    refine ⟨s, newValues dl rest, ?_, h1, fun hr => h2 fun e => hr (by rw [e]; rfl)⟩
    rw [newValues_cons]
    simp [newValue, valueToBytes, escaped_eq]
  | boolean n => exact h
  | delimited n d vs => exact fun _ => h

/-- The attributes of a tag satisfy `F`. -/
def TokFixed (U : List Bytes) (F : Bytes → Prop) : Tok → Prop
  | .start _ attrs _ => ∀ a ∈ attrs, a.1 ∈ U → F a.2
  | _ => True

theorem startTok_fixed {U : List Bytes} {F : Bytes → Prop} {name : Bytes} {attrs : List (Bytes × Option Bytes)}
    (h : ∀ a ∈ attrs, lower a.1 ∈ U → F (seen (a.2.getD []))) : TokFixed U F (startTok name attrs) := by
  intro a ha hu
  obtain ⟨b, hb, rfl⟩ := List.mem_map.1 ha
  exact h b hb hu

mutual
theorem toks_fixed {U : List Bytes} {F : Bytes → Prop} : (raw : Bool) → (t : Tree) →
    Valued (fun n v => lower n ∈ U → F (seen (v.getD []))) t → ∀ k ∈ toks raw t, TokFixed U F k
  | raw, .element name attrs children, h => by
    intro k hk
    unfold toks at hk
    rcases List.mem_append.1 hk with hk | hk
    · rcases List.mem_cons.1 hk with rfl | hk
      · exact startTok_fixed h.1
      · exact toksAll_fixed _ children h.2 k hk
    · rw [List.mem_singleton] at hk
      subst hk
      trivial
  | raw, .void name attrs, h => by
    intro k hk
    unfold toks at hk
    rw [List.mem_singleton] at hk
    subst hk
    exact startTok_fixed h
  | raw, .text s, _ => by
    intro k hk
    unfold toks at hk
    obtain ⟨c, _, rfl⟩ := List.mem_map.1 hk
    trivial
  | raw, .comment s, _ => by
    intro k hk
    unfold toks at hk
    rw [List.mem_singleton] at hk
    subst hk
    trivial
  | raw, .doctype s, _ => by
    intro k hk
    unfold toks at hk
    simp only [List.mem_cons, List.not_mem_nil, or_false] at hk
    rcases hk with rfl | rfl <;> trivial
theorem toksAll_fixed {U : List Bytes} {F : Bytes → Prop} : (raw : Bool) → (ts : List Tree) →
    ValuedAll (fun n v => lower n ∈ U → F (seen (v.getD []))) ts → ∀ k ∈ toksAll raw ts, TokFixed U F k
  | _, [], _ => by simp [toksAll]
  | raw, t :: ts, h => by
    intro k hk
    unfold toksAll at hk
    rcases List.mem_append.1 hk with hk | hk
    · exact toks_fixed raw t h.1 k hk
    · exact toksAll_fixed raw ts h.2 k hk
end

/-- In a page of a template in which the beginnings of attributes settle what matters, it is so. -/
theorem page_fixed {A B : List Bytes} (N : GoodNames A B) {P : Fns} (F' : BuiltFns P) (S : SafeFns P) {c : Ctx}
    (he : c.frame.err = none) (hc : SafeCtx c) {U : List Bytes} {F : Bytes → Prop} {n : Node}
    (ht : TidyWith P A B .html (Fixes U F) false n) (hn : n.isAttr = false) (R : CharRefs) {w : Bytes}
    (hr : Renders P c n w) :
    ∀ name attrs sc, .start name attrs sc ∈ readHtml R w → ∀ a ∈ attrs, a.1 ∈ U → F a.2 := by
  rw [(tidy_built ht).renders_iff F' he] at hr
  obtain ⟨ts, h1, _, h3, _, _, h5⟩ := out_trees N S hr hc hn (tidyWith_clean fixes_allows ht)
  intro name attrs sc h
  rw [h1, read_write R ts h3] at h
  exact toksAll_fixed false ts h5 _ (items_start h)

/-- The same for what a browser sees, if line ends make no difference. -/
theorem page_fixed_browser {A B : List Bytes} (N : GoodNames A B) {P : Fns} (F' : BuiltFns P) (S : SafeFns P) {c : Ctx}
    (he : c.frame.err = none) (hc : SafeCtx c) {U : List Bytes} {F : Bytes → Prop} (hF : ∀ v, F v → F (newlines v)) {n : Node}
    (ht : TidyWith P A B .html (Fixes U F) false n) (hn : n.isAttr = false) (R : CharRefs) {w : Bytes}
    (hr : Renders P c n w) :
    ∀ name attrs sc, .start name attrs sc ∈ readPage R w → ∀ a ∈ attrs, a.1 ∈ U → F a.2 := by
  rw [(tidy_built ht).renders_iff F' he] at hr
  obtain ⟨ts, h1, _, h3, _, _, h5⟩ := out_trees N S hr hc hn (tidyWith_clean fixes_allows ht)
  intro name attrs sc h
  rw [readPage, h1, read_newlines R ts h3, mem_dropFirst (by simp)] at h
  obtain ⟨i, hi, e⟩ := List.mem_map.1 h
  cases i <;> simp only [Item.lines, Item.start.injEq, reduceCtorEq] at e
  obtain ⟨rfl, rfl, rfl⟩ := e
  intro a ha hu
  obtain ⟨b, hb, rfl⟩ := List.mem_map.1 ha
  exact hF _ (toksAll_fixed false ts h5 _ (items_start hi) b hb hu)

theorem TidyWith.mono {P : Fns} {A B : List Bytes} {L : Syntax} {K K' : Decl → Prop} (hK : ∀ d, K d → K' d) {text : Bool}
    {n : Node} (h : TidyWith P A B L K text n) : TidyWith P A B L K' text n := by
  induction h with
  | newElement name contents h h1 h2 h3 _ ih => exact .newElement name contents h h1 h2 h3 ih
  | newTextElement name contents h h1 h2 h3 _ ih => exact .newTextElement name contents h h1 h2 h3 ih
  | newVoidElement name contents h hL h1 h2 _ ih => exact .newVoidElement name contents h hL h1 h2 ih
  | newAttribute text dl name values h1 hk h2 => exact .newAttribute text dl name values h1 (hK _ hk) h2
  | newBooleanAttribute text name hL h1 hk => exact .newBooleanAttribute text name hL h1 (hK _ hk)
  | newDelimitedAttribute text name d values h h1 hk h2 h3 => exact .newDelimitedAttribute text name d values h h1 (hK _ hk) h2 h3
  | text text dl contents h => exact .text text dl contents h
  | fragment text dl contents h => exact .fragment text dl contents h
  | comment dl contents hL h => exact .comment dl contents hL h
  | docType dl hL => exact .docType dl hL
  | collection text nodes _ ih => exact .collection text nodes ih
  | contentCollect text f _ ih => exact .contentCollect text f ih
  | conditional text fn nodes n _ e ih => exact .conditional text fn nodes n ih e
  | when text key nodes n _ e ih => exact .when text key nodes n ih e
  | iterate text fn nodes n _ e ih => exact .iterate text fn nodes n ih e
  | iterateKey text key nodes n _ e ih => exact .iterateKey text key nodes n ih e
  | iterateYield text fn nodes n _ e ih => exact .iterateYield text fn nodes n ih e
  | imperative f h1 _ h3 _ h5 ih2 ih4 => exact .imperative f h1 ih2 h3 ih4 h5
  | document lang head body h hL h1 h2 h3 h4 hk h5 h6 _ _ ih1 ih2 =>
    exact .document lang head body h hL h1 h2 h3 h4 (hK _ hk) h5 h6 ih1 ih2

theorem schemes_fixes {U : List Bytes} {allowed : List (Option Bytes)} (d : Decl) (h : Schemes U allowed d) :
    Fixes U (fun v => scheme v ∈ allowed) d := by
  cases d with
  | plain name values =>
    intro hn
    obtain ⟨s, rest, h1, h2, h3⟩ := h hn
    exact ⟨s, rest, h1, h2, fun hr t => by
      show scheme _ ∈ allowed
      rw [(settlesScheme_iff _).1 (h3 hr) t]; exact h2⟩
  | boolean name => exact h
  | delimited name d vs => exact h

theorem local_fixes {U : List Bytes} (d : Decl) (h : LeadsHome U d) : Fixes U OnSite d := by
  cases d with
  | plain name values =>
    intro hn
    obtain ⟨s, rest, h1, h2, h3⟩ := h hn
    exact ⟨s, rest, h1, h2, fun hr => (settlesSite_iff _).1 (h3 hr)⟩
  | boolean name => exact fun _ => ⟨by decide, by simp [trimmed]⟩
  | delimited name d vs => exact h

end Aitch
