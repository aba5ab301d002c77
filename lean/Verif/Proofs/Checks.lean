import Verif.Proofs.Page
/-
Conditions on the pages of the samples, checked.
-/
namespace Aitch.Spec.Markup

def properAttrs (as : List (Bytes × Option Bytes)) : Bool :=
  as.all (fun a => htmlTagMatch a.1) && decide (as.map fun a => lower a.1).Nodup

def Tree.isText : Tree → Bool
  | .text _ => true
  | _ => false

mutual
def properB : Tree → Bool
  | .element name attrs kids => htmlTagMatch name && decide (lower name ≠ b%"plaintext") && properAttrs attrs &&
      (if lower name ∈ textNames then kids.all Tree.isText else properAllB kids)
  | .void name attrs => htmlTagMatch name && decide (lower name ≠ b%"plaintext") && properAttrs attrs &&
      decide (lower name ∉ textNames)
  | _ => true
def properAllB : List Tree → Bool
  | [] => true
  | t :: ts => properB t && properAllB ts
end

theorem properAttrs_ok {as : List (Bytes × Option Bytes)} (h : properAttrs as = true) : AttrsOK as := by
  rw [properAttrs, Bool.and_eq_true, List.all_eq_true] at h
  exact ⟨fun a ha => (htmlTagMatch_iff _).1 (h.1 a ha), of_decide_eq_true h.2⟩

theorem isText_ok {t : Tree} (h : t.isText = true) : t.IsText := by
  cases t <;> trivial

mutual
theorem properB_ok : ∀ t, properB t = true → Proper t
  | .element name attrs kids, h => by
    simp only [properB, Bool.and_eq_true, decide_eq_true_eq] at h
    refine ⟨(htmlTagMatch_iff _).1 h.1.1.1, h.1.1.2, properAttrs_ok h.1.2, ?_⟩
    by_cases hn : lower name ∈ textNames
    · refine .inl ⟨hn, fun t ht => ?_⟩
      have := h.2
      rw [if_pos hn, List.all_eq_true] at this
      exact isText_ok (this t ht)
    · have := h.2
      rw [if_neg hn] at this
      exact .inr ⟨hn, properAllB_ok _ this⟩
  | .void name attrs, h => by
    simp only [properB, Bool.and_eq_true, decide_eq_true_eq] at h
    exact ⟨(htmlTagMatch_iff _).1 h.1.1.1, h.1.1.2, properAttrs_ok h.1.2, h.2⟩
  | .text _, _ => trivial
  | .comment _, _ => trivial
  | .doctype _, _ => trivial
theorem properAllB_ok : ∀ ts, properAllB ts = true → ProperAll ts
  | [], _ => trivial
  | t :: ts, h => by
    rw [properAllB, Bool.and_eq_true] at h
    exact ⟨properB_ok t h.1, properAllB_ok ts h.2⟩
end

def simpleB (s : Bytes) : Bool := s.all fun c => !(b%"<>&\"'").contains c

theorem simpleB_ok {s : Bytes} (h : simpleB s = true) : Simple s := by
  intro c hc
  have := List.all_eq_true.1 h c hc
  simpa using this

mutual
def literalB (raw : Bool) : Tree → Bool
  | .element name _ kids => literalAllB (decide (lower name ∈ rawtextNames)) kids
  | .void _ _ => true
  | .text s => !raw || simpleB s
  | .comment s => simpleB s
  | .doctype s => simpleB s
def literalAllB (raw : Bool) : List Tree → Bool
  | [] => true
  | t :: ts => literalB raw t && literalAllB raw ts
end

mutual
theorem literalB_ok : ∀ raw t, literalB raw t = true → Literal raw t
  | _, .element name _ kids, h => literalAllB_ok _ _ (by simpa only [literalB] using h)
  | _, .void _ _, _ => trivial
  | raw, .text s, h => by
    intro hr
    subst hr
    exact simpleB_ok (by simpa [literalB] using h)
  | _, .comment _, h => simpleB_ok (by simpa only [literalB] using h)
  | _, .doctype _, h => simpleB_ok (by simpa only [literalB] using h)
theorem literalAllB_ok : ∀ raw ts, literalAllB raw ts = true → LiteralAll raw ts
  | _, [], _ => trivial
  | raw, t :: ts, h => by
    rw [literalAllB, Bool.and_eq_true] at h
    exact ⟨literalB_ok raw t h.1, literalAllB_ok raw ts h.2⟩
end

def Part.hasString (c : Ctx) : Part → Bool
  | .lit _ => true
  | .key k => match keyValue c k with
    | some (.str _) => true
    | some .nil => true
    | none => true
    | _ => false

theorem hasString_ok {c : Ctx} {p : Part} (h : p.hasString c = true) : p.HasString c := by
  cases p with
  | lit => trivial
  | key k =>
    rw [Part.hasString] at h
    rw [Part.HasString]
    split at h <;> first | cases h; done | simp [*]

def attrStringsB (c : Ctx) (as : List (Bytes × Option (List Part))) : Bool :=
  as.all fun a => (a.2.getD []).all (Part.hasString c)

theorem attrStringsB_ok {c : Ctx} {as : List (Bytes × Option (List Part))} (h : attrStringsB c as = true) :
    AttrStrings c as := fun a ha p hp =>
  hasString_ok (List.all_eq_true.1 (List.all_eq_true.1 h a ha) p hp)

mutual
def stringsB (c : Ctx) : Src → Bool
  | .element _ as kids => attrStringsB c as && stringsAllB c kids
  | .void _ as => attrStringsB c as
  | .text ps => ps.all (Part.hasString c)
  | .comment ps => ps.all (Part.hasString c)
def stringsAllB (c : Ctx) : List Src → Bool
  | [] => true
  | t :: ts => stringsB c t && stringsAllB c ts
end

mutual
theorem stringsB_ok (c : Ctx) : ∀ t, stringsB c t = true → Strings c t
  | .element _ as kids, h => by
    rw [stringsB, Bool.and_eq_true] at h
    exact ⟨attrStringsB_ok h.1, stringsAllB_ok c _ h.2⟩
  | .void _ as, h => attrStringsB_ok (by simpa only [stringsB] using h)
  | .text ps, h => fun p hp => hasString_ok (List.all_eq_true.1 (by simpa only [stringsB] using h) p hp)
  | .comment ps, h => fun p hp => hasString_ok (List.all_eq_true.1 (by simpa only [stringsB] using h) p hp)
theorem stringsAllB_ok (c : Ctx) : ∀ ts, stringsAllB c ts = true → StringsAll c ts
  | [], _ => trivial
  | t :: ts, h => by
    rw [stringsAllB, Bool.and_eq_true] at h
    exact ⟨stringsB_ok c t h.1, stringsAllB_ok c ts h.2⟩
end

/-- All that is asked of a page but where its elements are. -/
def Page.checks (c : Ctx) (p : Page) : Bool :=
  (p.lang.all (Part.hasString c) && attrStringsB c p.headAttrs && stringsAllB c p.head && attrStringsB c p.bodyAttrs &&
    stringsAllB c p.body) && (properAllB (p.trees c) && literalAllB false (p.trees c) &&
    ((items (meantAll (p.trees c))).all fun i => i.strings.all fun s => !s.contains 13) &&
    firstKept (items (meantAll (p.trees c))))

theorem Page.checks_ok {c : Ctx} {p : Page} (h : p.checks c = true) : p.Strings c ∧ ProperAll (p.trees c) ∧
    LiteralAll false (p.trees c) ∧ LinesKept (items (meantAll (p.trees c))) := by
  simp only [Page.checks, Bool.and_eq_true] at h
  obtain ⟨⟨⟨⟨⟨h1, h2⟩, h3⟩, h4⟩, h5⟩, ⟨⟨h6, h7⟩, h8⟩, h9⟩ := h
  refine ⟨⟨fun l e => ?_, attrStringsB_ok h2, stringsAllB_ok _ _ h3, attrStringsB_ok h4, stringsAllB_ok _ _ h5⟩,
    properAllB_ok _ h6, literalAllB_ok _ _ h7, linesKept_of h8 h9⟩
  rw [e] at h1
  exact hasString_ok h1

end Aitch.Spec.Markup
