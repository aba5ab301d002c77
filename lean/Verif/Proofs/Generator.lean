import Verif.Spec.Generator
/-
Lemmas about GenerateCode.
-/
namespace Aitch

open Spec

/-! ### What is written -/

section
variable {w : Writer} (hw : Accepts w) (p : GenPkg)

/-- In state `s`, with no error, having written `o` and with indentation `n`. -/
structure GenAt (s : GenSt) (n : Nat) (o : Bytes) : Prop where
  err : s.err = none
  indent : s.indent = n
  out : accepted s.log = o

theorem GenAt.eq {s : GenSt} {n : Nat} {o o' : Bytes} (h : GenAt s n o) (e : o = o') : GenAt s n o' := e ▸ h

include hw

theorem GenAt.put {s : GenSt} {n : Nat} {o : Bytes} (h : GenAt s n o) (d : Bytes) : GenAt (gput w d s) n (o ++ d) := by
  refine ⟨?_, h.indent, ?_⟩
  · simp [gput, hw _ _]
  · rw [← h.out]; simp [gput, hw _ _, accepted]

theorem GenAt.ind {s : GenSt} {n : Nat} {o : Bytes} (h : GenAt s n o) :
    GenAt (gindent w s) n (o ++ List.replicate n 9) := by
  unfold gindent; rw [h.indent]; exact h.put hw _

theorem GenAt.line {s : GenSt} {n : Nat} {o : Bytes} (h : GenAt s n o) (d : Bytes) :
    GenAt (gwrite w d s) n (o ++ (List.replicate n 9 ++ (d ++ [10]))) := by
  exact (((h.ind hw).put hw d).put hw [10]).eq (by simp)

/-- The code of an attribute. -/
def attrCode (p : GenPkg) (a : Bytes × Bytes) : Bytes :=
  match p.attrs.lookup (toLower a.1) with
  | some f =>
    if p.bools.contains (toLower a.1) then p.pre ++ f ++ b%"()"
    else p.pre ++ f ++ (b%"(\"" ++ (genEscape a.2 ++ b%"\")"))
  | none => b%"aitch.Attribute(\"" ++ (a.1 ++ (b%"\" ,\"" ++ (genEscape a.2 ++ b%"\")")))

theorem GenAt.attr {s : GenSt} {n : Nat} {o : Bytes} (h : GenAt s n o) (a : Bytes × Bytes) :
    GenAt (writeAttr w p a.1 a.2 s) n (o ++ attrCode p a) := by
  unfold writeAttr attrCode
  cases p.attrs.lookup (toLower a.1) with
  | some f =>
    simp only
    split
    · exact ((h.put hw (funcName p f)).put hw b%"()").eq (by simp [funcName])
    · exact ((((h.put hw (funcName p f)).put hw b%"(\"").put hw (genEscape a.2)).put hw b%"\")").eq (by simp [funcName])
  | none =>
    exact (((((h.put hw b%"aitch.Attribute(\"").put hw a.1).put hw b%"\" ,\"").put hw (genEscape a.2)).put hw b%"\")").eq
      (by simp)

/-- The code of attributes after the first one. -/
def attrsCodeFrom (p : GenPkg) (as : List (Bytes × Bytes)) : Bytes := as.flatMap fun a => b%", " ++ attrCode p a

/-- The code of a list of attributes. -/
def attrsCode (p : GenPkg) : List (Bytes × Bytes) → Bytes
  | [] => []
  | a :: as => attrCode p a ++ attrsCodeFrom p as

theorem GenAt.attrsFrom {s : GenSt} {n : Nat} {o : Bytes} (h : GenAt s n o) (as : List (Bytes × Bytes)) :
    GenAt (writeAttrsFrom w p as s) n (o ++ attrsCodeFrom p as) := by
  induction as generalizing s o with
  | nil => exact h.eq (by simp [attrsCodeFrom])
  | cons a as ih => exact (ih ((h.put hw b%", ").attr hw p a)).eq (by simp [attrsCodeFrom])

theorem GenAt.attrs {s : GenSt} {n : Nat} {o : Bytes} (h : GenAt s n o) (as : List (Bytes × Bytes)) :
    GenAt (writeAttrs w p as s) n (o ++ attrsCode p as) := by
  cases as with
  | nil => exact h.eq (by simp [attrsCode])
  | cons a as => exact ((h.attr hw p a).attrsFrom hw p as).eq (by simp [attrsCode])

/-- The code of a start tag. -/
def startCode (p : GenPkg) (name : Bytes) (as : List (Bytes × Bytes)) : Bytes :=
  elementStart p name ++ (attrsCode p as ++ ((if as.isEmpty then [] else b%",") ++ [10]))

/-- The code of a self-closing tag. -/
def selfCode (p : GenPkg) (name : Bytes) (as : List (Bytes × Bytes)) : Bytes :=
  elementStart p name ++ (attrsCode p as ++ b%"),\n")

theorem GenAt.start {s : GenSt} {n : Nat} {o : Bytes} (h : GenAt s n o) (name : Bytes) (as : List (Bytes × Bytes)) :
    GenAt (writeElementStart w p name as false s) (n + 1) (o ++ (List.replicate n 9 ++ startCode p name as)) := by
  have h1 := (((h.ind hw).put hw (elementStart p name)).attrs hw p as)
  cases as with
  | nil =>
    have h2 := h1.put hw [10]
    refine ⟨h2.err, congrArg (· + 1) h2.indent, ?_⟩
    refine Eq.trans h2.out ?_
    simp [startCode, attrsCode]
  | cons a as =>
    have h2 := (h1.put hw b%",").put hw [10]
    refine ⟨h2.err, congrArg (· + 1) h2.indent, ?_⟩
    refine Eq.trans h2.out ?_
    simp [startCode]

theorem GenAt.self {s : GenSt} {n : Nat} {o : Bytes} (h : GenAt s n o) (name : Bytes) (as : List (Bytes × Bytes)) :
    GenAt (writeElementStart w p name as true s) n (o ++ (List.replicate n 9 ++ selfCode p name as)) := by
  have h0 := (h.ind hw).put hw (elementStart p name)
  cases as with
  | nil =>
    exact (h0.put hw b%"),\n").eq (by simp [selfCode, attrsCode])
  | cons a as =>
    exact (((h0.attrs hw p (a :: as)).put hw b%"),").put hw [10]).eq (by simp [selfCode])

omit hw in
theorem genLoop_cons {fin : Option Err} {t : Token} {ts : List Token} {s : GenSt} (h : s.err = none) :
    genLoop w p fin (t :: ts) s = genLoop w p fin ts (genToken w p t s) := by
  conv => lhs; unfold genLoop
  simp [h]

omit hw in
theorem genLoop_nil {fin : Option Err} {s : GenSt} (h : s.err = none) :
    genLoop w p fin [] s = { s with err := fin } := by
  conv => lhs; unfold genLoop
  simp [h]

end

theorem notBlank_eq (d : Bytes) : notBlank d = !blankText d := by
  unfold notBlank blankText
  induction d with
  | nil => rfl
  | cons c d ih =>
    simp only [List.any_cons, List.all_cons, ih, Bool.not_and, List.mem_cons, List.not_mem_nil, or_false]
    congr 1
    by_cases h1 : c = 32 <;> by_cases h2 : c = 10 <;> by_cases h3 : c = 9 <;> simp [h1, h2, h3]

/-- A line with indentation. -/
def codeLine (n : Nat) (d : Bytes) : Bytes := List.replicate n 9 ++ (d ++ [10])

mutual
/-- The source text that is written for a text. -/
def docCode (p : GenPkg) (n : Nat) : Doc → Bytes
  | .text d => if blankText d then [] else codeLine n (p.pre ++ b%"Text(\"" ++ genEscape d ++ b%"\"),")
  | .comment d => codeLine n (p.pre ++ b%"Comment(\"" ++ genEscape d ++ b%"\"),")
  | .doctype d => if p.doctype then codeLine n (b%"html.PI(\"DOCTYPE\", \"" ++ genEscape d ++ b%"\"),") else []
  | .elem name attrs cs =>
    List.replicate n 9 ++ (startCode p name attrs ++ (docsCode p (n + 1) cs ++ codeLine n b%"),"))
  | .selfClosing name attrs => List.replicate n 9 ++ selfCode p name attrs
  | .void name attrs => List.replicate n 9 ++ startCode p name attrs
/-- The source text that is written for a list of texts. -/
def docsCode (p : GenPkg) (n : Nat) : List Doc → Bytes
  | [] => []
  | d :: ds => docCode p n d ++ docsCode p n ds
end

section
variable {w : Writer} (hw : Accepts w) (p : GenPkg)
include hw

set_option linter.unusedSectionVars false
mutual
theorem GenAt.doc (fin : Option Err) : (d : Doc) → d.Closed → (ts : List Token) → (s : GenSt) → (n : Nat) → (o : Bytes) →
    GenAt s n o → ∃ s', genLoop w p fin (d.tokens ++ ts) s = genLoop w p fin ts s' ∧ GenAt s' n (o ++ docCode p n d)
  | .text d, _, ts, s, n, o, h => by
    refine ⟨_, genLoop_cons p h.err, ?_⟩
    simp only [genToken, docCode, notBlank_eq]
    cases blankText d
    · exact h.line hw _
    · simpa using h
  | .comment d, _, ts, s, n, o, h => ⟨_, genLoop_cons p h.err, h.line hw _⟩
  | .doctype d, _, ts, s, n, o, h => by
    refine ⟨_, genLoop_cons p h.err, ?_⟩
    simp only [genToken, docCode]
    split
    · exact h.line hw _
    · simpa using h
  | .selfClosing name attrs, _, ts, s, n, o, h => ⟨_, genLoop_cons p h.err, h.self hw p name attrs⟩
  | .elem name attrs cs, hc, ts, s, n, o, h => by
    have h1 := h.start hw p name attrs
    obtain ⟨s2, e2, h2⟩ := GenAt.docs fin cs hc (.endTag name :: ts) _ _ _ h1
    refine ⟨gwrite w b%")," (decIndent s2), ?_, ?_⟩
    · rw [Doc.tokens, List.cons_append, genLoop_cons p h.err, List.append_assoc]
      exact e2.trans (genLoop_cons p h2.err)
    · have h3 : GenAt (decIndent s2) n _ := ⟨h2.err, by simp [decIndent, h2.indent], h2.out⟩
      have := h3.line hw b%"),"
      simpa only [docCode, codeLine, List.append_assoc] using this
theorem GenAt.docs (fin : Option Err) : (ds : List Doc) → ClosedAll ds → (ts : List Token) → (s : GenSt) → (n : Nat) →
    (o : Bytes) → GenAt s n o →
    ∃ s', genLoop w p fin (tokensAll ds ++ ts) s = genLoop w p fin ts s' ∧ GenAt s' n (o ++ docsCode p n ds)
  | [], _, ts, s, n, o, h => ⟨s, rfl, by simpa [docsCode] using h⟩
  | d :: ds, hc, ts, s, n, o, h => by
    obtain ⟨s1, e1, h1⟩ := GenAt.doc fin d hc.1 (tokensAll ds ++ ts) s n o h
    obtain ⟨s2, e2, h2⟩ := GenAt.docs fin ds hc.2 ts s1 n _ h1
    refine ⟨s2, ?_, ?_⟩
    · rw [tokensAll, List.append_assoc, e1, e2]
    · simpa only [docsCode, List.append_assoc] using h2
end

end

/-- The source text that is written for a whole input. -/
def programCode (p : GenPkg) (ds : List Doc) : Bytes :=
  b%"var template = aitch.Collection(\n" ++ (docsCode p 1 ds ++ b%")\n\n")

theorem generates_program (p : GenPkg) {ds : List Doc} (hc : ClosedAll ds) :
    Generates p (tokensAll ds) (programCode p ds) := by
  intro w hw
  have h0 : GenAt ⟨0, none, []⟩ 0 [] := ⟨rfl, rfl, rfl⟩
  have h1 := h0.line hw b%"var template = aitch.Collection("
  have h2 : GenAt (incIndent (gwrite w b%"var template = aitch.Collection(" ⟨0, none, []⟩)) 1 _ :=
    ⟨h1.err, congrArg (· + 1) h1.indent, h1.out⟩
  obtain ⟨s3, e3, h3⟩ := GenAt.docs hw p none ds hc [] _ _ _ h2
  rw [List.append_nil] at e3
  have h4 : GenAt (decIndent { s3 with err := none }) 0 _ := ⟨rfl, by simp [decIndent, h3.indent], h3.out⟩
  have h5 := h4.line hw b%")\n"
  have he : GenerateCode w p (tokensAll ds) none = gwrite w b%")\n" (decIndent { s3 with err := none }) := by
    unfold GenerateCode
    simp only [e3, genLoop_nil p h3.err]
  rw [he]
  refine ⟨h5.err, h5.out.trans ?_⟩
  simp [programCode]

/-- Whole lines. -/
def Lines (o : Bytes) : Prop := o = [] ∨ ∃ l, o = l ++ [10]

theorem Lines.append {o o' : Bytes} (h : Lines o) (h' : Lines o') : Lines (o ++ o') := by
  rcases h' with rfl | ⟨l, rfl⟩
  · rwa [List.append_nil]
  · exact .inr ⟨o ++ l, by simp⟩

theorem Lines.pre {o : Bytes} (x : Bytes) (h : ∃ l, o = l ++ [10]) : ∃ l, x ++ o = l ++ [10] := by
  obtain ⟨l, rfl⟩ := h
  exact ⟨x ++ l, by simp⟩

theorem codeLine_line (n : Nat) (d : Bytes) : ∃ l, codeLine n d = l ++ [10] := ⟨List.replicate n 9 ++ d, by simp [codeLine]⟩

theorem docCode_lines (p : GenPkg) (n : Nat) (d : Doc) : Lines (docCode p n d) := by
  cases d with
  | text d => unfold docCode; split; exact .inl rfl; exact .inr (codeLine_line _ _)
  | comment d => exact .inr (codeLine_line _ _)
  | doctype d => unfold docCode; split; exact .inr (codeLine_line _ _); exact .inl rfl
  | elem name attrs cs =>
    exact .inr (Lines.pre _ (Lines.pre _ (Lines.pre _ (codeLine_line _ _))))
  | selfClosing name attrs =>
    exact .inr (Lines.pre _ (Lines.pre _ (Lines.pre _ ⟨b%"),", rfl⟩)))
  | void name attrs =>
    exact .inr (Lines.pre _ (Lines.pre _ (Lines.pre _ (Lines.pre _ ⟨[], rfl⟩))))

theorem docsCode_lines (p : GenPkg) (n : Nat) (ds : List Doc) : Lines (docsCode p n ds) := by
  induction ds with
  | nil => exact .inl rfl
  | cons d ds ih => exact (docCode_lines p n d).append ih

theorem programCode_lines (p : GenPkg) (ds : List Doc) : ∃ l, programCode p ds = l ++ b%"\n)\n\n" := by
  rcases docsCode_lines p 1 ds with h | ⟨l, h⟩
  · exact ⟨b%"var template = aitch.Collection(", by simp [programCode, h]⟩
  · exact ⟨b%"var template = aitch.Collection(\n" ++ l, by simp [programCode, h]⟩

theorem generates_unique {p : GenPkg} {ts : List Token} {s s' : Bytes} (h : Generates p ts s) (h' : Generates p ts s') :
    s = s' := by
  have hw : Accepts fun _ d => (d.length, none) := fun _ _ => rfl
  exact (h _ hw).2.symm.trans (h' _ hw).2

/-! ### Literals -/

/-- The escaping of one byte. -/
def escape1 (c : UInt8) : Bytes :=
  if c = c%'\\' then b%"\\\\" else if c = 9 then b%"\\t" else if c = 10 then b%"\\n" else if c = c%'"' then b%"\\\"" else [c]

theorem genEscape_eq (s : Bytes) : genEscape s = s.flatMap escape1 := by
  unfold genEscape replaceAll
  simp only [List.flatMap_assoc]
  congr 1
  funext c
  unfold escape1
  by_cases h1 : c = c%'\\'
  · subst h1; decide
  by_cases h2 : c = 9
  · subst h2; decide
  by_cases h3 : c = 10
  · subst h3; decide
  by_cases h4 : c = c%'"'
  · subst h4; decide
  simp [h1, h2, h3, h4]

theorem genEscape_cons (c : UInt8) (s : Bytes) : genEscape (c :: s) = escape1 c ++ genEscape s := by
  simp [genEscape_eq]

theorem goString_plain {c : UInt8} (h1 : c ≠ c%'"') (h2 : c ≠ c%'\\') (h3 : c ≠ 10) (s : Bytes) :
    goString (c :: s) = (goString s).map fun r => (c :: r.1, r.2) := by
  cases s with
  | nil => rw [goString.eq_4 _ _ h1 (by rintro d s h h'; cases h')]; simp [goString, h2, h3]
  | cons d s =>
    rw [goString.eq_4]
    · simp [h2, h3]
    · exact h1
    · rintro d s h _; exact absurd h h2

theorem goString_esc {c v : UInt8} (h : goEscape c = some v) (s : Bytes) :
    goString (c%'\\' :: c :: s) = (goString s).map fun r => (v :: r.1, r.2) := by
  simp [goString, h]

theorem goString_escape (s rest : Bytes) :
    goString (genEscape s ++ c%'"' :: rest) = some (s, rest) := by
  induction s with
  | nil => rfl
  | cons c s ih =>
    rw [genEscape_cons, List.append_assoc]
    unfold escape1
    by_cases h1 : c = c%'\\'
    · subst h1; simp only [↓reduceIte]; exact (goString_esc rfl (genEscape s ++ c%'"' :: rest)).trans (by rw [ih]; rfl)
    by_cases h2 : c = 9
    · subst h2; simp only [if_neg h1, ↓reduceIte]; exact (goString_esc rfl (genEscape s ++ c%'"' :: rest)).trans (by rw [ih]; rfl)
    by_cases h3 : c = 10
    · subst h3; simp only [if_neg h1, if_neg h2, ↓reduceIte]; exact (goString_esc rfl (genEscape s ++ c%'"' :: rest)).trans (by rw [ih]; rfl)
    by_cases h4 : c = c%'"'
    · subst h4; simp only [if_neg h1, if_neg h2, if_neg h3, ↓reduceIte]; exact (goString_esc rfl (genEscape s ++ c%'"' :: rest)).trans (by rw [ih]; rfl)
    rw [if_neg h1, if_neg h2, if_neg h3, if_neg h4, List.singleton_append, goString_plain h4 h1 h3, ih]
    rfl

theorem goString_quotable (s : Bytes) (h : Quotable s) (rest : Bytes) :
    goString (s ++ c%'"' :: rest) = some (s, rest) := by
  induction s with
  | nil => rfl
  | cons c s ih =>
    have ih := ih fun c hc => h c (.tail _ hc)
    obtain ⟨h1, h2, h3⟩ := h c (.head _)
    rw [List.cons_append, goString_plain h1 h2 h3, ih]; rfl

end Aitch
