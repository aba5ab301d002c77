import Verif.Proofs.Generator
/-
The tokens and the expressions of the generated code.
-/
namespace Aitch

open Spec

/-- The text `d`, between the flags `b` and `b'`, gives the tokens `ts`. -/
def LexC (b b' : Bool) (d : Bytes) (ts : List GoTok) : Prop :=
  ∀ rest us, Lexes b' rest us → Lexes b (d ++ rest) (ts ++ us)

theorem LexC.nil (b : Bool) : LexC b b [] [] := fun _ _ h => h

theorem LexC.trans {b b' b'' : Bool} {d d' : Bytes} {ts ts' : List GoTok} (h : LexC b b' d ts) (h' : LexC b' b'' d' ts') :
    LexC b b'' (d ++ d') (ts ++ ts') := fun rest us hr => by
  rw [List.append_assoc, List.append_assoc]; exact h _ _ (h' _ _ hr)

theorem LexC.space (b : Bool) {c : UInt8} (h : c = 32 ∨ c = 9) : LexC b b [c] [] := fun _ _ hr => .space h hr

theorem LexC.tabs (b : Bool) (n : Nat) : LexC b b (List.replicate n 9) [] := by
  induction n with
  | zero => exact .nil b
  | succ n ih => exact (LexC.space b (.inr rfl)).trans ih

theorem LexC.newline : LexC false false [10] [] := fun _ _ hr => .newline hr
theorem LexC.rpar (b : Bool) : LexC b true b%")" [.rpar] := fun _ _ hr => .rpar hr
theorem LexC.comma (b : Bool) : LexC b false b%"," [.comma] := fun _ _ hr => .comma hr

/-- A name. -/
def IsName (f : Bytes) : Prop := f ≠ [] ∧ ∀ c ∈ f, isNameByte c

theorem LexC.name (b : Bool) {f : Bytes} (hf : IsName f) : LexC b false (f ++ b%"(") [.name f, .lpar] := fun rest us hr => by
  rw [List.append_assoc]
  refine .name hf.1 hf.2 ?_ (.lpar hr)
  intro c hc
  cases hc
  decide

theorem LexC.str (b : Bool) {d v : Bytes} (h : ∀ rest, goString (d ++ c%'"' :: rest) = some (v, rest)) :
    LexC b true (b%"\"" ++ (d ++ b%"\"")) [.str v] := fun rest us hr => by
  rw [List.append_assoc, List.append_assoc]
  exact .str (h rest) hr

/-- The code of an expression. -/
def CodeExpr (d : Bytes) (e : Expr) : Prop := ∃ ts, LexC false true d ts ∧ IsExpr ts e

/-- The code of arguments, each followed by a comma. -/
def CodeArgs (d : Bytes) (es : List Expr) : Prop :=
  ∃ ts, LexC false false d ts ∧ ∀ us es', IsArgs us es' → IsArgs (ts ++ us) (es ++ es')

/-- The code of all arguments. -/
def CodeAll (d : Bytes) (es : List Expr) : Prop := ∃ ts b, LexC false b d ts ∧ IsArgs ts es

theorem CodeArgs.nil {ws : Bytes} (h : LexC false false ws []) : CodeArgs ws [] := ⟨[], h, fun _ _ h => h⟩

theorem CodeArgs.append {d d' : Bytes} {es es' : List Expr} (h : CodeArgs d es) (h' : CodeArgs d' es') :
    CodeArgs (d ++ d') (es ++ es') := by
  obtain ⟨ts, h1, h2⟩ := h
  obtain ⟨ts', h1', h2'⟩ := h'
  refine ⟨ts ++ ts', h1.trans h1', fun us es'' hu => ?_⟩
  rw [List.append_assoc, List.append_assoc]
  exact h2 _ _ (h2' _ _ hu)

theorem CodeExpr.args {d ws : Bytes} {e : Expr} (h : CodeExpr d e) (hw : LexC false false ws []) :
    CodeArgs (d ++ (b%"," ++ ws)) [e] := by
  obtain ⟨ts, h1, h2⟩ := h
  refine ⟨ts ++ [.comma], ?_, fun us es' hu => ?_⟩
  · have := h1.trans ((LexC.comma true).trans hw)
    rwa [List.append_nil] at this
  · rw [List.append_assoc]; exact .cons h2 hu

theorem CodeArgs.all {d : Bytes} {es : List Expr} (h : CodeArgs d es) : CodeAll d es := by
  obtain ⟨ts, h1, h2⟩ := h
  have := h2 _ _ .nil
  rw [List.append_nil, List.append_nil] at this
  exact ⟨ts, _, h1, this⟩

theorem CodeArgs.last {d d' : Bytes} {es es' : List Expr} (h : CodeArgs d es) (h' : CodeAll d' es') :
    CodeAll (d ++ d') (es ++ es') := by
  obtain ⟨ts, h1, h2⟩ := h
  obtain ⟨ts', b, h1', h2'⟩ := h'
  exact ⟨ts ++ ts', b, h1.trans h1', h2 _ _ h2'⟩

theorem CodeExpr.all {d : Bytes} {e : Expr} (h : CodeExpr d e) : CodeAll d [e] := by
  obtain ⟨ts, h1, h2⟩ := h
  exact ⟨ts, _, h1, .last h2⟩

theorem CodeAll.call {d f : Bytes} {es : List Expr} (h : CodeAll d es) (hf : IsName f) :
    CodeExpr (f ++ b%"(" ++ (d ++ b%")")) (.call f es) := by
  obtain ⟨ts, b, h1, h2⟩ := h
  exact ⟨_, (LexC.name false hf).trans (h1.trans (LexC.rpar b)), .call h2⟩

theorem CodeExpr.indent {d : Bytes} {e : Expr} (h : CodeExpr d e) (n : Nat) : CodeExpr (List.replicate n 9 ++ d) e := by
  obtain ⟨ts, h1, h2⟩ := h
  exact ⟨ts, (LexC.tabs false n).trans h1, h2⟩

theorem CodeExpr.lit {d v : Bytes} (h : ∀ rest, goString (d ++ c%'"' :: rest) = some (v, rest)) :
    CodeExpr (b%"\"" ++ (d ++ b%"\"")) (.lit v) := ⟨_, LexC.str false h, .lit⟩

theorem CodeExpr.eq {d d' : Bytes} {e : Expr} (h : CodeExpr d e) (hd : d = d') : CodeExpr d' e := hd ▸ h
theorem CodeArgs.eq {d d' : Bytes} {es : List Expr} (h : CodeArgs d es) (hd : d = d') : CodeArgs d' es := hd ▸ h
theorem CodeAll.eq {d d' : Bytes} {es : List Expr} (h : CodeAll d es) (hd : d = d') : CodeAll d' es := hd ▸ h

/-- The tables of a package hold names of functions. -/
structure GoodPkg (p : GenPkg) : Prop where
  elems : ∀ r ∈ p.elems, IsName (p.pre ++ r.2)
  attrs : ∀ r ∈ p.attrs, IsName (p.pre ++ r.2)
  text : IsName (p.pre ++ b%"Text")
  comment : IsName (p.pre ++ b%"Comment")

instance (f : Bytes) : Decidable (IsName f) := by unfold IsName; infer_instance

theorem good_html : GoodPkg htmlPkg := ⟨by decide +kernel, by decide +kernel, by decide, by decide⟩
theorem good_svg : GoodPkg svgPkg := ⟨by decide +kernel, by decide +kernel, by decide, by decide⟩

theorem mem_of_lookup {l : List (Bytes × Bytes)} {k v : Bytes} (h : l.lookup k = some v) : (k, v) ∈ l := by
  induction l with
  | nil => cases h
  | cons e l ih =>
    obtain ⟨k', v'⟩ := e
    rw [List.lookup_cons] at h
    by_cases hk : k = k'
    · subst hk; simp at h; subst h; exact .head _
    · simp only [beq_false_of_ne hk] at h; exact .tail _ (ih h)

section
variable {p : GenPkg} (G : GoodPkg p)
include G

theorem code_attr (a : Bytes × Bytes) (hk : Quotable a.1) : CodeExpr (attrCode p a) (attrExpr p a) := by
  unfold attrCode attrExpr
  have hval : CodeExpr _ (.lit a.2) := .lit (goString_escape a.2)
  cases hl : p.attrs.lookup (toLower a.1) with
  | some f =>
    have hf := G.attrs _ (mem_of_lookup hl)
    simp only
    split
    · exact ((CodeArgs.nil (LexC.nil false)).all.call hf).eq (by simp)
    · exact (hval.all.call hf).eq (by simp)
  | none =>
    have hkey : CodeExpr _ (.lit a.1) := .lit (goString_quotable a.1 hk)
    have h1 : CodeAll (b%"\"" ++ (a.1 ++ b%"\" ,") ++ (b%"\"" ++ (genEscape a.2 ++ b%"\""))) ([.lit a.1] ++ [.lit a.2]) := by
      refine CodeArgs.last ?_ hval.all
      obtain ⟨ts, h1, h2⟩ := hkey
      refine ⟨ts ++ [.comma], ?_, fun us es' hu => ?_⟩
      · have := h1.trans ((LexC.space true (c := 32) (.inl rfl)).trans (LexC.comma true))
        simpa using this
      · rw [List.append_assoc]; exact .cons h2 hu
    exact (h1.call (f := b%"aitch.Attribute") (by decide)).eq (by simp)

theorem code_attrsFrom (a : Bytes × Bytes) (as : List (Bytes × Bytes))
    (hk : ∀ x ∈ a :: as, Quotable x.1) :
    CodeArgs (attrCode p a ++ (attrsCodeFrom p as ++ b%",")) ((a :: as).map (attrExpr p)) ∧
    CodeAll (attrCode p a ++ attrsCodeFrom p as) ((a :: as).map (attrExpr p)) := by
  induction as generalizing a with
  | nil =>
    have h := code_attr G a (hk a (.head _))
    exact ⟨(h.args (LexC.nil false)).eq (by simp [attrsCodeFrom]), h.all.eq (by simp [attrsCodeFrom])⟩
  | cons b as ih =>
    have h := code_attr G a (hk a (.head _))
    have h1 := h.args (LexC.space false (c := 32) (.inl rfl))
    obtain ⟨i1, i2⟩ := ih b (fun x hx => hk x (.tail _ hx))
    exact ⟨(h1.append i1).eq (by simp [attrsCodeFrom]), (h1.last i2).eq (by simp [attrsCodeFrom])⟩

theorem code_attrs (as : List (Bytes × Bytes)) (hk : ∀ x ∈ as, Quotable x.1) :
    CodeArgs (attrsCode p as ++ (if as.isEmpty then [] else b%",")) (as.map (attrExpr p)) ∧
    CodeAll (attrsCode p as) (as.map (attrExpr p)) := by
  cases as with
  | nil => exact ⟨.nil (.nil false), (CodeArgs.nil (.nil false)).all⟩
  | cons a as =>
    obtain ⟨i1, i2⟩ := code_attrsFrom G a as hk
    exact ⟨i1.eq (by simp [attrsCode]), i2⟩

theorem code_elem (name : Bytes) (hn : Quotable name) : ∃ f pre es, IsName f ∧ CodeArgs pre es ∧
    elementStart p name = f ++ b%"(" ++ pre ∧ ∀ args, elemExpr p name args = .call f (es ++ args) := by
  unfold elementStart elemExpr
  cases hl : p.elems.lookup (toLower name) with
  | some f => exact ⟨p.pre ++ f, [], [], G.elems _ (mem_of_lookup hl), .nil (.nil false), by simp [funcName], fun _ => rfl⟩
  | none =>
    have h := (CodeExpr.lit (goString_quotable name hn)).args (LexC.space false (c := 32) (.inl rfl))
    exact ⟨b%"aitch.Element", _, [.lit name], by decide, h, by simp, fun _ => rfl⟩

omit G in
theorem code_text {f : Bytes} (hf : IsName f) (d : Bytes) (n : Nat) :
    CodeArgs (codeLine n (f ++ b%"(\"" ++ genEscape d ++ b%"\"),")) [.call f [.lit d]] := by
  have h := ((CodeExpr.lit (goString_escape d)).all.call hf).indent n
  exact (h.args LexC.newline).eq (by simp [codeLine])

theorem code_tag (name : Bytes) (hn : Quotable name) (as : List (Bytes × Bytes)) (hk : ∀ x ∈ as, Quotable x.1)
    (n : Nat) {body : Bytes} {es : List Expr} (hb : CodeArgs body es) :
    CodeArgs (List.replicate n 9 ++ (startCode p name as ++ (body ++ codeLine n b%"),")))
      [elemExpr p name (as.map (attrExpr p) ++ es)] ∧
    CodeArgs (List.replicate n 9 ++ selfCode p name as) [elemExpr p name (as.map (attrExpr p))] := by
  obtain ⟨f, pre, es', hf, h1, h2, h3⟩ := code_elem G name hn
  obtain ⟨i1, i2⟩ := code_attrs G as hk
  rw [h3, h3]
  constructor
  · have h4 := (h1.append (i1.append ((CodeArgs.nil LexC.newline).append
      (hb.append (CodeArgs.nil (LexC.tabs false n)))))).all.call hf
    have h5 := (h4.indent n).args LexC.newline
    rw [List.nil_append, List.append_nil] at h5
    exact h5.eq (by simp [startCode, codeLine, h2])
  · have h4 := (h1.last i2).call hf
    exact ((h4.indent n).args LexC.newline).eq (by simp [selfCode, h2])

set_option linter.unusedSectionVars false in
mutual
theorem code_doc : (d : Doc) → (n : Nat) → d.Closed → d.QuotableNames → CodeArgs (docCode p n d) (d.code p)
  | .text d, n, _, _ => by
    unfold docCode Doc.code
    split
    · exact .nil (.nil false)
    · exact (code_text G.text d n).eq (by simp [codeLine])
  | .comment d, n, _, _ => (code_text G.comment d n).eq (by simp [codeLine, docCode])
  | .doctype d, n, _, _ => by
    unfold docCode Doc.code
    split
    · have h1 := (CodeExpr.lit (d := b%"DOCTYPE") (v := b%"DOCTYPE") fun _ => rfl).args
        (LexC.space false (c := 32) (.inl rfl))
      have h2 := ((h1.last (CodeExpr.lit (goString_escape d)).all).call (f := b%"html.PI") (by decide)).indent n
      exact (h2.args LexC.newline).eq (by simp [codeLine])
    · exact .nil (.nil false)
  | .elem name attrs cs, n, hc, hq =>
    (code_tag G name hq.1 attrs hq.2.1 n (code_docs cs (n + 1) hc hq.2.2)).1
  | .selfClosing name attrs, n, _, hq => (code_tag G name hq.1 attrs hq.2 n (CodeArgs.nil (.nil false))).2
theorem code_docs : (ds : List Doc) → (n : Nat) → ClosedAll ds → QuotableNamesAll ds →
    CodeArgs (docsCode p n ds) (codeAll p ds)
  | [], _, _, _ => .nil (.nil false)
  | d :: ds, n, hc, hq => (code_doc d n hc.1 hq.1).append (code_docs ds n hc.2 hq.2)
end

theorem declares_program {ds : List Doc} (hc : ClosedAll ds) (hq : QuotableNamesAll ds) :
    Declares (programCode p ds) (.call b%"aitch.Collection" (codeAll p ds)) := by
  have h1 : CodeExpr (b%"aitch.Collection(\n" ++ (docsCode p 1 ds ++ b%")")) (.call b%"aitch.Collection" (codeAll p ds)) :=
    (((CodeArgs.nil LexC.newline).append (code_docs G ds 1 hc hq)).all.call (f := b%"aitch.Collection") (by decide)).eq
      (by simp)
  obtain ⟨ts, h2, h3⟩ := h1
  refine ⟨ts, _, ?_, h3, rfl⟩
  have hend := h2 b%"\n\n" [.semicolon] (.semicolon (.newline .done))
  have h4 : programCode p ds = b%"var" ++ (32 :: (b%"template" ++ (32 :: (61 :: (32 ::
      (b%"aitch.Collection(\n" ++ (docsCode p 1 ds ++ b%")") ++ b%"\n\n")))))) := by
    simp [programCode]
  rw [h4]
  refine .name (by decide) (by decide) (by simp; decide) (.space (.inl rfl) ?_)
  refine .name (by decide) (by decide) (by simp; decide) (.space (.inl rfl) (.equals (.space (.inl rfl) ?_)))
  exact hend

end

/-! ### Parentheses -/

/-- `parens` on tokens. -/
def tokParens : Nat → List GoTok → Option Nat
  | n, [] => some n
  | n, .lpar :: ts => tokParens (n + 1) ts
  | 0, .rpar :: _ => none
  | n + 1, .rpar :: ts => tokParens n ts
  | n, _ :: ts => tokParens n ts

theorem outside_str {s v rest : Bytes} (h : goString s = some (v, rest)) : outside .str s = outside .code rest := by
  induction s using goString.induct generalizing v rest with
  | case1 => cases h
  | case2 s => cases h; simp [outside]
  | case3 c s v' hv ih =>
    rw [goString_esc hv] at h
    cases hs : goString s with
    | none => simp [hs] at h
    | some r => simp [hs] at h; obtain ⟨_, rfl⟩ := h; simp [outside, ih hs]
  | case4 c s hv => simp [goString, hv] at h
  | case5 c s h1 h2 h3 =>
    rw [goString.eq_4 _ _ h1 h2] at h
    simp [h3] at h
  | case6 c s h1 h2 h3 ih =>
    rw [goString.eq_4 _ _ h1 h2, if_neg h3] at h
    cases hs : goString s with
    | none => simp [hs] at h
    | some r =>
      simp [hs] at h; obtain ⟨_, rfl⟩ := h
      have h1 : c ≠ 34 := h1
      have h4 : c ≠ 92 := fun hh => h3 (.inl hh)
      simp [outside, h1, h4, ih hs]

theorem outside_name {f s : Bytes} (hf : ∀ c ∈ f, isNameByte c) : outside .code (f ++ s) = f ++ outside .code s := by
  induction f with
  | nil => rfl
  | cons c f ih =>
    have h1 : c ≠ 34 := by
      rintro rfl; exact absurd (hf 34 (.head _)) (by decide)
    rw [List.cons_append, outside]
    simp [h1, ih fun c hc => hf c (.tail _ hc)]

theorem parens_name {f s : Bytes} (hf : ∀ c ∈ f, isNameByte c) (n : Nat) : parens n (f ++ s) = parens n s := by
  induction f with
  | nil => rfl
  | cons c f ih =>
    have h1 : c ≠ 40 := by rintro rfl; exact absurd (hf 40 (.head _)) (by decide)
    have h2 : c ≠ 41 := by rintro rfl; exact absurd (hf 41 (.head _)) (by decide)
    rw [List.cons_append, parens.eq_def]
    simp [h1, h2, ih fun c hc => hf c (.tail _ hc)]

theorem parens_lexes {b : Bool} {s : Bytes} {ts : List GoTok} (h : Lexes b s ts) (n : Nat) :
    parens n (outside .code s) = tokParens n ts := by
  induction h generalizing n with
  | done => simp [outside, parens, tokParens]
  | space hc _ ih => rcases hc with rfl | rfl <;> simp [outside, parens, ih]
  | newline _ ih => simp [outside, parens, ih]
  | semicolon _ ih => simp [outside, parens, tokParens, ih]
  | lpar _ ih => simp [outside, parens, tokParens, ih]
  | rpar _ ih => cases n <;> simp [outside, parens, tokParens, ih]
  | comma _ ih => simp [outside, parens, tokParens, ih]
  | equals _ ih => simp [outside, parens, tokParens, ih]
  | name _ hf _ _ ih => rw [outside_name hf, parens_name hf, ih]; simp [tokParens]
  | str hs _ ih =>
    rw [outside]
    simp only [↓reduceIte]
    rw [outside_str hs, ih]; simp [tokParens]

mutual
theorem tokParens_expr : {ts : List GoTok} → {e : Expr} → IsExpr ts e → (n : Nat) → (us : List GoTok) →
    tokParens n (ts ++ us) = tokParens n us
  | _, _, .lit, n, us => by simp [tokParens]
  | _, _, .call ha, n, us => by
    simp only [List.cons_append, List.append_assoc, tokParens]
    rw [tokParens_args ha]; simp [tokParens]
theorem tokParens_args : {ts : List GoTok} → {es : List Expr} → IsArgs ts es → (n : Nat) → (us : List GoTok) →
    tokParens n (ts ++ us) = tokParens n us
  | _, _, .nil, _, _ => rfl
  | _, _, .last h, n, us => tokParens_expr h n us
  | _, _, .cons h h', n, us => by
    rw [List.append_assoc, tokParens_expr h]
    simp only [List.cons_append, tokParens]
    exact tokParens_args h' n us
end

/-- The source text of a declaration is balanced. -/
theorem Spec.Declares.balanced {src : Bytes} {e : Expr} (h : Declares src e) : Balanced src := by
  obtain ⟨ts, us, h1, h2, rfl⟩ := h
  unfold Balanced
  rw [parens_lexes h1]
  simp only [List.cons_append, List.nil_append, tokParens]
  rw [tokParens_expr h2]
  rfl

end Aitch
