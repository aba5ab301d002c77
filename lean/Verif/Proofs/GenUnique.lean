import Verif.Spec.GenTokens
import Verif.Spec.GenEval
import Verif.Proofs.Generator
/-
A Go source text declares at most one expression; what GenerateCode does with any tokens and any writer.
-/
namespace Aitch

open Spec

theorem name_split {n m s t : Bytes} (hn : ∀ c ∈ n, isNameByte c) (hm : ∀ c ∈ m, isNameByte c)
    (hs : ∀ c, s.head? = some c → ¬ isNameByte c) (ht : ∀ c, t.head? = some c → ¬ isNameByte c) (h : n ++ s = m ++ t) :
    n = m ∧ s = t := by
  induction n generalizing m with
  | nil =>
    cases m with
    | nil => exact ⟨rfl, h⟩
    | cons c m =>
      simp only [List.nil_append, List.cons_append] at h
      exact absurd (hm c (.head _)) (hs c (by rw [h]; rfl))
  | cons c n ih =>
    cases m with
    | nil =>
      simp only [List.nil_append, List.cons_append] at h
      exact absurd (hn c (.head _)) (ht c (by rw [← h]; rfl))
    | cons d m =>
      simp only [List.cons_append, List.cons.injEq] at h
      obtain ⟨h1, h2⟩ := ih (fun c hc => hn c (.tail _ hc)) (fun c hc => hm c (.tail _ hc)) h.2
      exact ⟨by rw [h.1, h1], h2⟩

theorem not_name (c : UInt8) : isNameByte c = true → c ≠ 32 ∧ c ≠ 9 ∧ c ≠ 10 ∧ c ≠ c%'(' ∧ c ≠ c%')' ∧ c ≠ c%',' ∧
    c ≠ c%'=' ∧ c ≠ c%'"' := by
  have : ∀ n : Fin 256, isNameByte (UInt8.ofFin n) = true → UInt8.ofFin n ≠ 32 ∧ UInt8.ofFin n ≠ 9 ∧
      UInt8.ofFin n ≠ 10 ∧ UInt8.ofFin n ≠ c%'(' ∧ UInt8.ofFin n ≠ c%')' ∧ UInt8.ofFin n ≠ c%',' ∧
      UInt8.ofFin n ≠ c%'=' ∧ UInt8.ofFin n ≠ c%'"' := by decide +kernel
  exact this c.toFin

/-- The first byte of a name decides. -/
theorem lexes_name {b : Bool} {n s : Bytes} {ts : List GoTok} (hne : n ≠ []) (hn : ∀ c ∈ n, isNameByte c)
    (hs : ∀ c, s.head? = some c → ¬ isNameByte c) (h : Lexes b (n ++ s) ts) :
    ∃ us, ts = .name n :: us ∧ Lexes true s us := by
  generalize hg : n ++ s = src at h
  obtain ⟨c, n, rfl⟩ : ∃ c m, n = c :: m := by
    cases n with
    | nil => exact absurd rfl hne
    | cons c m => exact ⟨c, m, rfl⟩
  have hc := not_name c (hn c (.head _))
  cases h with
  | done => simp at hg
  | space h _ =>
    simp only [List.cons_append, List.cons.injEq] at hg
    rcases h with rfl | rfl
    · exact absurd hg.1 hc.1
    · exact absurd hg.1 hc.2.1
  | newline _ => simp only [List.cons_append, List.cons.injEq] at hg; exact absurd hg.1 hc.2.2.1
  | semicolon _ => simp only [List.cons_append, List.cons.injEq] at hg; exact absurd hg.1 hc.2.2.1
  | lpar _ => simp only [List.cons_append, List.cons.injEq] at hg; exact absurd hg.1 hc.2.2.2.1
  | rpar _ => simp only [List.cons_append, List.cons.injEq] at hg; exact absurd hg.1 hc.2.2.2.2.1
  | comma _ => simp only [List.cons_append, List.cons.injEq] at hg; exact absurd hg.1 hc.2.2.2.2.2.1
  | equals _ => simp only [List.cons_append, List.cons.injEq] at hg; exact absurd hg.1 hc.2.2.2.2.2.2.1
  | str _ _ => simp only [List.cons_append, List.cons.injEq] at hg; exact absurd hg.1 hc.2.2.2.2.2.2.2
  | name _ hm ht hl =>
    obtain ⟨h1, rfl⟩ := name_split hn hm hs ht hg
    exact ⟨_, by rw [h1], hl⟩

theorem lexes_unique {b : Bool} {s : Bytes} {ts us : List GoTok} (h : Lexes b s ts) (h' : Lexes b s us) : ts = us := by
  have hname : ∀ {c : UInt8} {s : Bytes} {n t : Bytes}, isNameByte c = false → n ≠ [] → (∀ c ∈ n, isNameByte c) →
      c :: s = n ++ t → False := by
    intro c s n t hc hne hn he
    cases n with
    | nil => exact hne rfl
    | cons d n =>
      simp only [List.cons_append, List.cons.injEq] at he
      have := hn d (.head _)
      rw [← he.1, hc] at this
      exact absurd this (by simp)
  induction h generalizing us with
  | done =>
    generalize hg : ([] : Bytes) = src at h'
    cases h' with
    | done => rfl
    | name hne => cases (List.append_eq_nil_iff.1 hg.symm).1; exact absurd rfl hne
    | _ => cases hg
  | @space b c s ts hc hl ih =>
    generalize hg : c :: s = src at h'
    cases h' with
    | done => cases hg
    | space _ h => cases hg; exact ih h
    | newline _ => cases hg; simp at hc
    | semicolon _ => cases hg; simp at hc
    | lpar _ => cases hg; simp at hc
    | rpar _ => cases hg; simp at hc
    | comma _ => cases hg; simp at hc
    | equals _ => cases hg; simp at hc
    | str _ _ => cases hg; simp at hc
    | name hne hn _ _ =>
      exact (hname (by rcases hc with rfl | rfl <;> decide) hne hn hg).elim
  | @newline s ts hl ih =>
    generalize hg : (10 : UInt8) :: s = src at h'
    generalize hb : false = b at h'
    cases h' with
    | newline h => cases hg; exact ih h
    | space hc _ => cases hg; simp at hc
    | semicolon _ => cases hb
    | name hne hn _ _ => exact (hname (by decide) hne hn hg).elim
    | _ => cases hg
  | @semicolon s ts hl ih =>
    generalize hg : (10 : UInt8) :: s = src at h'
    generalize hb : true = b at h'
    cases h' with
    | semicolon h => cases hg; rw [ih h]
    | space hc _ => cases hg; simp at hc
    | newline _ => cases hb
    | name hne hn _ _ => exact (hname (by decide) hne hn hg).elim
    | _ => cases hg
  | @lpar b s ts hl ih =>
    generalize hg : c%'(' :: s = src at h'
    cases h' with
    | lpar h => cases hg; rw [ih h]
    | space hc _ => cases hg; simp at hc
    | name hne hn _ _ => exact (hname (by decide) hne hn hg).elim
    | _ => cases hg
  | @rpar b s ts hl ih =>
    generalize hg : c%')' :: s = src at h'
    cases h' with
    | rpar h => cases hg; rw [ih h]
    | space hc _ => cases hg; simp at hc
    | name hne hn _ _ => exact (hname (by decide) hne hn hg).elim
    | _ => cases hg
  | @comma b s ts hl ih =>
    generalize hg : c%',' :: s = src at h'
    cases h' with
    | comma h => cases hg; rw [ih h]
    | space hc _ => cases hg; simp at hc
    | name hne hn _ _ => exact (hname (by decide) hne hn hg).elim
    | _ => cases hg
  | @equals b s ts hl ih =>
    generalize hg : c%'=' :: s = src at h'
    cases h' with
    | equals h => cases hg; rw [ih h]
    | space hc _ => cases hg; simp at hc
    | name hne hn _ _ => exact (hname (by decide) hne hn hg).elim
    | _ => cases hg
  | name hne hn hs hl ih =>
    obtain ⟨us', rfl, h⟩ := lexes_name hne hn hs h'
    rw [ih h]
  | @str b s v rest ts hs hl ih =>
    generalize hg : c%'"' :: s = src at h'
    cases h' with
    | str hs' h =>
      cases hg
      rw [hs] at hs'
      cases hs'
      rw [ih h]
    | space hc _ => cases hg; simp at hc
    | name hne hn _ _ => exact (hname (by decide) hne hn hg).elim
    | _ => cases hg

/-- Expressions begin with a name or a literal. -/
theorem isExpr_head {ts : List GoTok} {e : Expr} (h : IsExpr ts e) :
    (∃ s us, ts = .str s :: us) ∨ ∃ f us, ts = .name f :: us := by
  cases h with
  | lit => exact .inl ⟨_, _, rfl⟩
  | call _ => exact .inr ⟨_, _, rfl⟩

theorem isArgs_head {ts : List GoTok} {es : List Expr} (h : IsArgs ts es) :
    (ts = [] ∧ es = []) ∨ (∃ s us, ts = .str s :: us) ∨ ∃ f us, ts = .name f :: us := by
  cases h with
  | nil => exact .inl ⟨rfl, rfl⟩
  | last he => exact .inr (isExpr_head he)
  | cons he _ =>
    rcases isExpr_head he with ⟨s, us, rfl⟩ | ⟨f, us, rfl⟩
    · exact .inr (.inl ⟨_, _, rfl⟩)
    · exact .inr (.inr ⟨_, _, rfl⟩)

mutual
theorem isExpr_unique : {ts : List GoTok} → {e : Expr} → IsExpr ts e → {ts' : List GoTok} → {e' : Expr} →
    IsExpr ts' e' → (us us' : List GoTok) → ts ++ us = ts' ++ us' → e = e' ∧ us = us'
  | _, _, .lit, _, _, h', us, us', hg => by
    cases h' with
    | lit => simp only [List.cons_append, List.cons.injEq, List.nil_append] at hg; cases hg.1; exact ⟨rfl, hg.2⟩
    | call _ => simp at hg
  | _, _, .call ha, _, _, h', us, us', hg => by
    cases h' with
    | lit => simp at hg
    | call ha' =>
      simp only [List.cons_append, List.append_assoc, List.cons.injEq, true_and, List.nil_append] at hg
      obtain ⟨hf, hg⟩ := hg
      cases hf
      obtain ⟨rfl, rfl⟩ := isArgs_unique ha ha' us us' hg
      exact ⟨rfl, rfl⟩
theorem isArgs_unique : {ts : List GoTok} → {es : List Expr} → IsArgs ts es → {ts' : List GoTok} → {es' : List Expr} →
    IsArgs ts' es' → (us us' : List GoTok) → ts ++ .rpar :: us = ts' ++ .rpar :: us' → es = es' ∧ us = us'
  | _, _, .nil, _, _, h', us, us', hg => by
    rcases isArgs_head h' with ⟨rfl, rfl⟩ | ⟨s, us, rfl⟩ | ⟨f, us, rfl⟩
    · simp at hg; exact ⟨rfl, hg⟩
    · simp at hg
    · simp at hg
  | _, _, .last he, _, _, h', us, us', hg => by
    cases h' with
    | nil => rcases isExpr_head he with ⟨s, us, rfl⟩ | ⟨f, us, rfl⟩ <;> simp at hg
    | last he' =>
      obtain ⟨rfl, h⟩ := isExpr_unique he he' _ _ hg
      simp at h; exact ⟨rfl, h⟩
    | cons he' _ =>
      rw [List.append_assoc] at hg
      obtain ⟨_, h⟩ := isExpr_unique he he' _ _ hg
      simp at h
  | _, _, .cons he ha, _, _, h', us, us', hg => by
    cases h' with
    | nil => rcases isExpr_head he with ⟨s, us, rfl⟩ | ⟨f, us, rfl⟩ <;> simp at hg
    | last he' =>
      rw [List.append_assoc] at hg
      obtain ⟨_, h⟩ := isExpr_unique he he' _ _ hg
      simp at h
    | cons he' ha' =>
      rw [List.append_assoc, List.append_assoc] at hg
      obtain ⟨rfl, h⟩ := isExpr_unique he he' _ _ hg
      simp only [List.cons_append, List.cons.injEq, true_and] at h
      obtain ⟨rfl, h⟩ := isArgs_unique ha ha' _ _ h
      exact ⟨rfl, h⟩
end

theorem declares_unique {src : Bytes} {e e' : Expr} (h : Declares src e) (h' : Declares src e') : e = e' := by
  obtain ⟨ts, us, h1, h2, rfl⟩ := h
  obtain ⟨ts', us', h1', h2', rfl⟩ := h'
  have := lexes_unique h1 h1'
  simp only [List.cons_append, List.nil_append, List.cons.injEq, true_and] at this
  exact (isExpr_unique h2 h2' _ _ this).1

/-! ### Any tokens, any writer -/

section
variable {w : Writer} {p : GenPkg} {I : GenSt → Prop} (hput : ∀ d s, I s → I (gput w d s))
  (hind : ∀ s n, I s → I { s with indent := n })
include hput

theorem inv_attr (k v : Bytes) (s : GenSt) (h : I s) : I (writeAttr w p k v s) := by
  unfold writeAttr
  split
  · split
    · exact hput _ _ (hput _ _ h)
    · exact hput _ _ (hput _ _ (hput _ _ (hput _ _ h)))
  · exact hput _ _ (hput _ _ (hput _ _ (hput _ _ (hput _ _ h))))

theorem inv_attrsFrom (as : List (Bytes × Bytes)) (s : GenSt) (h : I s) : I (writeAttrsFrom w p as s) := by
  induction as generalizing s with
  | nil => exact h
  | cons a as ih => exact ih _ (inv_attr hput _ _ _ (hput _ _ h))

theorem inv_attrs (as : List (Bytes × Bytes)) (s : GenSt) (h : I s) : I (writeAttrs w p as s) := by
  cases as with
  | nil => exact h
  | cons a as => exact inv_attrsFrom hput as _ (inv_attr hput _ _ _ h)

theorem inv_write (d : Bytes) (s : GenSt) (h : I s) : I (gwrite w d s) := hput _ _ (hput _ _ (hput _ _ h))

include hind

theorem inv_start (n : Bytes) (as : List (Bytes × Bytes)) (b : Bool) (s : GenSt) (h : I s) :
    I (writeElementStart w p n as b s) := by
  unfold writeElementStart
  simp only
  have h1 : I (gput w (elementStart p n) (gindent w s)) := hput _ _ (hput _ _ h)
  have h2 : ∀ s, I s → I (writeAfterAttrs w as b s) := by
    intro s h
    unfold writeAfterAttrs
    split
    · exact hput _ _ h
    · split
      · exact hput _ _ h
      · exact h
  split
  · exact hput _ _ h1
  · have h3 := hput [10] _ (h2 _ (inv_attrs hput (p := p) as _ h1))
    split
    · exact h3
    · exact hind _ _ h3

theorem inv_token (t : Token) (s : GenSt) (h : I s) : I (genToken w p t s) := by
  unfold genToken
  cases t with
  | text d => simp only; split; exact inv_write hput _ _ h; exact h
  | startTag n as => exact inv_start hput hind _ _ _ _ h
  | selfClosingTag n as => exact inv_start hput hind _ _ _ _ h
  | endTag n => exact inv_write hput _ _ (hind _ _ h)
  | comment d => exact inv_write hput _ _ h
  | doctype d => simp only; split; exact inv_write hput _ _ h; exact h

theorem inv_first : I ⟨0, none, []⟩ → I (incIndent (gwrite w b%"var template = aitch.Collection(" ⟨0, none, []⟩)) :=
  fun h => hind _ _ (inv_write hput _ _ h)

end

theorem genLoop_some {w : Writer} (p : GenPkg) {fin : Option Err} {ts : List Token} {s : GenSt} {e : Err}
    (h : s.err = some e) : genLoop w p fin ts s = s := by
  conv => lhs; unfold genLoop
  simp [h]

theorem generate_sticky {w : Writer} (hw : ∀ log d, (∃ ev ∈ log, ev.err ≠ none) → (w log d).2 ≠ none) (p : GenPkg)
    (ts : List Token) (fin : Option Err) (h : ∃ ev ∈ (GenerateCode w p ts fin).log, ev.err ≠ none) :
    (GenerateCode w p ts fin).err ≠ none := by
  let I : GenSt → Prop := fun s => (∃ ev ∈ s.log, ev.err ≠ none) → s.err ≠ none
  have hput : ∀ d s, I s → I (gput w d s) := by
    intro d s _ ⟨ev, hm, he⟩
    simp only [gput, List.mem_append, List.mem_singleton] at hm ⊢
    rcases hm with hm | rfl
    · exact hw _ _ ⟨ev, hm, he⟩
    · exact he
  have hind : ∀ s n, I s → I { s with indent := n } := fun _ _ h => h
  have hloop : ∀ ts s, I s → I (genLoop w p fin ts s) := by
    intro ts
    induction ts with
    | nil =>
      intro s h
      cases hs : s.err with
      | some e => rw [genLoop_some p hs]; exact h
      | none => rw [genLoop_nil p hs]; exact fun hx => absurd hs (h hx)
    | cons t ts ih =>
      intro s h
      cases hs : s.err with
      | some e => rw [genLoop_some p hs]; exact h
      | none => rw [genLoop_cons p hs]; exact ih _ (inv_token hput hind _ _ h)
  have h1 := hloop ts _ (inv_first (I := I) hput hind (by rintro ⟨_, hm, _⟩; cases hm))
  revert h
  unfold GenerateCode
  simp only
  split
  · exact inv_write hput _ _ (hind _ _ h1)
  · exact h1

theorem generate_accepts {w : Writer} (hw : Accepts w) (p : GenPkg) (ts : List Token) (fin : Option Err) :
    (GenerateCode w p ts fin).err = fin := by
  let I : GenSt → Prop := fun s => s.err = none
  have hput : ∀ d s, I s → I (gput w d s) := fun d s _ => by simp [I, gput, hw _ _]
  have hind : ∀ s n, I s → I { s with indent := n } := fun _ _ h => h
  have hloop : ∀ ts s, I s → (genLoop w p fin ts s).err = fin := by
    intro ts
    induction ts with
    | nil => intro s h; rw [genLoop_nil p h]
    | cons t ts ih => intro s h; rw [genLoop_cons p h]; exact ih _ (inv_token hput hind _ _ h)
  have h1 := hloop ts _ (inv_first (I := I) hput hind rfl)
  unfold GenerateCode
  simp only
  split
  · rename_i h
    have h2 : (gwrite w b%")\n" (decIndent (genLoop w p fin ts
        (incIndent (gwrite w b%"var template = aitch.Collection(" ⟨0, none, []⟩))))).err = none :=
      inv_write (I := I) hput _ _ (hind _ _ h)
    rw [h2, ← h1, h]
  · exact h1

/-- One ASCII letter. -/
def lower1 (c : UInt8) : UInt8 := if 65 ≤ c ∧ c ≤ 90 then c + 32 else c

/-- No capital letter is left. -/
theorem toLower_small (s : Bytes) : ∀ c ∈ toLower s, ¬ (65 ≤ c ∧ c ≤ 90) := by
  induction s using toLower.induct with
  | case1 s ih => simp only [toLower, List.mem_cons]; rintro c (rfl | hc); decide; exact ih c hc
  | case2 s ih => simp only [toLower, List.mem_cons]; rintro c (rfl | hc); decide; exact ih c hc
  | case3 c s h1 h2 ih =>
    have hc : ∀ n : Fin 256, ¬ (65 ≤ lower1 (UInt8.ofFin n) ∧ lower1 (UInt8.ofFin n) ≤ 90) := by decide +kernel
    rw [toLower.eq_3 c s h1 h2]
    simp only [List.mem_cons]
    rintro d (rfl | hd)
    · exact hc c.toFin
    · exact ih d hd
  | case4 => simp [toLower]

/-! ### Which errors are returned -/

section
variable (w : Writer)

theorem lineError_append (l : List WEvent) (ev : WEvent) (h : lineError l = none) :
    lineError (l ++ [ev]) = if endsLine ev then ev.err else none := by
  unfold lineError at h ⊢
  rw [List.filter_append, List.findSome?_append, h]
  by_cases he : endsLine ev = true
  · simp [he]
  · simp [he]

theorem lineError_put {d : Bytes} (s : GenSt) (hd : d ≠ [10]) (hd' : d ≠ b%"),\n") (h : lineError s.log = none) :
    lineError (gput w d s).log = none := by
  simp only [gput]
  rw [lineError_append _ _ h, if_neg (by simp [endsLine, hd, hd'])]

theorem lineError_end {d : Bytes} (s : GenSt) (hd : d = [10] ∨ d = b%"),\n") (h : lineError s.log = none) :
    lineError (gput w d s).log = (gput w d s).err := by
  simp only [gput]
  rw [lineError_append _ _ h, if_pos (by simp [endsLine, hd])]

theorem lineError_plain {d : Bytes} (s : GenSt) (hd : 10 ∉ d) (h : lineError s.log = none) :
    lineError (gput w d s).log = none :=
  lineError_put w s (by rintro rfl; simp at hd) (by rintro rfl; simp at hd) h

theorem lineError_indent (s : GenSt) (h : lineError s.log = none) : lineError (gindent w s).log = none :=
  lineError_plain w s (by intro h; have := List.eq_of_mem_replicate h; simp at this) h

theorem lineError_write {d : Bytes} (s : GenSt) (hd : d ≠ [10]) (hd' : d ≠ b%"),\n") (h : lineError s.log = none) :
    lineError (gwrite w d s).log = (gwrite w d s).err :=
  lineError_end w _ (.inl rfl) (lineError_put w _ hd hd' (lineError_indent w s h))

theorem genEscape_line (v : Bytes) : 10 ∉ genEscape v := by
  have key : ∀ (o : UInt8) (n s : Bytes), 10 ∉ n → (o = 10 ∨ 10 ∉ s) → 10 ∉ replaceAll o n s := by
    intro o n s hn hs hm
    obtain ⟨c, hc, hm⟩ := List.mem_flatMap.1 hm
    split at hm
    · exact hn hm
    · rename_i hne
      rw [← List.mem_singleton.1 hm] at hne hc
      rcases hs with rfl | hs
      · exact hne rfl
      · exact hs hc
  exact key _ _ _ (by decide) (.inr (key _ _ _ (by decide) (.inl rfl)))

variable {p : GenPkg} (hp : ∃ c s, p.pre = c :: s ∧ c ≠ 10 ∧ c ≠ c%')')
include hp

theorem pre_line (f : Bytes) : p.pre ++ f ≠ [10] ∧ p.pre ++ f ≠ b%"),\n" := by
  obtain ⟨c, s, h, h1, h2⟩ := hp
  rw [h]
  exact ⟨fun e => h1 (List.cons.inj e).1, fun e => h2 (List.cons.inj e).1⟩

theorem elementStart_line (n : Bytes) : elementStart p n ≠ [10] ∧ elementStart p n ≠ b%"),\n" := by
  unfold elementStart
  split
  · unfold funcName
    rw [List.append_assoc]
    exact pre_line hp _
  · exact ⟨fun e => absurd (congrArg List.head? e) (by simp), fun e => absurd (congrArg List.head? e) (by simp)⟩

theorem lineError_attr {k v : Bytes} (s : GenSt) (hk : 10 ∉ k) (h : lineError s.log = none) :
    lineError (writeAttr w p k v s).log = none := by
  unfold writeAttr
  split
  · have h1 : ∀ f, lineError (gput w (funcName p f) s).log = none := fun f =>
      lineError_put w s (pre_line hp f).1 (pre_line hp f).2 h
    split
    · exact lineError_plain w _ (by decide) (h1 _)
    · exact lineError_plain w _ (by decide) (lineError_plain w _ (genEscape_line v) (lineError_plain w _ (by decide) (h1 _)))
  · exact lineError_plain w _ (by decide) (lineError_plain w _ (genEscape_line v) (lineError_plain w _ (by decide)
      (lineError_plain w _ hk (lineError_plain w _ (by decide) h))))

theorem lineError_attrsFrom {as : List (Bytes × Bytes)} (hk : ∀ a ∈ as, 10 ∉ a.1) (s : GenSt) (h : lineError s.log = none) :
    lineError (writeAttrsFrom w p as s).log = none := by
  induction as generalizing s with
  | nil => exact h
  | cons a as ih =>
    exact ih (fun b hb => hk b (.tail _ hb)) _ (lineError_attr w hp _ (hk a (.head _)) (lineError_plain w _ (by decide) h))

theorem lineError_attrs {as : List (Bytes × Bytes)} (hk : ∀ a ∈ as, 10 ∉ a.1) (s : GenSt) (h : lineError s.log = none) :
    lineError (writeAttrs w p as s).log = none := by
  cases as with
  | nil => exact h
  | cons a as =>
    exact lineError_attrsFrom w hp (fun b hb => hk b (.tail _ hb)) _ (lineError_attr w hp _ (hk a (.head _)) h)

theorem lineError_start (n : Bytes) {as : List (Bytes × Bytes)} (hk : ∀ a ∈ as, 10 ∉ a.1) (b : Bool) (s : GenSt)
    (h : lineError s.log = none) :
    lineError (writeElementStart w p n as b s).log = (writeElementStart w p n as b s).err := by
  unfold writeElementStart
  simp only
  have h1 : lineError (gput w (elementStart p n) (gindent w s)).log = none :=
    lineError_put w _ (elementStart_line hp n).1 (elementStart_line hp n).2 (lineError_indent w s h)
  have h2 : ∀ s, lineError s.log = none → lineError (writeAfterAttrs w as b s).log = none := by
    intro s h
    unfold writeAfterAttrs
    split
    · exact lineError_plain w _ (by decide) h
    · split
      · exact lineError_plain w _ (by decide) h
      · exact h
  split
  · exact lineError_end w _ (.inr rfl) h1
  · have h3 := lineError_end w (d := [10]) _ (.inl rfl) (h2 _ (lineError_attrs w hp hk _ h1))
    split
    · exact h3
    · exact h3

theorem lineError_token {t : Token} (hk : t.KeysOnLine) (s : GenSt) (he : s.err = none) (h : lineError s.log = none) :
    lineError (genToken w p t s).log = (genToken w p t s).err := by
  have h1 : ∀ f, lineError (gwrite w (p.pre ++ f) s).log = (gwrite w (p.pre ++ f) s).err := fun f =>
    lineError_write w s (pre_line hp f).1 (pre_line hp f).2 h
  unfold genToken
  cases t with
  | text d =>
    simp only
    split
    · simp only [List.append_assoc] at h1 ⊢; exact h1 _
    · rw [h, he]
  | startTag n as => exact lineError_start w hp _ hk _ _ h
  | selfClosingTag n as => exact lineError_start w hp _ hk _ _ h
  | endTag n => exact lineError_write w _ (by decide) (by decide) h
  | comment d => simp only [List.append_assoc] at h1 ⊢; exact h1 _
  | doctype d =>
    simp only
    split
    · exact lineError_write w _ (fun e => absurd (congrArg List.head? e) (by simp)) (fun e => absurd (congrArg List.head? e) (by simp)) h
    · rw [h, he]

theorem lineError_generate {ts : List Token} (hk : ∀ t ∈ ts, t.KeysOnLine) (fin : Option Err) :
    (GenerateCode w p ts fin).err = (lineError (GenerateCode w p ts fin).log).or fin := by
  have hloop : ∀ (ts : List Token), (∀ t ∈ ts, t.KeysOnLine) → ∀ s, lineError s.log = s.err →
      (genLoop w p fin ts s).err = (lineError (genLoop w p fin ts s).log).or fin ∧
        (lineError (genLoop w p fin ts s).log ≠ none → (genLoop w p fin ts s).err ≠ none) := by
    intro ts
    induction ts with
    | nil =>
      intro _ s h
      cases hs : s.err with
      | some e => rw [genLoop_some p hs]; rw [h, hs]; simp
      | none => rw [genLoop_nil p hs]; simp [h, hs]
    | cons t ts ih =>
      intro hk s h
      cases hs : s.err with
      | some e => rw [genLoop_some p hs]; rw [h, hs]; simp
      | none =>
        rw [genLoop_cons p hs]
        exact ih (fun t ht => hk t (.tail _ ht)) _ (lineError_token w hp (hk t (.head _)) s hs (by rw [h, hs]))
  obtain ⟨h1, h2⟩ := hloop ts hk (incIndent (gwrite w b%"var template = aitch.Collection(" ⟨0, none, []⟩))
    (lineError_write w ⟨0, none, []⟩ (by decide) (by decide) rfl)
  unfold GenerateCode
  simp only
  split
  · rename_i h
    have h3 : lineError (genLoop w p fin ts (incIndent (gwrite w b%"var template = aitch.Collection(" ⟨0, none, []⟩))).log = none := by
      exact Classical.byContradiction fun hx => h2 hx h
    rw [h, h3, Option.none_or] at h1
    subst h1
    rw [Option.or_none]
    exact (lineError_write w (d := b%")\n") (decIndent _) (by decide) (by decide) h3).symm
  · exact h1

end

end Aitch
