import Verif.Spec.GenTokens
import Verif.Proofs.GeneratorLex
import Verif.Proofs.GenUnique
/-
GenerateCode for token streams that need not be well nested.
-/
namespace Aitch

open Spec

/-- The source text of a token, with `n` tabs. -/
def tokenCode (p : GenPkg) (n : Nat) : Token → Bytes
  | .text d => if blankText d then [] else codeLine n (p.pre ++ b%"Text(\"" ++ genEscape d ++ b%"\"),")
  | .comment d => codeLine n (p.pre ++ b%"Comment(\"" ++ genEscape d ++ b%"\"),")
  | .doctype d => if p.doctype then codeLine n (b%"html.PI(\"DOCTYPE\", \"" ++ genEscape d ++ b%"\"),") else []
  | .startTag name attrs => List.replicate n 9 ++ startCode p name attrs
  | .selfClosingTag name attrs => List.replicate n 9 ++ selfCode p name attrs
  | .endTag _ => codeLine (n - 1) b%"),"

/-- The indentation after a token. -/
def indentAfter (n : Nat) : Token → Nat
  | .startTag _ _ => n + 1
  | .endTag _ => n - 1
  | _ => n

/-- The source text of tokens. -/
def tokensCode (p : GenPkg) : Nat → List Token → Bytes
  | _, [] => []
  | n, t :: ts => tokenCode p n t ++ tokensCode p (indentAfter n t) ts

/-- The indentation after tokens. -/
def indentsAfter : Nat → List Token → Nat
  | n, [] => n
  | n, t :: ts => indentsAfter (indentAfter n t) ts

section
variable {w : Writer} (hw : Accepts w) (p : GenPkg)
include hw

theorem GenAt.token {s : GenSt} {n : Nat} {o : Bytes} (h : GenAt s n o) (t : Token) :
    GenAt (genToken w p t s) (indentAfter n t) (o ++ tokenCode p n t) := by
  cases t with
  | text d =>
    simp only [genToken, tokenCode, notBlank_eq, indentAfter]
    cases blankText d
    · exact h.line hw _
    · simpa using h
  | comment d => exact h.line hw _
  | doctype d =>
    simp only [genToken, tokenCode, indentAfter]
    split
    · exact h.line hw _
    · simpa using h
  | startTag name attrs => exact h.start hw p name attrs
  | selfClosingTag name attrs => exact h.self hw p name attrs
  | endTag name =>
    have h1 : GenAt (decIndent s) (n - 1) o := ⟨h.err, by simp [decIndent, h.indent], h.out⟩
    exact h1.line hw _

theorem GenAt.tokens {s : GenSt} {n : Nat} {o : Bytes} (h : GenAt s n o) (ts : List Token) :
    GenAt (genLoop w p none ts s) (indentsAfter n ts) (o ++ tokensCode p n ts) := by
  induction ts generalizing s n o with
  | nil => rw [genLoop_nil p h.err]; exact ⟨rfl, h.indent, by simpa [tokensCode] using h.out⟩
  | cons t ts ih => rw [genLoop_cons p h.err]; exact (ih (h.token hw p t)).eq (by simp [tokensCode])

end

/-- The source text that is written for tokens. -/
def programTokens (p : GenPkg) (ts : List Token) : Bytes :=
  b%"var template = aitch.Collection(\n" ++ (tokensCode p 1 ts ++ (List.replicate (indentsAfter 1 ts - 1) 9 ++ b%")\n\n"))

theorem generates_tokens (p : GenPkg) (ts : List Token) : Generates p ts (programTokens p ts) := by
  intro w hw
  have h0 : GenAt ⟨0, none, []⟩ 0 [] := ⟨rfl, rfl, rfl⟩
  have h1 := h0.line hw b%"var template = aitch.Collection("
  have h2 : GenAt (incIndent (gwrite w b%"var template = aitch.Collection(" ⟨0, none, []⟩)) 1 _ :=
    ⟨h1.err, congrArg (· + 1) h1.indent, h1.out⟩
  have h3 := h2.tokens hw p ts
  have h4 : GenAt (decIndent (genLoop w p none ts (incIndent (gwrite w b%"var template = aitch.Collection(" ⟨0, none, []⟩))))
      (indentsAfter 1 ts - 1) _ := ⟨h3.err, by simp [decIndent, h3.indent], h3.out⟩
  have h5 := h4.line hw b%")\n"
  have he : GenerateCode w p ts none = gwrite w b%")\n" (decIndent (genLoop w p none ts
      (incIndent (gwrite w b%"var template = aitch.Collection(" ⟨0, none, []⟩)))) := by
    unfold GenerateCode
    simp only [h3.err]
  rw [he]
  exact ⟨h5.err, h5.out.trans (by simp [programTokens])⟩

/-! ### Names of end tags -/

theorem tokenCode_unnamed (p : GenPkg) (n : Nat) (t : Token) : tokenCode p n t.unnamed = tokenCode p n t := by
  cases t <;> rfl

theorem indentAfter_unnamed (n : Nat) (t : Token) : indentAfter n t.unnamed = indentAfter n t := by cases t <;> rfl

theorem tokensCode_unnamed (p : GenPkg) (n : Nat) (ts : List Token) :
    tokensCode p n (ts.map Token.unnamed) = tokensCode p n ts := by
  induction ts generalizing n with
  | nil => rfl
  | cons t ts ih => simp only [List.map_cons, tokensCode, tokenCode_unnamed, indentAfter_unnamed, ih]

theorem indentsAfter_unnamed (n : Nat) (ts : List Token) : indentsAfter n (ts.map Token.unnamed) = indentsAfter n ts := by
  induction ts generalizing n with
  | nil => rfl
  | cons t ts ih => simp only [List.map_cons, indentsAfter, indentAfter_unnamed, ih]

theorem generates_unnamed {p : GenPkg} {ts us : List Token} (h : ts.map Token.unnamed = us.map Token.unnamed) {src : Bytes}
    (hs : Generates p ts src) : Generates p us src := by
  have e : programTokens p ts = programTokens p us := by
    unfold programTokens
    rw [← tokensCode_unnamed, ← indentsAfter_unnamed, h, tokensCode_unnamed, indentsAfter_unnamed]
  rw [generates_unique hs (generates_tokens p ts), e]
  exact generates_tokens p us

/-! ### Depth -/

/-- The number of open elements after tokens, if there are `n` before; `none` if one is closed that is not open. -/
def depth : Nat → List Token → Option Nat
  | n, [] => some n
  | n, .startTag _ _ :: ts => depth (n + 1) ts
  | 0, .endTag _ :: _ => none
  | n + 1, .endTag _ :: ts => depth n ts
  | n, _ :: ts => depth n ts

theorem depth_levels (ts : List Token) (n m : Nat) : depth n ts = some m ↔
    n + starts ts = m + ends ts ∧ ∀ before after, ts = before ++ after → ends before ≤ starts before + n := by
  induction ts generalizing n with
  | nil =>
    simp only [depth, starts, ends, Option.some.injEq, Nat.add_zero]
    constructor
    · rintro rfl
      refine ⟨rfl, fun b a h => ?_⟩
      cases (List.append_eq_nil_iff.1 h.symm).1
      simp [ends]
    · exact fun h => h.1
  | cons t ts ih =>
    have split : ∀ {P : List Token → Prop}, (∀ b a, t :: ts = b ++ a → P b) ↔ (P [] ∧ ∀ b a, ts = b ++ a → P (t :: b)) := by
      intro P
      constructor
      · intro h
        exact ⟨h [] _ rfl, fun b a e => h (t :: b) a (by rw [e]; rfl)⟩
      · rintro ⟨h1, h2⟩ b a e
        cases b with
        | nil => exact h1
        | cons c b => simp only [List.cons_append, List.cons.injEq] at e; rw [← e.1]; exact h2 b a e.2
    rw [split]
    cases t with
    | startTag name attrs =>
      rw [depth, ih]
      simp only [starts, ends]
      constructor
      · rintro ⟨h1, h2⟩
        exact ⟨by omega, by omega, fun b a e => by have := h2 b a e; omega⟩
      · rintro ⟨h1, -, h2⟩
        exact ⟨by omega, fun b a e => by have := h2 b a e; omega⟩
    | endTag name =>
      cases n with
      | zero =>
        simp only [depth, starts, ends]
        constructor
        · intro h; cases h
        · rintro ⟨h1, -, h2⟩
          have := h2 [] _ rfl
          simp [starts, ends] at this
      | succ n =>
        rw [depth, ih]
        simp only [starts, ends]
        constructor
        · rintro ⟨h1, h2⟩
          exact ⟨by omega, by omega, fun b a e => by have := h2 b a e; omega⟩
        · rintro ⟨h1, -, h2⟩
          exact ⟨by omega, fun b a e => by have := h2 b a e; omega⟩
    | _ =>
      rw [depth, ih]
      · simp only [starts, ends]
        constructor
        · rintro ⟨h1, h2⟩
          exact ⟨by omega, by omega, fun b a e => by have := h2 b a e; omega⟩
        · rintro ⟨h1, -, h2⟩
          exact ⟨by omega, fun b a e => by have := h2 b a e; omega⟩
      all_goals simp

theorem levels_depth (k : Nat) (ts : List Token) : Levels k ts ↔ depth k ts = some k := by
  rw [depth_levels]
  unfold Levels
  constructor
  · rintro ⟨h1, h2⟩; exact ⟨by omega, h2⟩
  · rintro ⟨h1, h2⟩; exact ⟨by omega, h2⟩

/-- Tokens of which all open elements are closed are those of a list of texts, or there is an end tag that closes the
element they are in. -/
theorem depth_docs : (l : Nat) → (ts : List Token) → ts.length ≤ l → (k : Nat) → depth k ts = some 0 →
    ∃ ds rest, ClosedAll ds ∧ (∀ t ∈ tokensAll ds, t ∈ ts ∨ ∃ n, t = .endTag n) ∧
      ((k = 0 ∧ rest = [] ∧ ts.map Token.unnamed = (tokensAll ds).map Token.unnamed) ∨
       ∃ j n, k = j + 1 ∧ depth j rest = some 0 ∧ (∀ t ∈ rest, t ∈ ts) ∧ rest.length < ts.length ∧
         ts.map Token.unnamed = (tokensAll ds ++ .endTag n :: rest).map Token.unnamed)
  | l, [], _, k, h => by
    simp only [depth, Option.some.injEq] at h
    exact ⟨[], [], trivial, by simp [tokensAll], .inl ⟨h, rfl, rfl⟩⟩
  | 0, _ :: _, hl, _, _ => by simp at hl
  | l + 1, .endTag n :: ts, hl, k, h => by
    cases k with
    | zero => simp [depth] at h
    | succ j =>
      exact ⟨[], ts, trivial, by simp [tokensAll],
        .inr ⟨j, n, rfl, by simpa [depth] using h, fun t ht => .tail _ ht, by simp, rfl⟩⟩
  | l + 1, .startTag name attrs :: ts, hl, k, h => by
    simp only [depth] at h
    simp only [List.length_cons, Nat.add_le_add_iff_right] at hl
    obtain ⟨ds, rest, hc, hm, h1⟩ := depth_docs l ts hl (k + 1) h
    rcases h1 with ⟨h1, _⟩ | ⟨j, n, hj, hd, hr, hlt, he⟩
    · omega
    obtain rfl : j = k := by omega
    obtain ⟨ds', rest', hc', hm', h2⟩ := depth_docs l rest (by omega) j hd
    refine ⟨.elem name attrs ds :: ds', rest', ⟨hc, hc'⟩, ?_, ?_⟩
    · intro t ht
      simp only [tokensAll, Doc.tokens, List.cons_append, List.mem_cons, List.mem_append, List.not_mem_nil, or_false] at ht
      rcases ht with rfl | (ht | rfl) | ht
      · exact .inl (.head _)
      · rcases hm t ht with h | h
        · exact .inl (.tail _ h)
        · exact .inr h
      · exact .inr ⟨_, rfl⟩
      · rcases hm' t ht with h | h
        · exact .inl (.tail _ (hr t h))
        · exact .inr h
    · rcases h2 with ⟨h2, h3, h4⟩ | ⟨j', n', hj', hd', hr', hlt', he'⟩
      · refine .inl ⟨h2, h3, ?_⟩
        simp only [List.map_append, List.map_cons] at he
        simp [he, h4, tokensAll, Doc.tokens, Token.unnamed]
      · refine .inr ⟨j', n', hj', hd', fun t ht => .tail _ (hr t (hr' t ht)), by simp; omega, ?_⟩
        simp only [List.map_append, List.map_cons] at he he'
        simp [he, he', tokensAll, Doc.tokens, Token.unnamed]
  | l + 1, .text d :: ts, hl, k, h => by
    obtain ⟨ds, rest, hc, hm, h1⟩ := depth_docs l ts (by simpa using hl) k (by simpa [depth] using h)
    refine ⟨.text d :: ds, rest, ⟨trivial, hc⟩, ?_, ?_⟩
    · intro t ht
      simp only [tokensAll, Doc.tokens, List.cons_append, List.mem_cons, List.nil_append] at ht
      rcases ht with rfl | ht
      · exact .inl (.head _)
      · rcases hm t ht with h | h
        · exact .inl (.tail _ h)
        · exact .inr h
    · rcases h1 with ⟨h2, h3, h4⟩ | ⟨j', n', hj', hd', hr', hlt', he'⟩
      · exact .inl ⟨h2, h3, by simp [h4, tokensAll, Doc.tokens]⟩
      · refine .inr ⟨j', n', hj', hd', fun t ht => .tail _ (hr' t ht), by simp; omega, ?_⟩
        simp only [List.map_append, List.map_cons] at he'
        simp [he', tokensAll, Doc.tokens]
  | l + 1, .comment d :: ts, hl, k, h => by
    obtain ⟨ds, rest, hc, hm, h1⟩ := depth_docs l ts (by simpa using hl) k (by simpa [depth] using h)
    refine ⟨.comment d :: ds, rest, ⟨trivial, hc⟩, ?_, ?_⟩
    · intro t ht
      simp only [tokensAll, Doc.tokens, List.cons_append, List.mem_cons, List.nil_append] at ht
      rcases ht with rfl | ht
      · exact .inl (.head _)
      · rcases hm t ht with h | h
        · exact .inl (.tail _ h)
        · exact .inr h
    · rcases h1 with ⟨h2, h3, h4⟩ | ⟨j', n', hj', hd', hr', hlt', he'⟩
      · exact .inl ⟨h2, h3, by simp [h4, tokensAll, Doc.tokens]⟩
      · refine .inr ⟨j', n', hj', hd', fun t ht => .tail _ (hr' t ht), by simp; omega, ?_⟩
        simp only [List.map_append, List.map_cons] at he'
        simp [he', tokensAll, Doc.tokens]
  | l + 1, .doctype d :: ts, hl, k, h => by
    obtain ⟨ds, rest, hc, hm, h1⟩ := depth_docs l ts (by simpa using hl) k (by simpa [depth] using h)
    refine ⟨.doctype d :: ds, rest, ⟨trivial, hc⟩, ?_, ?_⟩
    · intro t ht
      simp only [tokensAll, Doc.tokens, List.cons_append, List.mem_cons, List.nil_append] at ht
      rcases ht with rfl | ht
      · exact .inl (.head _)
      · rcases hm t ht with h | h
        · exact .inl (.tail _ h)
        · exact .inr h
    · rcases h1 with ⟨h2, h3, h4⟩ | ⟨j', n', hj', hd', hr', hlt', he'⟩
      · exact .inl ⟨h2, h3, by simp [h4, tokensAll, Doc.tokens]⟩
      · refine .inr ⟨j', n', hj', hd', fun t ht => .tail _ (hr' t ht), by simp; omega, ?_⟩
        simp only [List.map_append, List.map_cons] at he'
        simp [he', tokensAll, Doc.tokens]
  | l + 1, .selfClosingTag name attrs :: ts, hl, k, h => by
    obtain ⟨ds, rest, hc, hm, h1⟩ := depth_docs l ts (by simpa using hl) k (by simpa [depth] using h)
    refine ⟨.selfClosing name attrs :: ds, rest, ⟨trivial, hc⟩, ?_, ?_⟩
    · intro t ht
      simp only [tokensAll, Doc.tokens, List.cons_append, List.mem_cons, List.nil_append] at ht
      rcases ht with rfl | ht
      · exact .inl (.head _)
      · rcases hm t ht with h | h
        · exact .inl (.tail _ h)
        · exact .inr h
    · rcases h1 with ⟨h2, h3, h4⟩ | ⟨j', n', hj', hd', hr', hlt', he'⟩
      · exact .inl ⟨h2, h3, by simp [h4, tokensAll, Doc.tokens]⟩
      · refine .inr ⟨j', n', hj', hd', fun t ht => .tail _ (hr' t ht), by simp; omega, ?_⟩
        simp only [List.map_append, List.map_cons] at he'
        simp [he', tokensAll, Doc.tokens]

/-! ### Quotable names -/

mutual
theorem quotable_tokens : (d : Doc) → (d.QuotableNames ↔ ∀ t ∈ d.tokens, t.QuotableNames)
  | .text _ => by simp [Doc.QuotableNames, Doc.tokens, Token.QuotableNames]
  | .comment _ => by simp [Doc.QuotableNames, Doc.tokens, Token.QuotableNames]
  | .doctype _ => by simp [Doc.QuotableNames, Doc.tokens, Token.QuotableNames]
  | .selfClosing _ _ => by simp [Doc.QuotableNames, Doc.tokens, Token.QuotableNames]
  | .void _ _ => by simp [Doc.QuotableNames, Doc.tokens, Token.QuotableNames]
  | .elem name attrs cs => by
    simp only [Doc.QuotableNames, Doc.tokens, List.mem_cons, List.mem_append, quotable_tokensAll cs]
    constructor
    · rintro ⟨h1, h2, h3⟩ t (rfl | ht | rfl | ht)
      · exact ⟨h1, h2⟩
      · exact h3 t ht
      · exact trivial
      · cases ht
    · intro h
      exact ⟨(h _ (.inl rfl)).1, (h _ (.inl rfl)).2, fun t ht => h t (.inr (.inl ht))⟩
theorem quotable_tokensAll : (ds : List Doc) → (QuotableNamesAll ds ↔ ∀ t ∈ tokensAll ds, t.QuotableNames)
  | [] => by simp [QuotableNamesAll, tokensAll]
  | d :: ds => by
    simp only [QuotableNamesAll, tokensAll, List.mem_append, quotable_tokens d, quotable_tokensAll ds]
    constructor
    · rintro ⟨h1, h2⟩ t (ht | ht)
      · exact h1 t ht
      · exact h2 t ht
    · intro h
      exact ⟨fun t ht => h t (.inl ht), fun t ht => h t (.inr ht)⟩
end

/-! ### Go tokens -/

section
variable {p : GenPkg} (G : GoodPkg p)
include G

omit G in
theorem CodeArgs.lex {d : Bytes} {es : List Expr} (h : CodeArgs d es) :
    ∃ us, LexC false false d us ∧ ∀ m rest, tokParens m (us ++ rest) = tokParens m rest := by
  obtain ⟨us, h1, h2⟩ := h
  have := h2 _ _ .nil
  rw [List.append_nil, List.append_nil] at this
  exact ⟨us, h1, fun m rest => tokParens_args this m rest⟩

/-- The Go tokens of a token of the input open and close as many parentheses as it opens and closes elements. -/
theorem lex_token (n : Nat) (t : Token) (hq : t.QuotableNames) : ∃ us, LexC false false (tokenCode p n t) us ∧
    ∀ m ts rest, (∀ m, tokParens m rest = depth m ts) → tokParens m (us ++ rest) = depth m (t :: ts) := by
  have doc : ∀ d : Doc, d.Closed → d.QuotableNames → ∃ us, LexC false false (docCode p n d) us ∧
      ∀ m rest, tokParens m (us ++ rest) = tokParens m rest := fun d hc hq => (code_doc G d n hc hq).lex
  cases t with
  | text d =>
    obtain ⟨us, h1, h2⟩ := doc (.text d) trivial trivial
    exact ⟨us, h1, fun m ts rest h => by rw [h2, h, depth]; all_goals simp⟩
  | comment d =>
    obtain ⟨us, h1, h2⟩ := doc (.comment d) trivial trivial
    exact ⟨us, h1, fun m ts rest h => by rw [h2, h, depth]; all_goals simp⟩
  | doctype d =>
    obtain ⟨us, h1, h2⟩ := doc (.doctype d) trivial trivial
    exact ⟨us, h1, fun m ts rest h => by rw [h2, h, depth]; all_goals simp⟩
  | selfClosingTag name attrs =>
    obtain ⟨us, h1, h2⟩ := doc (.selfClosing name attrs) trivial hq
    exact ⟨us, h1, fun m ts rest h => by rw [h2, h, depth]; all_goals simp⟩
  | endTag name =>
    have h1 := (LexC.tabs false (n - 1)).trans (((LexC.rpar false).trans (LexC.comma true)).trans LexC.newline)
    refine ⟨_, h1, fun m ts rest h => ?_⟩
    cases m <;> simp [tokParens, depth, h]
  | startTag name attrs =>
    obtain ⟨f, pre, es, hf, h1, h2, -⟩ := code_elem G name hq.1
    obtain ⟨u1, l1, e1⟩ := h1.lex
    obtain ⟨u2, l2, e2⟩ := (code_attrs G attrs hq.2).1.lex
    have h3 := (LexC.tabs false n).trans ((LexC.name false hf).trans (l1.trans (l2.trans LexC.newline)))
    refine ⟨[.name f, .lpar] ++ (u1 ++ u2), ?_, fun m ts rest h => ?_⟩
    · simpa [tokenCode, startCode, h2, List.append_assoc] using h3
    · simp only [List.cons_append, List.nil_append, List.append_assoc, tokParens, e1, e2, depth, h]

theorem lex_tokens (n : Nat) (ts : List Token) (hq : ∀ t ∈ ts, t.QuotableNames) : ∃ us,
    LexC false false (tokensCode p n ts) us ∧
    ∀ us' rs, (∀ m, tokParens m us' = depth m rs) → ∀ m, tokParens m (us ++ us') = depth m (ts ++ rs) := by
  induction ts generalizing n with
  | nil => exact ⟨[], .nil false, fun _ _ h m => h m⟩
  | cons t ts ih =>
    obtain ⟨u1, l1, e1⟩ := lex_token G n t (hq t (.head _))
    obtain ⟨u2, l2, e2⟩ := ih (indentAfter n t) fun t ht => hq t (.tail _ ht)
    refine ⟨u1 ++ u2, l1.trans l2, fun us' rs h m => ?_⟩
    rw [List.append_assoc]
    exact e1 m (ts ++ rs) (u2 ++ us') (e2 us' rs h)

theorem lex_program (ts : List Token) (hq : ∀ t ∈ ts, t.QuotableNames) : ∃ us,
    Lexes false (programTokens p ts) ([.name b%"var", .name b%"template", .equals] ++
      (.name b%"aitch.Collection" :: .lpar :: (us ++ [.rpar])) ++ [.semicolon]) ∧
    ∀ us' rs, (∀ m, tokParens m us' = depth m rs) → ∀ m, tokParens m (us ++ us') = depth m (ts ++ rs) := by
  obtain ⟨us, h1, h2⟩ := lex_tokens G 1 ts hq
  refine ⟨us, ?_, h2⟩
  have h3 := ((LexC.name false (f := b%"aitch.Collection") (by decide)).trans (LexC.newline.trans (h1.trans
    ((LexC.tabs false (indentsAfter 1 ts - 1)).trans (LexC.rpar false))))) b%"\n\n" [.semicolon]
    (.semicolon (.newline .done))
  have h4 : programTokens p ts = b%"var" ++ (32 :: (b%"template" ++ (32 :: (61 :: (32 ::
      (b%"aitch.Collection" ++ b%"(" ++ ([10] ++ (tokensCode p 1 ts ++ (List.replicate (indentsAfter 1 ts - 1) 9 ++ b%")"))) ++
        b%"\n\n")))))) := by
    simp [programTokens]
  rw [h4]
  refine .name (by decide) (by decide) (by simp; decide) (.space (.inl rfl) ?_)
  refine .name (by decide) (by decide) (by simp; decide) (.space (.inl rfl) (.equals (.space (.inl rfl) ?_)))
  simpa using h3

theorem balanced_tokens (ts : List Token) (hq : ∀ t ∈ ts, t.QuotableNames) :
    Balanced (programTokens p ts) ↔ depth 1 ts = some 1 := by
  obtain ⟨us, h1, h2⟩ := lex_program G ts hq
  unfold Balanced
  rw [parens_lexes h1]
  simp only [List.cons_append, List.nil_append, List.append_assoc, tokParens]
  have h3 : ∀ m, tokParens m [.rpar, .semicolon] = depth m [.endTag []] := by intro m; cases m <;> rfl
  rw [h2 _ _ h3, depth_levels, depth_levels]
  have hs : ∀ (b : List Token), starts (b ++ [.endTag []]) = starts b ∧ ends (b ++ [.endTag []]) = ends b + 1 := by
    intro b
    induction b with
    | nil => exact ⟨rfl, rfl⟩
    | cons t b ih => cases t <;> simp [starts, ends, ih]
  constructor
  · rintro ⟨e1, e2⟩
    rw [(hs ts).1, (hs ts).2] at e1
    exact ⟨by omega, fun b a e => e2 b (a ++ [.endTag []]) (by rw [e, List.append_assoc])⟩
  · rintro ⟨e1, e2⟩
    refine ⟨by rw [(hs ts).1, (hs ts).2]; omega, fun b a e => ?_⟩
    rcases List.eq_nil_or_concat a with rfl | ⟨a, x, rfl⟩
    · rw [List.append_nil] at e
      rw [← e, (hs ts).1, (hs ts).2]; omega
    · rw [List.concat_eq_append, ← List.append_assoc] at e
      exact e2 b a (List.append_inj_left' e rfl)

theorem declares_tokens (ts : List Token) (hq : ∀ t ∈ ts, t.QuotableNames) :
    (∃ e, Declares (programTokens p ts) e) → depth 0 ts = some 0 := by
  rintro ⟨e, vs, ws, l, he, rfl⟩
  obtain ⟨us, h1, h2⟩ := lex_program G ts hq
  have := lexes_unique l h1
  simp only [List.cons_append, List.nil_append, List.cons.injEq, true_and] at this
  have h3 : vs = .name b%"aitch.Collection" :: .lpar :: (us ++ [.rpar]) := List.append_inj_left' this rfl
  rw [h3] at he
  generalize hv : GoTok.name b%"aitch.Collection" :: .lpar :: (us ++ [.rpar]) = vs' at he
  cases he with
  | lit => simp at hv
  | call ha =>
    simp only [List.cons.injEq, true_and] at hv
    have h4 : us = _ := List.append_inj_left' hv.2 rfl
    subst h4
    have h5 := tokParens_args ha 0 []
    rw [h2 [] [] (fun m => by simp [tokParens, depth]) 0, List.append_nil] at h5
    exact h5

end

/-! ### Documents -/

mutual
theorem starts_doc : (d : Doc) → (ts : List Token) → (d.Closed → starts (d.tokens ++ ts) + ends ts = ends (d.tokens ++ ts) + starts ts) ∧
    (¬ d.Closed → ends (d.tokens ++ ts) + starts ts < starts (d.tokens ++ ts) + ends ts)
  | .text _, ts => by simp [Doc.Closed, Doc.tokens, starts, ends, Nat.add_comm]
  | .comment _, ts => by simp [Doc.Closed, Doc.tokens, starts, ends, Nat.add_comm]
  | .doctype _, ts => by simp [Doc.Closed, Doc.tokens, starts, ends, Nat.add_comm]
  | .selfClosing _ _, ts => by simp [Doc.Closed, Doc.tokens, starts, ends, Nat.add_comm]
  | .void _ _, ts => by
    simp only [Doc.Closed, Doc.tokens, List.cons_append, List.nil_append, starts, ends, false_implies, not_false_eq_true,
      true_and, true_implies]
    omega
  | .elem n _ cs, ts => by
    have h := starts_docs cs (.endTag n :: ts)
    simp only [Doc.Closed, Doc.tokens, List.cons_append, List.append_assoc, List.nil_append, starts, ends] at h ⊢
    exact ⟨fun hc => by have := h.1 hc; omega, fun hc => by have := h.2 hc; omega⟩
theorem starts_docs : (ds : List Doc) → (ts : List Token) →
    (ClosedAll ds → starts (tokensAll ds ++ ts) + ends ts = ends (tokensAll ds ++ ts) + starts ts) ∧
    (¬ ClosedAll ds → ends (tokensAll ds ++ ts) + starts ts < starts (tokensAll ds ++ ts) + ends ts)
  | [], ts => by simp [ClosedAll, tokensAll, Nat.add_comm]
  | d :: ds, ts => by
    have h1 := starts_doc d (tokensAll ds ++ ts)
    have h2 := starts_docs ds ts
    simp only [ClosedAll, tokensAll, List.append_assoc]
    refine ⟨fun hc => by have := h1.1 hc.1; have := h2.1 hc.2; omega, fun hc => ?_⟩
    by_cases hd : d.Closed
    · have := h1.1 hd
      have := h2.2 fun h => hc ⟨hd, h⟩
      omega
    · have := h1.2 hd
      by_cases hs : ClosedAll ds
      · have := h2.1 hs; omega
      · have := h2.2 hs; omega
end

end Aitch
