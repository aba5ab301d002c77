import Verif.Spec.HeadersRead
import Verif.Proofs.HtmxText
import Verif.Proofs.Escape
import Verif.Proofs.Markup
/-
Reading header maps back.
-/
namespace Aitch
open Spec

/-! ### JavaScript -/

theorem readToQuote_iff (x k r : Bytes) : readToQuote x = some (k, r) ↔ x = k ++ c%'\'' :: r ∧ Clean k := by
  induction x generalizing k with
  | nil => simp [readToQuote]
  | cons c x ih =>
    rw [readToQuote]
    by_cases h1 : c = c%'\''
    · rw [if_pos h1, h1]
      constructor
      · intro h
        simp only [Option.some.injEq, Prod.mk.injEq] at h
        obtain ⟨rfl, rfl⟩ := h
        exact ⟨rfl, by simp [Clean]⟩
      · rintro ⟨h, hc⟩
        cases k with
        | nil => simp at h; simp [h]
        | cons d k =>
          simp only [List.cons_append, List.cons.injEq] at h
          exact absurd (hc d (by simp)) (by rw [← h.1]; decide)
    · rw [if_neg h1]
      by_cases h2 : c = c%'\\' ∨ c = c%'\n' ∨ c = c%'\r'
      · rw [if_pos h2]
        refine ⟨fun h => (nomatch h), ?_⟩
        rintro ⟨h, hc⟩
        cases k with
        | nil => simp only [List.nil_append, List.cons.injEq] at h; exact absurd h.1 h1
        | cons d k =>
          simp only [List.cons_append, List.cons.injEq] at h
          exact absurd (hc d (by simp)) (by rw [← h.1]; rcases h2 with rfl | rfl | rfl <;> decide)
      · rw [if_neg h2]
        constructor
        · intro h
          cases hx : readToQuote x with
          | none => rw [hx] at h; simp at h
          | some p =>
            rw [hx] at h
            simp only [Option.map_some, Option.some.injEq, Prod.mk.injEq] at h
            obtain ⟨rfl, rfl⟩ := h
            obtain ⟨h3, h4⟩ := (ih p.1).1 (by rw [hx])
            refine ⟨by simp [h3], ?_⟩
            intro d hd
            rcases List.mem_cons.1 hd with rfl | hd
            · simp only [not_or] at h2
              simp [h1, h2]
            · exact h4 d hd
        · rintro ⟨h, hc⟩
          cases k with
          | nil => simp only [List.nil_append, List.cons.injEq] at h; exact absurd h.1 h1
          | cons d k =>
            simp only [List.cons_append, List.cons.injEq] at h
            obtain ⟨rfl, h⟩ := h
            rw [(ih k).2 ⟨h, fun d hd => hc d (by simp [hd])⟩]
            rfl

theorem readString_iff (x k r : Bytes) : readString x = some (k, r) ↔ x = c%'\'' :: (k ++ c%'\'' :: r) ∧ Clean k := by
  unfold readString
  split
  · rename_i s
    rw [readToQuote_iff]
    simp
  · rename_i hx
    constructor
    · intro h; cases h
    · rintro ⟨h, _⟩
      exact absurd h (hx _)

theorem takeWhile_stop {p : UInt8 → Bool} (t : Bytes) (c : UInt8) (r : Bytes) (h : ∀ x ∈ t, p x = true) (hc : p c = false) :
    (t ++ c :: r).takeWhile p = t ∧ (t ++ c :: r).dropWhile p = c :: r := by
  induction t with
  | nil => simp [hc]
  | cons x t ih =>
    have := ih fun y hy => h y (by simp [hy])
    simp [h x (by simp), this]

/-- A literal is read up to a comma or a brace. -/
theorem readLiteral_of {t : Bytes} (h : Literal t) (c : UInt8) (hc : isWordByte c = false) (r : Bytes) :
    readLiteral (t ++ c :: r) = some (t, c :: r) := by
  rcases h with ⟨h1, h2⟩ | ⟨u, hu, rfl⟩
  · obtain ⟨h3, h4⟩ := takeWhile_stop t c r h2 hc
    unfold readLiteral
    split
    · rename_i s hs
      cases t with
      | nil => exact absurd rfl h1
      | cons x t =>
        have hx := h2 x (by simp)
        simp only [List.cons_append, List.cons.injEq] at hs
        rw [hs.1] at hx
        exact absurd hx (by decide)
    · rw [h3, h4, if_neg h1]
  · have : (readToQuote (u ++ c%'\'' :: c :: r)) = some (u, c :: r) := (readToQuote_iff _ _ _).2 ⟨rfl, hu⟩
    rw [show b%"'" ++ u ++ b%"'" ++ c :: r = 39 :: (u ++ c%'\'' :: c :: r) by simp, readLiteral, this]
    rfl

/-- The members, as they are written. -/
def membersText (val : Bytes → Bytes) (ks : List Bytes) : Bytes :=
  List.intercalate b%", " (ks.map fun k => b%"'" ++ k ++ b%"': " ++ val k) ++ b%"}"

theorem membersText_cons (val : Bytes → Bytes) (k k' : Bytes) (ks : List Bytes) :
    membersText val (k :: k' :: ks) = b%"'" ++ k ++ b%"': " ++ val k ++ b%", " ++ membersText val (k' :: ks) := by
  simp [membersText, List.intercalate]

theorem membersSay (val : Bytes → Bytes) (ks : List Bytes) (hne : ks ≠ []) (hk : ∀ k ∈ ks, Clean k)
    (hv : ∀ k ∈ ks, Literal (val k)) : MembersSay (membersText val ks) (ks.map fun k => (k, val k)) := by
  induction ks with
  | nil => exact absurd rfl hne
  | cons k ks ih =>
    cases ks with
    | nil =>
      refine .last (s' := val k ++ b%"}") ((readString_iff _ _ _).2 ⟨?_, hk k (by simp)⟩)
        (readLiteral_of (hv k (by simp)) c%'}' (by decide) [])
      simp [membersText, List.intercalate]
    | cons k' ks =>
      rw [membersText_cons, List.map_cons]
      refine .more (s' := val k ++ (b%", " ++ membersText val (k' :: ks))) ((readString_iff _ _ _).2 ⟨?_, hk k (by simp)⟩)
        (readLiteral_of (hv k (by simp)) c%',' (by decide) (c%' ' :: membersText val (k' :: ks)))
        (ih (by simp) (fun k hk' => hk k (.tail _ hk')) fun k hk' => hv k (.tail _ hk'))
      simp

theorem objectSays (val : Bytes → Bytes) (ks : List Bytes) (hk : ∀ k ∈ ks, Clean k) (hv : ∀ k ∈ ks, Literal (val k)) :
    ObjectSays (c%'{' :: membersText val ks) (ks.map fun k => (k, val k)) := by
  cases ks with
  | nil => exact .empty
  | cons k ks => exact .members (membersSay val _ (by simp) hk hv)

theorem membersSay_unique {s : Bytes} {ms ms' : List (Bytes × Bytes)} (h : MembersSay s ms) (h' : MembersSay s ms') :
    ms = ms' := by
  induction h generalizing ms' with
  | last h1 h2 =>
    cases h' with
    | last h3 h4 =>
      rw [h1] at h3
      simp only [Option.some.injEq, Prod.mk.injEq, List.append_cancel_left_eq] at h3
      obtain ⟨rfl, rfl⟩ := h3
      rw [h2] at h4
      simp at h4
      simp [h4]
    | more h3 h4 =>
      rw [h1] at h3
      simp only [Option.some.injEq, Prod.mk.injEq, List.append_cancel_left_eq] at h3
      obtain ⟨rfl, rfl⟩ := h3
      rw [h2] at h4
      simp at h4
  | more h1 h2 _ ih =>
    cases h' with
    | last h3 h4 =>
      rw [h1] at h3
      simp only [Option.some.injEq, Prod.mk.injEq, List.append_cancel_left_eq] at h3
      obtain ⟨rfl, rfl⟩ := h3
      rw [h2] at h4
      simp at h4
    | more h3 h4 h5 =>
      rw [h1] at h3
      simp only [Option.some.injEq, Prod.mk.injEq, List.append_cancel_left_eq] at h3
      obtain ⟨rfl, rfl⟩ := h3
      rw [h2] at h4
      simp only [Option.some.injEq, Prod.mk.injEq, List.append_cancel_left_eq] at h4
      obtain ⟨rfl, rfl⟩ := h4
      rw [ih h5]

theorem objectSays_unique {s : Bytes} {ms ms' : List (Bytes × Bytes)} (h : ObjectSays s ms) (h' : ObjectSays s ms') :
    ms = ms' := by
  cases h with
  | empty =>
    cases h' with
    | empty => rfl
    | members h =>
      cases h with
      | last h => exact absurd h (by simp [readString])
      | more h => exact absurd h (by simp [readString])
  | members h =>
    cases h' with
    | empty =>
      cases h with
      | last h => exact absurd h (by simp [readString])
      | more h => exact absurd h (by simp [readString])
    | members h' => exact membersSay_unique h h'

/-! ### The five references -/

/-- A byte that no reference has but at its start. -/
def Outer (d : UInt8) : Prop := d ∉ b%"quotapsml;g"

/-- References do not reach over such a byte. -/
theorem decode_append (x : Bytes) (d : UInt8) (hd : Outer d) (w : Bytes) :
    decode (x ++ d :: w) = decode x ++ decode (d :: w) := by
  induction x using decode.induct with
  | case1 rest ih => simpa [decode] using ih
  | case2 rest ih => simpa [decode] using ih
  | case3 rest ih => simpa [decode] using ih
  | case4 rest ih => simpa [decode] using ih
  | case5 rest ih => simpa [decode] using ih
  | case6 c rest h1 h2 h3 h4 h5 ih =>
    rw [decode, List.cons_append, decode, ih, List.cons_append]
    all_goals try assumption
    all_goals
      intro r hc hr
      simp only [Outer, List.mem_cons, List.not_mem_nil, or_false, not_or] at hd
    · rcases rest with _ | ⟨a, _ | ⟨b, _ | ⟨e, _ | ⟨f, _ | ⟨g, rest⟩⟩⟩⟩⟩ <;> simp_all
    · rcases rest with _ | ⟨a, _ | ⟨b, _ | ⟨e, _ | ⟨f, _ | ⟨g, rest⟩⟩⟩⟩⟩ <;> simp_all
    · rcases rest with _ | ⟨a, _ | ⟨b, _ | ⟨e, _ | ⟨f, rest⟩⟩⟩⟩ <;> simp_all
    · rcases rest with _ | ⟨a, _ | ⟨b, _ | ⟨e, rest⟩⟩⟩ <;> simp_all
    · rcases rest with _ | ⟨a, _ | ⟨b, _ | ⟨e, rest⟩⟩⟩ <;> simp_all
  | case7 => rfl

theorem decode_length (x : Bytes) : (decode x).length ≤ x.length := by
  induction x using decode.induct with
  | case1 rest ih => simp only [decode, List.length_cons]; omega
  | case2 rest ih => simp only [decode, List.length_cons]; omega
  | case3 rest ih => simp only [decode, List.length_cons]; omega
  | case4 rest ih => simp only [decode, List.length_cons]; omega
  | case5 rest ih => simp only [decode, List.length_cons]; omega
  | case6 c rest h1 h2 h3 h4 h5 ih =>
    rw [decode]
    · simp only [List.length_cons]; omega
    all_goals assumption
  | case7 => exact Nat.le_refl _

/-- A text is unchanged exactly if there is no reference in it. -/
theorem decode_self_iff (x : Bytes) : decode x = x ↔ ∀ r ∈ refs, ¬ r <:+: x := by
  have inf : ∀ (r : Bytes) (c : UInt8) (x : Bytes), r <:+: c :: x ↔ r <+: c :: x ∨ r <:+: x := fun r c x =>
    List.infix_cons_iff
  have pre : ∀ (r rest : Bytes), r <+: r ++ rest := fun r rest => List.prefix_append r rest
  have no : ∀ (r : Bytes) (x rest : Bytes), r ∈ refs → x = r ++ rest → (decode x).length < x.length →
      (decode x = x ↔ ∀ r ∈ refs, ¬ r <:+: x) := by
    intro r x rest hr hx hl
    constructor
    · intro h; rw [h] at hl; omega
    · intro h; exact absurd (hx ▸ (pre r rest).isInfix) (h r hr)
  induction x using decode.induct with
  | case1 rest ih =>
    refine no b%"&quot;" _ rest (by decide) rfl ?_
    have := decode_length rest
    simp only [decode, List.length_cons]; omega
  | case2 rest ih =>
    refine no b%"&apos;" _ rest (by decide) rfl ?_
    have := decode_length rest
    simp only [decode, List.length_cons]; omega
  | case3 rest ih =>
    refine no b%"&amp;" _ rest (by decide) rfl ?_
    have := decode_length rest
    simp only [decode, List.length_cons]; omega
  | case4 rest ih =>
    refine no b%"&lt;" _ rest (by decide) rfl ?_
    have := decode_length rest
    simp only [decode, List.length_cons]; omega
  | case5 rest ih =>
    refine no b%"&gt;" _ rest (by decide) rfl ?_
    have := decode_length rest
    simp only [decode, List.length_cons]; omega
  | case6 c rest h1 h2 h3 h4 h5 ih =>
    have e : decode (c :: rest) = c :: decode rest := by
      rw [decode]
      all_goals assumption
    rw [e]
    refine Iff.trans (by simp) (ih.trans ?_)
    constructor
    · intro h r hr hi
      rcases (inf r c rest).1 hi with ⟨t, ht⟩ | hi
      · simp only [refs, List.mem_cons, List.not_mem_nil, or_false] at hr
        rcases hr with rfl | rfl | rfl | rfl | rfl <;>
          simp only [List.cons_append, List.nil_append, List.cons.injEq] at ht <;>
          obtain ⟨hc, ht⟩ := ht <;>
          first
          | exact h1 t hc.symm ht.symm
          | exact h2 t hc.symm ht.symm
          | exact h3 t hc.symm ht.symm
          | exact h4 t hc.symm ht.symm
          | exact h5 t hc.symm ht.symm
      · exact h r hr hi
    · intro h r hr hi
      exact h r hr ((inf r c rest).2 (.inr hi))
  | case7 => simp [decode, refs]

theorem decode_safeKey (k : Bytes) : decode (safeKey k) = decode k := by
  have plain : ∀ x : Bytes, c%'"' ∉ x → safeKey x = x := by
    intro x hx
    induction x with
    | nil => rfl
    | cons c x ih =>
      simp only [List.mem_cons, not_or] at hx
      have hs : safeKey (c :: x) = (if c = c%'"' then b%"&quot;" else [c]) ++ safeKey x := rfl
      rw [hs, if_neg (fun h => hx.1 h.symm), ih hx.2]; rfl
  induction hn : k.length using Nat.strongRecOn generalizing k with
  | _ n ih =>
    by_cases hq : c%'"' ∈ k
    · obtain ⟨x, y, rfl⟩ := List.append_of_mem hq
      have hs : safeKey (x ++ c%'"' :: y) = safeKey x ++ (c%'&' :: (b%"quot;" ++ safeKey y)) := by
        simp [safeKey]
      rw [hs, decode_append _ _ (by unfold Outer; decide), decode_append _ _ (by unfold Outer; decide)]
      rw [ih x.length (by rw [← hn]; simp) x rfl]
      have h1 : decode (c%'&' :: (b%"quot;" ++ safeKey y)) = c%'"' :: decode (safeKey y) := rfl
      rw [h1, ih y.length (by rw [← hn]; simp; omega) y rfl, decode_plain _ (by decide)]
    · rw [plain k hq]

/-! ### HTML -/

open Markup

variable (R : CharRefs)

/-- An escaped text within a double quoted value. -/
theorem run_quotedPart (t : Tag) (n v s rest : Bytes) :
    run R (.doubleQuoted t n v) 0 (escaped s ++ rest) = run R (.doubleQuoted t n (v ++ seen s)) 0 rest := by
  induction s generalizing v with
  | nil => simp [escaped, seen]
  | cons c s ih =>
    rw [escaped_cons, List.append_assoc, run_escapedByte R (st := .doubleQuoted t n v) rfl c _ ?_ (by simp), ih,
      seen_cons c s]
    · simp
    · intro h0 h1 _ _ _
      simp [step, h1, noNul_of h0]

/-- A byte that stands for itself within a double quoted value. -/
theorem run_quotedByte (t : Tag) (n v : Bytes) (c : UInt8) (hc : c ∉ [0, c%'&', c%'"']) (rest : Bytes) :
    run R (.doubleQuoted t n v) 0 (c :: rest) = run R (.doubleQuoted t n (v ++ [c])) 0 rest := by
  simp only [List.mem_cons, List.not_mem_nil, or_false, not_or] at hc
  rw [run_step R _ (.inl hc.2.1)]
  simp [step, hc.2.2, noNul_of hc.1]

theorem run_quotedBytes (t : Tag) (n v u rest : Bytes) (hu : ∀ c ∈ u, c ∉ [0, c%'&', c%'"']) :
    run R (.doubleQuoted t n v) 0 (u ++ rest) = run R (.doubleQuoted t n (v ++ u)) 0 rest := by
  induction u generalizing v with
  | nil => simp
  | cons c u ih =>
    rw [List.cons_append, run_quotedByte R t n v c (hu c (by simp)), ih _ fun d hd => hu d (by simp [hd])]
    simp

/-- A key within a double quoted value. -/
theorem run_quotedKey (t : Tag) (n v k rest : Bytes) (hk : ∀ c ∈ k, c ≠ 0 ∧ c ≠ c%'&') :
    run R (.doubleQuoted t n v) 0 (safeKey k ++ rest) = run R (.doubleQuoted t n (v ++ k)) 0 rest := by
  induction k generalizing v with
  | nil => simp [safeKey]
  | cons c k ih =>
    have ih := fun v => ih v fun d hd => hk d (by simp [hd])
    have hs : safeKey (c :: k) = (if c = c%'"' then b%"&quot;" else [c]) ++ safeKey k := rfl
    rw [hs]
    by_cases hq : c = c%'"'
    · rw [if_pos hq, hq]
      have := run_quotedPart R t n v b%"\"" (safeKey k ++ rest)
      rw [show escaped b%"\"" = b%"&quot;" from rfl, show seen b%"\"" = b%"\"" from rfl] at this
      rw [List.append_assoc, this, ih]
      simp
    · rw [if_neg hq, List.append_assoc, List.singleton_append, run_quotedByte R t n v c
        (by simp [hq, hk c (by simp)]), ih]
      simp

/-- The members, as they are written into the attribute. -/
theorem run_quotedMembers (t : Tag) (n v : Bytes) (text : Bytes → Bytes) (ks : List Bytes)
    (hk : ∀ k ∈ ks, ∀ c ∈ k, c ≠ 0 ∧ c ≠ c%'&') (rest : Bytes) :
    run R (.doubleQuoted t n v) 0 (List.intercalate b%", " (ks.map fun k =>
      b%"'" ++ safeKey k ++ b%"': " ++ escaped (text k)) ++ (b%"}" ++ rest)) =
    run R (.doubleQuoted t n (v ++ membersText (fun k => seen (text k)) ks)) 0 rest := by
  induction ks generalizing v with
  | nil =>
    have := run_quotedBytes R t n v b%"}" rest (by decide)
    simpa [List.intercalate, membersText] using this
  | cons k ks ih =>
    have one : ∀ v rest, run R (.doubleQuoted t n v) 0 (b%"'" ++ safeKey k ++ b%"': " ++ escaped (text k) ++ rest) =
        run R (.doubleQuoted t n (v ++ (b%"'" ++ k ++ b%"': " ++ seen (text k)))) 0 rest := by
      intro v rest
      simp only [List.append_assoc]
      rw [run_quotedBytes R t n v b%"'" _ (by decide), run_quotedKey R t n _ k _ (hk k (by simp)),
        run_quotedBytes R t n _ b%"': " _ (by decide), run_quotedPart]
      simp
    cases ks with
    | nil =>
      have e : List.intercalate b%", " ([k].map fun k => b%"'" ++ safeKey k ++ b%"': " ++ escaped (text k)) =
          b%"'" ++ safeKey k ++ b%"': " ++ escaped (text k) := by simp [List.intercalate]
      rw [e, one, run_quotedBytes R t n _ b%"}" rest (by decide)]
      simp [membersText, List.intercalate]
    | cons k' ks =>
      have e : List.intercalate b%", " ((k :: k' :: ks).map fun k => b%"'" ++ safeKey k ++ b%"': " ++ escaped (text k)) =
          b%"'" ++ safeKey k ++ b%"': " ++ escaped (text k) ++ (b%", " ++ List.intercalate b%", "
            ((k' :: ks).map fun k => b%"'" ++ safeKey k ++ b%"': " ++ escaped (text k))) := by
        simp [List.intercalate]
      rw [e, List.append_assoc, one, List.append_assoc b%", ", run_quotedBytes R t n _ b%", " _ (by decide),
        ih _ fun k hk' => hk k (.tail _ hk'), membersText_cons]
      simp

/-- A start tag with one attribute, the value of which is read as `u`. -/
theorem read_oneAttr (name att value u : Bytes) (hn : ValidName name) (ha : ValidName att)
    (hpl : Markup.lower name ≠ b%"plaintext") (ht : Markup.lower name ∉ textNames)
    (hv : ∀ t n rest, run R (.doubleQuoted t n []) 0 (value ++ rest) = run R (.doubleQuoted t n u) 0 rest) :
    readHtml R (b%"<" ++ name ++ (b%" " ++ att ++ b%"=\"" ++ value ++ b%"\"") ++ b%">") =
      [.start (Markup.lower name) [(Markup.lower att, u)] false] := by
  obtain ⟨c, cs, rfl, hc, hcs⟩ := hn
  obtain ⟨l1, l2, l3, l4, l5, l6, l7, l8⟩ := letter_facts c hc
  have e : b%"<" ++ (c :: cs) ++ (b%" " ++ att ++ b%"=\"" ++ value ++ b%"\"") ++ b%">" =
      c%'<' :: c :: (cs ++ (c%' ' :: (att ++ (c%'=' :: c%'"' :: (value ++ (c%'"' :: c%'>' :: [])))))) := by simp
  unfold readHtml
  rw [e, run_step R _ (.inl (by decide)), run_step R _ (.inl (by simpa using l7))]
  have e1 : step .data c%'<' = (.tagOpen, []) := rfl
  rw [e1]
  have e2 : step .tagOpen c = (.tagName { isEnd := false, name := [lowerByte c] }, []) := by
    simp [step, stepTagOpen, l1, l3, l6]
  rw [e2]
  simp only [List.nil_append]
  rw [run_tagName R _ cs _ hcs, Between.name.next R ha, run_step R _ (.inl (by decide)), run_step R _ (.inl (by decide))]
  have e3 : ∀ t n, step (.attrName t n) c%'=' = (.beforeAttrValue t n, []) := fun _ _ => rfl
  have e4 : ∀ t n, step (.beforeAttrValue t n) c%'"' = (.doubleQuoted t n [], []) := fun _ _ => rfl
  rw [e3, e4]
  simp only [List.nil_append]
  rw [hv, run_step R _ (.inl (by decide))]
  have e5 : ∀ t n u, step (.doubleQuoted t n u) c%'"' = (.afterAttrValue (t.add n u), []) := fun _ _ _ => by simp [step]
  rw [e5]
  simp only [List.nil_append]
  rw [Between.value.close R]
  have hl : [lowerByte c] ++ Markup.lower cs = Markup.lower (c :: cs) := rfl
  rw [hl]
  have hcs : contentState (Markup.lower (c :: cs)) = .data := contentState_data ht hpl
  simp only [emitTag, Tag.add, Bool.false_eq_true, ↓reduceIte, List.nil_append, List.singleton_append]
  rw [hcs]
  rfl

end Aitch
