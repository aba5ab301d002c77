import Verif.Spec.Classes
import Verif.Proofs.Tag
import Verif.Proofs.RoundTrip
import Verif.Proofs.Format
import Verif.Proofs.Library
/-
Reading the words of attributes (lemmas for C98).
-/
namespace Aitch.Spec
open Markup

/-! ### Words -/

theorem wordsFrom_blank (a b : Bytes) (x : UInt8) (hx : isBlank x = true) :
    ∀ cur, wordsFrom cur (a ++ x :: b) = wordsFrom cur a ++ words b := by
  induction a with
  | nil => intro cur; simp [wordsFrom, hx, words]
  | cons c a ih =>
    intro cur
    simp only [List.cons_append, wordsFrom]
    split
    · rw [ih, List.append_assoc]
    · exact ih _

/-- Words of two texts with a space between them. -/
theorem words_space (a b : Bytes) : words (a ++ b%" " ++ b) = words a ++ words b := by
  rw [List.append_assoc]; exact wordsFrom_blank a b 32 (by decide) []

theorem words_join (ts : List Bytes) : words (delimJoin b%" " ts) = ts.flatMap words := by
  induction ts with
  | nil => rfl
  | cons t ts ih =>
    cases ts with
    | nil => simp [delimJoin]
    | cons u us =>
      rw [List.flatMap_cons, ← ih, delimJoin]
      · by_cases h : t = []
        · subst h; simp [words, wordsFrom, oneWord]
        · rw [if_neg h]; exact words_space t _
      · simp

/-! ### Escaped texts joined -/

theorem escaped_eq_nil {s : Bytes} : escaped s = [] ↔ seen s = [] := by
  unfold escaped seen
  rw [List.flatMap_eq_nil_iff, List.filter_eq_nil_iff]
  have key : ∀ n : Fin 256, escapedByte (UInt8.ofFin n) = [] ↔ ¬ (decide (UInt8.ofFin n ≠ 0)) = true := by decide +kernel
  exact ⟨fun h c hc => (key c.toFin).1 (h c hc), fun h c hc => (key c.toFin).2 (h c hc)⟩

theorem join_escaped {d : Bytes} (hd : escaped d = d) (ts : List Bytes) :
    delimJoin d (ts.map escaped) = escaped (delimJoin d (ts.map seen)) := by
  induction ts with
  | nil => rfl
  | cons t ts ih =>
    cases ts with
    | nil => simp [delimJoin, escapedByte_seen]
    | cons u us =>
      simp only [List.map_cons] at ih ⊢
      simp only [delimJoin] at ih ⊢
      rw [ih, escaped_append]
      congr 1
      by_cases h : seen t = []
      · rw [if_pos (escaped_eq_nil.2 h), if_pos h]; rfl
      · rw [if_neg fun h' => h (escaped_eq_nil.1 h'), if_neg h, escaped_append, escapedByte_seen, hd]

theorem seen_join (ts : List Bytes) : seen (delimJoin b%" " (ts.map seen)) = delimJoin b%" " (ts.map seen) := by
  have h : ∀ t ∈ ts.map seen, ∀ c ∈ t, c ≠ 0 := by
    intro t ht c hc
    obtain ⟨u, -, rfl⟩ := List.mem_map.1 ht
    simpa using (List.mem_filter.1 hc).2
  generalize ts.map seen = us at h
  refine List.filter_eq_self.2 fun c hc => ?_
  have : ∀ us : List Bytes, (∀ t ∈ us, ∀ c ∈ t, c ≠ 0) → ∀ c ∈ delimJoin b%" " us, c ≠ 0 := by
    intro us h
    induction us with
    | nil => simp [delimJoin]
    | cons t us ih =>
      cases us with
      | nil => simpa [delimJoin] using h
      | cons u us =>
        intro c hc
        rw [delimJoin] at hc
        · rcases List.mem_append.1 hc with hc | hc
          · split at hc
            · simp at hc
            · rcases List.mem_append.1 hc with hc | hc
              · exact h t (by simp) c hc
              · rcases List.mem_singleton.1 hc with rfl; decide
          · exact ih (fun t ht => h t (by simp [ht])) c hc
        · simp
  simpa using this us h c hc

theorem valuesBytes_texts {P : Fns} {c : Ctx} {vs : List Value} (h : ∀ v ∈ vs, ∃ s, valueBytes P c v = escaped s) :
    ∃ s, valuesBytes P c vs = escaped s := by
  induction vs with
  | nil => exact ⟨[], rfl⟩
  | cons v vs ih =>
    obtain ⟨s, hs⟩ := h v (by simp)
    obtain ⟨t, ht⟩ := ih fun v hv => h v (by simp [hv])
    exact ⟨s ++ t, by rw [valuesBytes, hs, ht, escaped_append]⟩

theorem exists_texts {P : Fns} {c : Ctx} {vs : List Value} (h : ∀ v ∈ vs, ∃ s, valueBytes P c v = escaped s) :
    ∃ ts : List Bytes, vs.map (valueBytes P c) = ts.map escaped := by
  induction vs with
  | nil => exact ⟨[], rfl⟩
  | cons v vs ih =>
    obtain ⟨s, hs⟩ := h v (by simp)
    obtain ⟨t, ht⟩ := ih fun v hv => h v (by simp [hv])
    exact ⟨s :: t, by simp [hs, ht]⟩

/-! ### Tags that show texts -/

/-- What shows is the text of some tree's attribute. -/
def ShowsText (x : Shown) : Prop := ValidName x.1 ∧ Markup.lower x.1 = x.1 ∧ ∀ v, x.2 = some v → ∃ s, v = escaped s

theorem shown_text {P : Fns} {c : Ctx} {a : Attr} (h : Ordinary P c c.dl a) : ShowsText (shown P c a) := by
  obtain ⟨h1, h2, h3, h4⟩ := h
  cases a with
  | plain n vs =>
    refine ⟨h1, h2, fun v hv => ?_⟩
    obtain ⟨s, hs⟩ := valuesBytes_texts h3
    exact ⟨s, by rw [← hs]; simpa [shown, Attr.values] using hv.symm⟩
  | bool n => exact ⟨h1, h2, nofun⟩
  | delim n d r =>
    refine ⟨h1, h2, fun v hv => ?_⟩
    obtain ⟨ts, hts⟩ := exists_texts h3
    exact ⟨_, by rw [← join_escaped (h4 n d r rfl), ← hts]; simpa [shown, Attr.values] using hv.symm⟩

theorem ordinary_undelimited {P : Fns} {c : Ctx} {dl dl' : Nat → List Value} {a : Attr} (h : Ordinary P c dl a)
    (hd : isDelim a = false) : Ordinary P c dl' a := by
  obtain ⟨h1, h2, h3, h4⟩ := h
  cases a with
  | plain n vs => exact ⟨h1, h2, h3, h4⟩
  | bool n => exact ⟨h1, h2, h3, h4⟩
  | delim n d r => simp [isDelim, refOf] at hd

theorem valuesOf_texts {P : Fns} {c : Ctx} {dl : Nat → List Value} {as : List Attr} (h : ∀ a ∈ as, Ordinary P c dl a) :
    ∀ v ∈ valuesOf dl as, ∃ s, valueBytes P c v = escaped s := by
  intro v hv
  obtain ⟨a, ha, hv⟩ := List.mem_flatMap.1 hv
  exact (h a ha).texts v hv

theorem nameShows_text {P : Fns} {c : Ctx} {dl : Nat → List Value} {ds es : List Attr}
    (hd : ∀ a ∈ ds, Ordinary P c dl a) (he : ∀ a ∈ es, Ordinary P c c.dl a) {x : Shown}
    (h : nameShows P c dl ds es = some x) : ShowsText x := by
  unfold nameShows at h
  split at h
  · rename_i _ _ a rest n d r more hs
    have hm : ∀ b ∈ delimSuffix (a :: rest), b ∈ a :: rest := fun b hb => delimSuffix_mem hb
    have hr : Attr.delim n d r ∈ a :: rest := hm _ (by rw [hs]; simp)
    simp only [Option.some.injEq] at h
    subst h
    refine ⟨(hd _ hr).valid, (hd _ hr).lower, fun v hv => ?_⟩
    obtain ⟨ts, hts⟩ := exists_texts (P := P) (c := c)
      (vs := valuesOf dl (delimSuffix (a :: rest)) ++ valuesOf c.dl es) fun v hv => by
        rcases List.mem_append.1 hv with hv | hv
        · exact valuesOf_texts (fun b hb => hd b (hm b hb)) v hv
        · exact valuesOf_texts he v hv
    exact ⟨_, by rw [← join_escaped ((hd _ hr).delimiter n d r rfl), ← hts]; simpa using hv.symm⟩
  · rename_i _ _ a rest hs
    cases hl : es.getLast? with
    | some b =>
      rw [hl] at h
      simp only [Option.some_or, Option.map_some, Option.some.injEq] at h
      subst h
      exact shown_text (he b (List.mem_of_getLast? hl))
    | none =>
      rw [hl, Option.none_or] at h
      cases hl' : (a :: rest).getLast? with
      | none => rw [hl'] at h; cases h
      | some b =>
        rw [hl'] at h
        simp only [Option.map_some, Option.some.injEq] at h
        subst h
        refine shown_text (ordinary_undelimited (hd b (List.mem_of_getLast? hl')) ?_)
        cases hb : isDelim b with
        | false => rfl
        | true =>
          exfalso
          obtain ⟨init, hi⟩ : ∃ init, a :: rest = init ++ [b] := by
            obtain ⟨hne, e⟩ := List.getLast?_eq_some_iff.1 hl'
            exact ⟨_, e⟩
          have : delimSuffix (a :: rest) ≠ [] := by
            rw [hi]; simp [delimSuffix, hb]
          cases hds : delimSuffix (a :: rest) with
          | nil => exact this hds
          | cons e es' =>
            have : isDelim e = true := by
              have hmem : e ∈ delimSuffix (a :: rest) := by rw [hds]; simp
              unfold delimSuffix at hmem
              exact List.all_eq_true.1 List.all_takeWhile e (List.mem_reverse.1 hmem)
            cases e with
            | delim n d r => exact hs _ _ _ _ hds
            | plain => simp [isDelim, refOf] at this
            | bool => simp [isDelim, refOf] at this
  · split at h
    · rename_i n d r more
      have hr : Ordinary P c c.dl (.delim n d r) := he _ (by simp)
      simp only [Option.some.injEq] at h
      subst h
      refine ⟨hr.valid, hr.lower, fun v hv => ?_⟩
      obtain ⟨ts, hts⟩ := exists_texts (valuesOf_texts he)
      exact ⟨_, by rw [← join_escaped (hr.delimiter n d r rfl), ← hts]; simpa using hv.symm⟩
    · cases hl : es.getLast? with
      | none => rw [hl] at h; cases h
      | some b =>
        rw [hl] at h
        simp only [Option.map_some, Option.some.injEq] at h
        subst h
        exact shown_text (he b (List.mem_of_getLast? hl))

theorem shows_names {P : Fns} {c : Ctx} {dl : Nat → List Value} {statics act : List Attr} (ns : List Bytes) :
    ((ns.filterMap fun n => nameShows P c dl (named n statics) (named n act)).map (·.1)).Sublist ns := by
  induction ns with
  | nil => simp
  | cons n ns ih =>
    rw [List.filterMap_cons]
    cases h : nameShows P c dl (named n statics) (named n act) with
    | none => exact ih.cons _
    | some x =>
      simp only [List.map_cons]
      rw [nameShows_fst h]
      exact ih.cons_cons _

/-- A tag shows every name once. -/
theorem tagSpec_nodup {P : Fns} {c : Ctx} {dl : Nat → List Value} {statics act : List Attr} {l : List Shown}
    (h : TagSpec P c dl statics act l) : (l.map (·.1)).Nodup := by
  unfold TagSpec at h
  simp only at h
  split at h
  · subst h
    exact (shows_names _).nodup (nodup_distinct _)
  · obtain ⟨l1, l2, p1, p2, rfl⟩ := h
    have s1 := shows_names (P := P) (c := c) (dl := dl) (statics := statics) (act := act) (distinct (statics.map Attr.name))
    have s2 := shows_names (P := P) (c := c) (dl := dl) (statics := statics) (act := act)
      (distinct ((act.map Attr.name).filter fun n => n ∉ statics.map Attr.name))
    rw [List.map_append, List.nodup_append]
    refine ⟨(p1.map _).nodup_iff.2 (s1.nodup (nodup_distinct _)), (p2.map _).nodup_iff.2 (s2.nodup (nodup_distinct _)),
      fun a ha b hb e => ?_⟩
    subst e
    have h1 := s1.subset ((p1.map _).mem_iff.1 ha)
    have h2 := s2.subset ((p2.map _).mem_iff.1 hb)
    rw [mem_distinct] at h1
    rw [mem_distinct, List.mem_filter] at h2
    simp only [decide_eq_true_eq] at h2
    exact h2.2 h1

/-! ### Reading a tag -/

/-- The attributes of the tree of a tag. -/
theorem trees_of_shown {l : List Shown} (h : ∀ x ∈ l, ShowsText x) :
    ∃ as : List (Bytes × Option Bytes), l.flatMap Shown.bytes = as.flatMap Markup.writeAttr ∧
      l = as.map fun a => (a.1, a.2.map escaped) := by
  induction l with
  | nil => exact ⟨[], rfl, rfl⟩
  | cons x l ih =>
    obtain ⟨as, h1, h2⟩ := ih fun x hx => h x (by simp [hx])
    obtain ⟨n, v⟩ := x
    cases v with
    | none => exact ⟨(n, none) :: as, by simp [h1, Shown.bytes, Markup.writeAttr], by simp [← h2]⟩
    | some v =>
      obtain ⟨s, rfl⟩ := (h (n, some v) (by simp)).2.2 v rfl
      exact ⟨(n, some s) :: as, by simp [h1, Shown.bytes, Markup.writeAttr], by simp [← h2]⟩

/-- What is read from a tag: the attributes shown, their values decoded. -/
theorem read_tag (R : CharRefs) {name : Bytes} (hn : ValidName name) {l : List Shown} (h : ∀ x ∈ l, ShowsText x)
    (hl : (l.map (·.1)).Nodup) (rest : Bytes) :
    ∃ as : List (Bytes × Option Bytes), l = as.map (fun a => (a.1, a.2.map escaped)) ∧
      ∃ more, readHtml R (tagBytes name l ++ rest) =
        .start (Markup.lower name) (as.map fun a => (a.1, seen (a.2.getD []))) false :: more := by
  obtain ⟨as, h1, h2⟩ := trees_of_shown h
  refine ⟨as, h2, ?_⟩
  have hlow : ∀ a ∈ as, ValidName a.1 ∧ Markup.lower a.1 = a.1 := fun a ha => by
    have hm : (a.1, a.2.map escaped) ∈ l := by rw [h2]; exact List.mem_map.2 ⟨a, ha, rfl⟩
    exact ⟨(h _ hm).1, (h _ hm).2.1⟩
  have hok : AttrsOK as := by
    refine ⟨fun a ha => (hlow a ha).1, ?_⟩
    have : (as.map fun a => Markup.lower a.1) = l.map (·.1) := by
      rw [h2, List.map_map]
      exact List.map_congr_left fun a ha => (hlow a ha).2
    rw [this]; exact hl
  have e : tagBytes name l = writeTag name as := by
    simp [tagBytes, writeTag, h1]
  unfold readHtml
  rw [e, run_startTag R name as hn hok]
  simp only [startTok, items]
  rw [List.map_congr_left (f := fun a : Bytes × Option Bytes => (Markup.lower a.1, seen (a.2.getD [])))
    (g := fun a => (a.1, seen (a.2.getD []))) fun a ha => by rw [(hlow a ha).2]]
  exact ⟨_, rfl⟩

theorem lookup_map_fst {as : List (Bytes × Option Bytes)} {f : Option Bytes → Bytes} {n : Bytes}
    (hnd : (as.map (·.1)).Nodup) {v : Option Bytes} (h : (n, v) ∈ as) :
    (as.map fun a => (a.1, f a.2)).lookup n = some (f v) := by
  induction as with
  | nil => simp at h
  | cons a as ih =>
    simp only [List.map_cons, List.nodup_cons] at hnd
    rcases List.mem_cons.1 h with rfl | h
    · simp
    · have : (n == a.1) = false := by
        rw [beq_eq_false_iff_ne]
        rintro rfl
        exact hnd.1 (List.mem_map.2 ⟨_, h, rfl⟩)
      simp only [List.map_cons, List.lookup, this]
      exact ih hnd.2 h

theorem lookup_map_none {as : List (Bytes × Option Bytes)} {f : Option Bytes → Bytes} {n : Bytes}
    (h : ∀ v, (n, v) ∉ as) : (as.map fun a => (a.1, f a.2)).lookup n = none := by
  induction as with
  | nil => rfl
  | cons a as ih =>
    have : (n == a.1) = false := by
      rw [beq_eq_false_iff_ne]
      rintro rfl
      exact h a.2 (by simp)
    simp only [List.map_cons, List.lookup, this]
    exact ih fun v hv => h v (by simp [hv])

/-- The words read of a name whose declarations are all delimited by spaces. -/
theorem words_tag (R : CharRefs) {P : Fns} {c : Ctx} {dl : Nat → List Value} {statics act : List Attr} {l : List Shown}
    (hl : TagSpec P c dl statics act l) (hnd : (l.map (·.1)).Nodup) {name : Bytes} (hn : ValidName name)
    (hst : ∀ a ∈ statics, Ordinary P c dl a) (hact : ∀ a ∈ act, Ordinary P c c.dl a) (n : Bytes)
    (hd : ∀ a ∈ statics ++ act, a.name = n → ∃ r, a = .delim n b%" " r) (ts : List Bytes)
    (ht : (valuesOf dl (named n statics) ++ valuesOf c.dl (named n act)).map (valueBytes P c) = ts.map escaped)
    (rest : Bytes) :
    wordsOf n (readHtml R (tagBytes name l ++ rest)) = ts.flatMap fun t => words (seen t) := by
  have hx : ∀ x ∈ l, ShowsText x := fun x hx => by
    obtain ⟨m, -, hm⟩ := (tagSpec_mem hl x).1 hx
    exact nameShows_text (fun a ha => hst a (List.mem_filter.1 ha).1) (fun a ha => hact a (List.mem_filter.1 ha).1) hm
  obtain ⟨as, h1, more, h2⟩ := read_tag R hn hx hnd rest
  have hnd' : (as.map (·.1)).Nodup := by
    rw [h1, List.map_map] at hnd; exact hnd
  rw [h2]
  simp only [wordsOf]
  -- the declarations of `n`
  have hs : ∀ a ∈ named n statics, ∃ r, a = .delim n b%" " r := fun a ha =>
    hd a (by simp [(List.mem_filter.1 ha).1]) (by simpa using (List.mem_filter.1 ha).2)
  have ha : ∀ a ∈ named n act, ∃ r, a = .delim n b%" " r := fun a ha =>
    hd a (by simp [(List.mem_filter.1 ha).1]) (by simpa using (List.mem_filter.1 ha).2)
  have hall : ∀ a ∈ named n statics, isDelim a = true := fun a h => by obtain ⟨r, rfl⟩ := hs a h; rfl
  have shows : (named n statics = [] ∧ named n act = [] ∧ ∀ v, (n, v) ∉ l) ∨
      (n, some (delimJoin b%" " (ts.map escaped))) ∈ l := by
    cases h3 : named n statics with
    | cons a as' =>
      obtain ⟨r, rfl⟩ := hs a (by rw [h3]; simp)
      right
      rw [tagSpec_name hl, nameShows_delim (d := b%" ") (r := r) (by rw [h3]; rfl) hall, ht]
    | nil =>
      cases h4 : named n act with
      | nil =>
        refine .inl ⟨rfl, rfl, fun v hv => ?_⟩
        rw [tagSpec_name hl, h3, h4] at hv
        simp [nameShows] at hv
      | cons a as' =>
        obtain ⟨r, rfl⟩ := ha a (by rw [h4]; simp)
        right
        rw [tagSpec_name hl, ← ht, h3, h4]
        simp [nameShows, valuesOf]
  rcases shows with ⟨h3, h4, h5⟩ | h5
  · have : ts = [] := by
      rw [h3, h4] at ht
      simpa [valuesOf] using ht.symm
    subst this
    rw [lookup_map_none (f := fun v => seen (v.getD []))]
    · rfl
    · intro v hv
      exact h5 (v.map escaped) (by rw [h1]; exact List.mem_map.2 ⟨_, hv, rfl⟩)
  · rw [h1] at h5
    obtain ⟨⟨m, v⟩, hm, he⟩ := List.mem_map.1 h5
    simp only [Prod.mk.injEq] at he
    obtain ⟨rfl, he⟩ := he
    rw [lookup_map_fst (f := fun v => seen (v.getD [])) hnd' hm]
    cases v with
    | none => simp at he
    | some v =>
      simp only [Option.map_some, Option.some.injEq] at he
      rw [join_escaped (by decide)] at he
      have hv : seen v = delimJoin b%" " (ts.map seen) := by
        have := congrArg decode he
        rw [← escaped_eq, ← escaped_eq, decode_escape, decode_escape] at this
        exact this.trans (seen_join ts)
      simp only [Option.getD_some, Option.map_some]
      rw [hv, words_join, List.flatMap_map]

/-! ### Calls of html.Class -/

/-- The conditions around a call. -/
def ClassCall.conds : ClassCall → List Cond
  | .given _ => []
  | .when [] _ => [.has []]
  | .when (x :: key) _ => [if x = c%'!' then .hasNot key else .has (x :: key)]
  | .conditional f _ => [.user f]

/-- The attribute that a call makes. -/
def classAttr (r : Nat) : Attr := .delim b%"class" b%" " r

theorem conds_isGiven (k : ClassCall) : k.conds.isEmpty = k.isGiven := by
  cases k with
  | when key _ => cases key <;> rfl
  | _ => rfl

theorem conds_inForce (P : Fns) (c : Ctx) (k : ClassCall) : k.conds.all (holds P c) = k.inForce P c := by
  cases k with
  | when key _ =>
    cases key with
    | nil => simp [ClassCall.conds, ClassCall.inForce]
    | cons x key => simp only [ClassCall.conds, ClassCall.inForce]; split <;> simp
  | given => rfl
  | conditional => simp [ClassCall.conds, ClassCall.inForce, holds]

theorem class_node {k : ClassCall} {h : Heap} {n : Node} (hk : k.node h = some n) :
    declared [] n = [(classAttr h.next, k.conds)] ∧ condDepth n ≤ 1 ∧ Built n := by
  have hb : Built (.attr (classAttr h.next)) := .newDelimitedAttribute b%"class" b%" " [] h
  have hc : ∀ xs, (classFn.call xs h).1 = .attr (classAttr h.next) := fun _ => rfl
  have hm : ∀ m, m ∈ [some (Node.attr (classAttr h.next))].filterMap id → Built m := by simpa using hb
  cases k with
  | given ns =>
    simp only [ClassCall.node, hc, Option.some.injEq] at hk
    subst hk
    exact ⟨rfl, by simp [condDepth], hb⟩
  | when key ns =>
    simp only [ClassCall.node, hc] at hk
    split at hk
    · rename_i m hw
      simp only [Option.some.injEq] at hk
      subst hk
      have hb' : Built m := .when key _ _ (by simpa using hb) hw
      refine ⟨?_, ?_, hb'⟩ <;>
      · cases key with
        | nil =>
          simp only [When, mkConditional, condSplit] at hw
          cases hw
          simp [declared, declaredAll, ClassCall.conds, condDepth, condDepthAll]
        | cons x key =>
          simp only [When] at hw
          split at hw <;> rename_i hx <;>
          · simp only [mkConditional, condSplit] at hw
            cases hw
            simp [declared, declaredAll, ClassCall.conds, condDepth, condDepthAll, hx]
    · cases hk
  | conditional f ns =>
    simp only [ClassCall.node, hc] at hk
    split at hk
    · rename_i m hw
      simp only [Option.some.injEq] at hk
      subst hk
      have hb' : Built m := .conditional (some f) _ _ (by simpa using hb) hw
      refine ⟨?_, ?_, hb'⟩ <;>
      · simp only [Conditional, mkConditional, condSplit] at hw
        cases hw
        simp [declared, declaredAll, ClassCall.conds, condDepth, condDepthAll]
    · cases hk

theorem class_values (P : Fns) (c : Ctx) (dl : Nat → List Value) (l : List Bytes) :
    (newValues dl (l.map .str)).map (valueBytes P c) = l.map escaped := by
  induction l with
  | nil => rfl
  | cons s l ih =>
    rw [List.map_cons, newValues_cons, List.map_append, ih]
    simp [newValue, valueBytes, valueToBytes, escaped_eq]

/-- What calls make: attributes at fresh addresses, with their conditions. -/
theorem classCalls_shape (P : Fns) (c : Ctx) {ks : List ClassCall} {h h' : Heap} {ns : List Node} (hk : ClassCalls ks h ns h') :
    (∀ r, r < h.next → h'.dl r = h.dl r) ∧ (∀ n ∈ ns, Built n) ∧ condDepthAll ns ≤ 1 ∧
    ∃ ps : List (ClassCall × Nat), ps.map (·.1) = ks ∧ ps.map (·.2) = List.range' h.next ks.length ∧
      declaredAll [] ns = ps.map (fun p => (classAttr p.2, p.1.conds)) ∧
      ∀ p ∈ ps, (h'.dl p.2).map (valueBytes P c) = p.1.names.map escaped := by
  induction hk with
  | nil => exact ⟨fun _ _ => rfl, nofun, by simp [condDepthAll], [], rfl, rfl, rfl, nofun⟩
  | @cons k ks h n ns h' hn _ ih =>
    obtain ⟨i1, i2, i3, ps, i4, i5, i6, i7⟩ := ih
    obtain ⟨n1, n2, n3⟩ := class_node hn
    have e2 : (classFn.call (k.names.map .str) h).2.next = h.next + 1 := rfl
    have e3 : (classFn.call (k.names.map .str) h).2.dl = upd h.dl h.next (newValues h.dl (k.names.map .str)) := rfl
    rw [e2] at i1 i5
    rw [e3] at i1
    refine ⟨fun r hr => ?_, fun m hm => ?_, by simp only [condDepthAll]; omega, (k, h.next) :: ps, by simp [i4], ?_, ?_, ?_⟩
    · rw [i1 r (by omega)]
      simp [upd]; omega
    · rcases List.mem_cons.1 hm with rfl | hm
      · exact n3
      · exact i2 m hm
    · simp [i5, List.range'_succ]
    · simp [declaredAll, n1, i6]
    · intro p hp
      rcases List.mem_cons.1 hp with rfl | hp
      · rw [i1 _ (by simp), ← class_values P c h.dl]
        simp [upd]
      · exact i7 p hp

theorem separateAll_append' (k : Nat) {ns ms : List Node} (h1 : SeparateAll k ns) (h2 : SeparateAll k ms) :
    SeparateAll k (ns ++ ms) := by
  induction ns with
  | nil => exact h2
  | cons n ns ih => exact ⟨h1.1, ih h1.2⟩

theorem ordinary_class {P : Fns} {c : Ctx} {dl : Nat → List Value} {r : Nat} {ts : List Bytes}
    (h : (dl r).map (valueBytes P c) = ts.map escaped) : Ordinary P c dl (classAttr r) := by
  refine ⟨⟨c%'c', b%"lass", rfl, by decide, by decide⟩,
    show Markup.lower b%"class" = b%"class" by decide, fun v hv => ?_, fun n d r' e => ?_⟩
  · have : valueBytes P c v ∈ ts.map escaped := by rw [← h]; exact List.mem_map_of_mem hv
    obtain ⟨t, -, ht⟩ := List.mem_map.1 this
    exact ⟨t, ht.symm⟩
  · simp only [classAttr, Attr.delim.injEq] at e
    rw [← e.2.1]; decide

theorem class_parts {P : Fns} {c : Ctx} {dl : Nat → List Value} (ps : List (ClassCall × Nat))
    (h : ∀ p ∈ ps, (dl p.2).map (valueBytes P c) = p.1.names.map escaped) :
    (valuesOf dl (named b%"class" (ps.map fun p => classAttr p.2))).map (valueBytes P c) =
      (ps.flatMap fun p => p.1.names).map escaped := by
  have : named b%"class" (ps.map fun p => classAttr p.2) = ps.map fun p => classAttr p.2 := by
    unfold named
    refine List.filter_eq_self.2 fun a ha => ?_
    obtain ⟨p, -, rfl⟩ := List.mem_map.1 ha
    simp [classAttr, Attr.name]
  rw [this]
  clear this
  induction ps with
  | nil => rfl
  | cons p ps ih =>
    have := ih fun p hp => h p (by simp [hp])
    simp only [valuesOf, List.map_cons, List.flatMap_cons, List.map_append] at this ⊢
    rw [this, ← h p (by simp)]
    rfl

/-- A word alone. -/
theorem words_one {s : Bytes} (h1 : s ≠ []) (h2 : ∀ x ∈ s, isBlank x = false) : words s = [s] := by
  have : ∀ (s cur : Bytes), (∀ x ∈ s, isBlank x = false) → wordsFrom cur s = oneWord (cur ++ s) := by
    intro s
    induction s with
    | nil => intro cur _; simp [wordsFrom]
    | cons x s ih =>
      intro cur h
      rw [wordsFrom, if_neg (by simp [h x (by simp)]), ih _ fun y hy => h y (by simp [hy])]
      simp
  rw [words, this s [] h2]
  simp [oneWord, h1]

end Aitch.Spec
