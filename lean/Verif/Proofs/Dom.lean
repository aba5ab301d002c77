import Verif.Spec.Dom
import Verif.Proofs.Lines
/-
The tree construction on what is read from trees.
-/
namespace Aitch.Spec.Markup

/-! ### Children -/

/-- A new child among children, the last one first. -/
def add (kids : List Dom) : Dom → List Dom
  | .text [] => kids
  | .text s => putText s kids
  | d => d :: kids

theorem add_text (kids : List Dom) (s : Bytes) (h : s ≠ []) : add kids (.text s) = putText s kids := by
  cases s with
  | nil => exact absurd rfl h
  | cons c s => rfl

theorem addAll_joined : (ds : List Dom) →
    (∀ kids, (∀ t k, kids ≠ .text t :: k) → (ds.foldl add kids).reverse = kids.reverse ++ joined ds) ∧
    ∀ t k, t ≠ [] → (ds.foldl add (.text t :: k)).reverse = k.reverse ++ joined (.text t :: ds)
  | [] => ⟨fun kids _ => by simp [joined], fun t k ht => by simp [joined, ht]⟩
  | d :: ds => by
    have ih := addAll_joined ds
    by_cases hd : ∃ s, d = .text s
    · obtain ⟨s, rfl⟩ := hd
      by_cases hs : s = []
      · subst hs
        refine ⟨fun kids hk => ?_, fun t k ht => ?_⟩
        · rw [List.foldl_cons, show add kids (.text []) = kids from rfl, ih.1 kids hk]
          congr 1
          rw [joined]
          split
          · next h => rw [h]; simp
          · simp
        · rw [List.foldl_cons, show add (.text t :: k) (.text []) = .text t :: k from rfl, ih.2 t k ht]
          congr 1
          rw [joined, joined, joined]
          cases h : joined ds with
          | nil => simp
          | cons d' more => cases d' <;> simp
      · refine ⟨fun kids hk => ?_, fun t k ht => ?_⟩
        · rw [List.foldl_cons, add_text _ _ hs]
          have : putText s kids = .text s :: kids := by
            cases kids with
            | nil => rfl
            | cons d k => cases d <;> first | rfl | exact absurd rfl (hk _ _)
          rw [this, ih.2 s kids hs]
        · rw [List.foldl_cons, add_text _ _ hs, putText, ih.2 (t ++ s) k (by simp [ht])]
          congr 1
          rw [joined, joined, joined]
          cases h : joined ds with
          | nil => simp [hs, ht]
          | cons d' more => cases d' <;> simp [hs, ht]
    · have e : ∀ kids, add kids d = d :: kids := by
        intro kids
        cases d <;> first | rfl | exact absurd ⟨_, rfl⟩ hd
      have j : joined (d :: ds) = d :: joined ds := by
        cases d <;> first | rfl | exact absurd ⟨_, rfl⟩ hd
      have n : ∀ kids t k, d :: kids ≠ Dom.text t :: k := by
        intro kids t k h
        rw [List.cons.injEq] at h
        exact hd ⟨t, h.1⟩
      refine ⟨fun kids hk => ?_, fun t k ht => ?_⟩
      · rw [List.foldl_cons, e, ih.1 _ (n _), j]
        simp
      · rw [List.foldl_cons, e, ih.1 _ (n _), joined, j]
        simp only [List.reverse_cons, List.append_assoc, List.cons_append, List.nil_append]
        cases d <;> first | exact absurd ⟨_, rfl⟩ hd | simp [ht]

theorem addAll_children (ts : List Tree) : ((nodes ts).foldl add []).reverse = children ts := by
  rw [(addAll_joined (nodes ts)).1 [] nofun]
  rfl

/-! ### Kinds -/

/-- What the kind of an element says about its name. -/
def KindIs (n : Bytes) : Kind → Prop
  | .outside => n ∈ outsideNames
  | .headVoid => n ∈ headVoidNames
  | .headText => n ∈ headTextNames
  | .block => n ∈ blockNames
  | .heading => n ∈ headingNames
  | .form => n = b%"form"
  | .li => n = b%"li"
  | .dd => n ∈ [b%"dd", b%"dt"]
  | .button => n = b%"button"
  | .a => n = b%"a"
  | .nobr => n = b%"nobr"
  | .formatting => n ∈ formattingNames
  | .void => n ∈ bodyVoidNames
  | .hr => n = b%"hr"
  | .text => n ∈ bodyTextNames
  | .xmp => n = b%"xmp"
  | .ruby => n ∈ [b%"rb", b%"rtc"]
  | .rubyText => n ∈ [b%"rp", b%"rt"]
  | .table => n = b%"table"
  | .ignored => n ∈ ignoredNames
  | .ordinary => n ∉ outsideNames ∧ n ∉ headVoidNames ∧ n ∉ headTextNames ∧ n ∉ blockNames ∧ n ∉ headingNames ∧
    n ∉ formattingNames ∧ n ∉ bodyVoidNames ∧ n ∉ bodyTextNames ∧ n ∉ ignoredNames ∧ n ≠ b%"table"

theorem kindIs_ite {n : Bytes} {c : Prop} [Decidable c] {k k' : Kind} (h : c → KindIs n k) (h' : ¬ c → KindIs n k') :
    KindIs n (if c then k else k') := by
  by_cases hc : c
  · rw [if_pos hc]; exact h hc
  · rw [if_neg hc]; exact h' hc

theorem kind_is (n : Bytes) : KindIs n (kind n) := by
  unfold kind
  refine kindIs_ite id fun k1 => kindIs_ite id fun k2 => kindIs_ite id fun k3 => kindIs_ite id fun k4 =>
    kindIs_ite id fun k5 => kindIs_ite id fun _ => kindIs_ite id fun _ => kindIs_ite (fun h => by simpa [KindIs] using h)
    fun _ => kindIs_ite id fun _ => kindIs_ite id fun _ => kindIs_ite id fun _ => kindIs_ite id fun k6 =>
    kindIs_ite id fun k7 => kindIs_ite id fun _ => kindIs_ite id fun k8 => kindIs_ite id fun _ =>
    kindIs_ite (fun h => by simpa [KindIs] using h) fun _ => kindIs_ite (fun h => by simpa [KindIs] using h) fun _ =>
    kindIs_ite id fun k10 => kindIs_ite id fun k9 => ⟨k1, k2, k3, k4, k5, k6, k7, k8, k9, k10⟩

/-- The parts of a table. -/
def partNames : List Bytes :=
  [b%"td", b%"th", b%"caption", b%"tr", b%"tbody", b%"tfoot", b%"thead", b%"table", b%"colgroup"]

theorem region_skip {n : Bytes} {path : List Bytes} (h : n ∉ partNames) : region (n :: path) = region path := by
  rw [region]
  simp only [partNames, List.mem_cons, List.not_mem_nil, or_false, not_or] at h
  simp [h, sectionNames]

/-- The kinds of elements that are closed as in the body. -/
def Kind.Closes : Kind → Prop
  | .block | .heading | .form | .li | .dd | .button | .a | .nobr | .formatting | .ruby | .rubyText | .ordinary => True
  | _ => False

theorem closes_names {n : Bytes} (h : (kind n).Closes) :
    n ∉ partNames ∧ n ∉ tableNames ∧ n ≠ b%"body" ∧ n ≠ b%"html" ∧ n ≠ b%"br" := by
  have k := kind_is n
  revert h k
  cases kind n <;> intro h k <;> simp only [Kind.Closes] at h
  case ordinary =>
    obtain ⟨k1, k2, k3, k4, k5, k6, k7, k8, k9, k10⟩ := k
    refine ⟨?_, ?_, ?_, ?_, ?_⟩
    · intro h
      simp only [partNames, List.mem_cons, List.not_mem_nil, or_false] at h
      rcases h with rfl | rfl | rfl | rfl | rfl | rfl | rfl | rfl | rfl <;> first | exact k9 (by decide) | exact k10 rfl
    · exact fun h => k9 (by
        simp only [tableNames, List.mem_cons, List.not_mem_nil, or_false] at h
        rcases h with rfl | rfl | rfl | rfl | rfl | rfl | rfl | rfl | rfl <;> decide)
    · rintro rfl; exact k1 (by decide)
    · rintro rfl; exact k1 (by decide)
    · rintro rfl; exact k7 (by decide)
  all_goals
    simp only [KindIs] at k
    first
    | (subst k; decide)
    | (revert n; decide)

/-! ### Closing the current node -/

theorem implied_stays {except : List Bytes} {o : Open} {st : List Open} {k : Nat}
    (h : o.name ∉ impliedNames ∨ o.name ∈ except) : implied except k (o :: st) = o :: st := by
  cases k with
  | zero => rfl
  | succ k =>
    rw [implied, if_neg]
    intro ⟨h1, h2⟩
    rcases h with h | h
    · exact h h1
    · exact h2 h

theorem popUntil_first {names : List Bytes} {o : Open} {st : List Open} {k : Nat} (h : o.name ∈ names) :
    popUntil names (k + 1) (o :: st) = some (popped (o :: st)) := by
  rw [popUntil, if_pos h]

theorem closes {b : Builder} {o : Open} {st : List Open} (hs : b.stack = o :: st) (except names : List Bytes)
    (h : o.name ∉ impliedNames ∨ o.name ∈ except) (hn : o.name ∈ names) :
    (b.implied except).popUntil names = some b.pop := by
  obtain ⟨m, s, x, y⟩ := b
  simp only at hs
  subst hs
  simp only [Builder.implied, Builder.popUntil, implied_stays h]
  rw [show (o :: st).length = st.length + 1 from rfl, popUntil_first hn]
  rfl

theorem path_cons {b : Builder} {o : Open} {st : List Open} (hs : b.stack = o :: st) :
    b.path = o.name :: st.map (·.name) := by
  rw [Builder.path, hs]
  rfl

theorem inScope_first {n : Bytes} {names stop path : List Bytes} (h : n ∈ names) :
    inScope names stop (n :: path) = true := by
  rw [inScope, if_pos h]

theorem bodyEnd_pop {b : Builder} {o : Open} {st : List Open} (hs : b.stack = o :: st) (h : (kind o.name).Closes) :
    b.bodyEnd o.name = some b.pop := by
  have hp := path_cons hs
  have hnames := closes_names h
  have k := kind_is o.name
  rw [Builder.bodyEnd, if_neg hnames.2.2.1, if_neg hnames.2.2.2.1]
  by_cases p : o.name = b%"p"
  · rw [if_pos p, if_pos (by rw [hp, pOpen]; exact inScope_first (by simp [p]))]
    exact closes hs _ _ (.inr (by simp [p])) (by simp [p])
  rw [if_neg p, if_neg hnames.2.2.2.2]
  have hother : (∀ stop : List Bytes, inScope [o.name] stop b.path = true) := fun stop => by
    rw [hp]; exact inScope_first (by simp)
  have hord : b.endOther o.name = some b.pop := by
    rw [Builder.endOther, if_pos (by rw [hp, findOrdinary, if_pos rfl])]
    exact closes hs _ _ (.inr (by simp)) (by simp)
  have hform : o.name ∈ formattingNames → b.endFormatting o.name = some b.pop := by
    intro hf
    have hm : o.name ∉ [b%"td", b%"th", b%"caption"] := by
      intro h'
      exact hnames.1 (by
        simp only [List.mem_cons, List.not_mem_nil, or_false] at h'
        rcases h' with e | e | e <;> rw [e] <;> decide)
    rw [Builder.endFormatting, if_neg (by
      rw [hp, sinceMarker, List.takeWhile_cons_of_pos (by simpa using hm)]
      simp), if_pos (hother _), if_neg (by simp [hp])]
    obtain ⟨m, s, x, y⟩ := b
    simp only at hs
    subst hs
    simp only [Builder.popUntil]
    rw [show (o :: st).length = st.length + 1 from rfl, popUntil_first (by simp)]
    rfl
  revert h k
  cases hk : kind o.name <;> intro h k <;> simp only [Kind.Closes] at h <;> simp only [KindIs] at k <;> simp only
  case block =>
    have : o.name ∉ impliedNames := by
      have : ∀ n ∈ blockNames, n = b%"p" ∨ n ∉ impliedNames := by decide
      exact (this _ k).resolve_left p
    rw [if_pos (hother _)]
    exact closes hs _ _ (.inl this) (by simp)
  case heading =>
    have : o.name ∉ impliedNames := by
      have : ∀ n ∈ headingNames, n ∉ impliedNames := by decide
      exact this _ k
    rw [if_pos (by rw [hp]; exact inScope_first k)]
    exact closes hs _ _ (.inl this) k
  case form =>
    rw [if_pos (hother _)]
    have e : (b.implied []).stack = o :: st := by
      simp only [Builder.implied, hs]
      exact implied_stays (.inl (by rw [k]; decide))
    have e' : b.implied [] = b := by
      obtain ⟨m, s, x, y⟩ := b
      simp only at hs
      subst hs
      simp only [Builder.implied, Builder.mk.injEq, and_true, true_and]
      exact implied_stays (.inl (by rw [k]; decide))
    rw [e', hs]
    simp
  case li => rw [if_pos (hother _)]; exact closes hs _ _ (.inr (by simp)) (by simp)
  case dd => rw [if_pos (hother _)]; exact closes hs _ _ (.inr (by simp)) (by simp)
  case button => rw [if_pos (hother _)]; exact closes hs _ _ (.inl (by rw [k]; decide)) (by simp)
  case a => exact hform (by rw [k]; decide)
  case nobr => exact hform (by rw [k]; decide)
  case formatting => exact hform k
  all_goals exact hord

/-! ### Start tags -/

/-- The kinds of elements with text in them. -/
def Kind.Texts : Kind → Prop
  | .headText | .text | .xmp => True
  | _ => False

theorem endP_stays {b : Builder} (h : pOpen b.path = false) : b.endP = some b := by
  rw [Builder.endP, h]
  rfl

theorem item_stays {b : Builder} {names : List Bytes} {n : Bytes} {attrs : List (Bytes × Bytes)}
    (h : pOpen b.path = false) (hi : itemOpen names b.path = none) : b.item names n attrs = some (b.push n attrs) := by
  rw [Builder.item, hi]
  simp only [Option.bind_some, endP_stays h, Option.map_some]

theorem implied_head {b : Builder} {except : List Bytes}
    (h : ∀ o st, b.stack = o :: st → o.name ∉ impliedNames ∨ o.name ∈ except) : b.implied except = b := by
  obtain ⟨m, s, x, y⟩ := b
  simp only [Builder.implied, Builder.mk.injEq, and_true, true_and]
  cases s with
  | nil => rfl
  | cons o st => exact implied_stays (h o st rfl)

theorem bodyStart_opens {b : Builder} {o : Open} {st : List Open} (hs : b.stack = o :: st) {n : Bytes}
    {attrs : List (Bytes × Bytes)} (h : mayStart b.path n = true) :
    (¬ (kind n).Texts → ((kind n).Closes ∨ kind n = .table) ∧ b.bodyStart n attrs = some (b.push n attrs)) ∧
    ((kind n).Texts → b.bodyStart n attrs = some (b.insertRaw n attrs)) := by
  have hp := path_cons hs
  rw [mayStart] at h
  rw [Builder.bodyStart]
  revert h
  cases hk : kind n <;> intro h <;> simp only [Bool.and_eq_true, Bool.not_eq_true', reduceCtorEq] at h <;>
    refine ⟨fun ht => ?_, fun ht => ?_⟩ <;>
    first
    | exact absurd trivial ht
    | exact ht.elim
    | skip
  case headText.refine_2 => rfl
  case text.refine_2 => rfl
  case xmp.refine_2 => simp only [endP_stays h, Option.map_some]
  case block.refine_1 => exact ⟨.inl trivial, by simp only [endP_stays h, Option.map_some]⟩
  case table.refine_1 => exact ⟨.inr rfl, by simp only [endP_stays h, Option.map_some]⟩
  case heading.refine_1 =>
    refine ⟨.inl trivial, ?_⟩
    simp only [endP_stays h.1, Option.map_some, hs]
    rw [if_neg]
    have := h.2
    rw [hp] at this
    simpa using this
  case form.refine_1 =>
    refine ⟨.inl trivial, ?_⟩
    rw [if_neg (by simpa using h.2)]
    simp only [endP_stays h.1, Option.map_some]
  case li.refine_1 => exact ⟨.inl trivial, item_stays h.1 (by simpa using h.2)⟩
  case dd.refine_1 => exact ⟨.inl trivial, item_stays h.1 (by simpa using h.2)⟩
  case button.refine_1 =>
    refine ⟨.inl trivial, ?_⟩
    rw [h]
    rfl
  case a.refine_1 =>
    refine ⟨.inl trivial, ?_⟩
    simp only
    rw [if_neg (by simpa using h)]
  case nobr.refine_1 =>
    refine ⟨.inl trivial, ?_⟩
    simp only
    rw [h]
    rfl
  case formatting.refine_1 =>
    refine ⟨.inl trivial, ?_⟩
    simp only
    rw [if_pos (by simpa using h)]
  case ruby.refine_1 =>
    refine ⟨.inl trivial, ?_⟩
    simp only
    split
    · next hr =>
      rw [implied_head]
      intro o' st' h'
      rw [hs] at h'
      cases h'
      rw [hr, hp] at h
      exact .inl (by simpa using h)
    · rfl
  case rubyText.refine_1 =>
    refine ⟨.inl trivial, ?_⟩
    simp only
    split
    · next hr =>
      rw [implied_head]
      intro o' st' h'
      rw [hs] at h'
      cases h'
      rw [hr, hp] at h
      by_cases e : o.name = b%"rtc"
      · exact .inr (by simp [e])
      · exact .inl (by simpa [e] using h)
    · rfl
  case ordinary.refine_1 => exact ⟨.inl trivial, rfl⟩

/-- Where the rules of the body hold. -/
def Region.Flow : Region → Prop
  | .body | .cell | .caption => True
  | _ => False

theorem mayStart_names {path : List Bytes} {n : Bytes} (h : mayStart path n = true) : n ∉ tableNames := by
  have k := kind_is n
  rw [mayStart] at h
  intro hn
  have : ∀ m ∈ tableNames, kind m = .ignored := by decide +kernel
  rw [this n hn] at h
  cases h

/-- May an element be a child in `path`? -/
def Allowed (path : List Bytes) (n : Bytes) : Prop :=
  match region path with
  | .body | .cell | .caption => mayStart path n = true
  | .table => n ∈ b%"caption" :: b%"colgroup" :: sectionNames
  | .rows => n = b%"tr"
  | .row => n = b%"td" ∨ n = b%"th"
  | .columns => False

theorem content_opens {b : Builder} {o : Open} {st : List Open} (hs : b.stack = o :: st) {n : Bytes}
    {attrs : List (Bytes × Bytes)} (h : Allowed b.path n) (ht : ¬ (kind n).Texts) :
    b.content (.start n attrs false) = some (b.push n attrs) := by
  rw [Allowed] at h
  rw [Builder.content]
  cases hr : region b.path <;> simp only [hr] at h ⊢
  case body => exact ((bodyStart_opens hs h).1 ht).2
  case cell =>
    rw [Builder.cell, if_neg (mayStart_names h)]
    exact ((bodyStart_opens hs h).1 ht).2
  case caption =>
    rw [Builder.cell, if_neg (mayStart_names h)]
    exact ((bodyStart_opens hs h).1 ht).2
  case row => rw [Builder.row, if_pos h]
  case rows => rw [Builder.rows, if_pos h]
  case table => rw [Builder.table, if_pos h]

theorem content_raw {b : Builder} {o : Open} {st : List Open} (hs : b.stack = o :: st) {n : Bytes}
    {attrs : List (Bytes × Bytes)} (h : Allowed b.path n) (ht : (kind n).Texts) :
    (region b.path).Flow ∧ b.content (.start n attrs false) = some (b.insertRaw n attrs) := by
  rw [Allowed] at h
  rw [Builder.content]
  cases hr : region b.path <;> simp only [hr] at h ⊢
  case body => exact ⟨trivial, (bodyStart_opens hs h).2 ht⟩
  case cell =>
    rw [Builder.cell, if_neg (mayStart_names h)]
    exact ⟨trivial, (bodyStart_opens hs h).2 ht⟩
  case caption =>
    rw [Builder.cell, if_neg (mayStart_names h)]
    exact ⟨trivial, (bodyStart_opens hs h).2 ht⟩
  all_goals
    have : ∀ m ∈ b%"caption" :: b%"colgroup" :: b%"tr" :: b%"td" :: b%"th" :: sectionNames, kind m = .ignored := by
      decide +kernel
  case row =>
    rw [this n (by rcases h with rfl | rfl <;> decide)] at ht
    exact ht.elim
  case rows =>
    rw [this n (by subst h; decide)] at ht
    exact ht.elim
  case table =>
    rw [this n (by
      simp only [List.mem_cons] at h ⊢
      rcases h with h | h | h
      · exact .inl h
      · exact .inr (.inl h)
      · exact .inr (.inr (.inr (.inr (.inr h)))))] at ht
    exact ht.elim

theorem flow_closes {b : Builder} {o : Open} {st : List Open} (hs : b.stack = o :: st)
    (hf : (region (st.map (·.name))).Flow) (h : (kind o.name).Closes) : b.content (.close o.name) = some b.pop := by
  have hn := closes_names h
  have hb := bodyEnd_pop hs h
  rw [Builder.content, path_cons hs, region_skip hn.1]
  have h1 : ¬ (o.name = b%"td" ∨ o.name = b%"th" ∨ o.name = b%"caption") := by
    intro h'
    exact hn.1 (by rcases h' with e | e | e <;> rw [e] <;> decide)
  have h2 : o.name ∉ b%"table" :: b%"body" :: b%"html" :: tableNames := by
    simp only [List.mem_cons, not_or]
    exact ⟨fun e => hn.1 (by rw [e]; decide), hn.2.2.1, hn.2.2.2.1, hn.2.1⟩
  have hc : b.cell (.close o.name) = some b.pop := by
    rw [Builder.cell, if_neg h1, if_neg h2]
    exact hb
  cases hr : region (st.map (·.name)) <;> rw [hr] at hf <;> first | exact hf.elim | exact hb | exact hc

theorem cell_closes {b : Builder} {o : Open} {st : List Open} (hs : b.stack = o :: st)
    (h : o.name = b%"td" ∨ o.name = b%"th" ∨ o.name = b%"caption") : b.content (.close o.name) = some b.pop := by
  have hc : b.cell (.close o.name) = some b.pop := by
    rw [Builder.cell, if_pos h, if_pos (by rw [path_cons hs]; exact inScope_first (by simp))]
    exact closes hs _ _ (.inl (by rcases h with e | e | e <;> rw [e] <;> decide)) (by simp)
  rw [Builder.content, path_cons hs, region]
  by_cases h1 : o.name = b%"td" ∨ o.name = b%"th"
  · rw [if_pos h1]; exact hc
  · rw [if_neg h1]
    by_cases h2 : o.name = b%"caption"
    · rw [if_pos h2]; exact hc
    · exact absurd h (by simp only [not_or] at h1 ⊢; exact ⟨h1.1, h1.2, h2⟩)

theorem content_closes {b : Builder} {o : Open} {st : List Open} (hs : b.stack = o :: st) (hne : st ≠ [])
    (h : Allowed (st.map (·.name)) o.name) (ht : ¬ (kind o.name).Texts) : b.content (.close o.name) = some b.pop := by
  rw [Allowed] at h
  have flow : mayStart (st.map (·.name)) o.name = true → (region (st.map (·.name))).Flow →
      b.content (.close o.name) = some b.pop := by
    intro h hf
    obtain ⟨o', st', e⟩ := List.exists_cons_of_ne_nil hne
    have := (bodyStart_opens (b := { b with stack := st }) (attrs := []) e h).1 ht
    rcases this.1 with h1 | h1
    · exact flow_closes hs hf h1
    · have e := kind_is o.name
      rw [h1] at e
      have e' : o.name = b%"table" := e
      rw [Builder.content, path_cons hs, show region (o.name :: st.map (·.name)) = .table by rw [e', region]; rfl]
      simp only
      rw [Builder.table, if_pos e']
  cases hr : region (st.map (·.name)) <;> simp only [hr] at h
  case body => exact flow h (by rw [hr]; trivial)
  case cell => exact flow h (by rw [hr]; trivial)
  case caption => exact flow h (by rw [hr]; trivial)
  case row => exact cell_closes hs (by rcases h with e | e <;> simp [e])
  case rows =>
    rw [Builder.content, path_cons hs, show region (o.name :: st.map (·.name)) = .row by rw [h, region]; rfl]
    simp only
    rw [Builder.row, if_pos h]
  case table =>
    by_cases h1 : o.name = b%"caption"
    · exact cell_closes hs (by simp [h1])
    · by_cases h2 : o.name = b%"colgroup"
      · rw [Builder.content, path_cons hs, show region (o.name :: st.map (·.name)) = .columns by rw [h2, region]; rfl]
        simp only
        rw [Builder.columns, if_pos h2]
      · have h3 : o.name ∈ sectionNames := by simpa [h1, h2] using h
        have : region (o.name :: st.map (·.name)) = .rows := by
          have : ∀ n ∈ sectionNames, n ≠ b%"td" ∧ n ≠ b%"th" ∧ n ≠ b%"caption" ∧ n ≠ b%"tr" := by decide
          obtain ⟨k1, k2, k3, k4⟩ := this _ h3
          rw [region, if_neg (by simp [k1, k2]), if_neg k3, if_neg k4, if_pos h3]
        rw [Builder.content, path_cons hs, this]
        simp only
        rw [Builder.rows, if_pos ⟨h3, by rw [path_cons hs]; rfl⟩]

/-! ### Elements without content, texts and comments -/

theorem content_stands {b : Builder} {n : Bytes} {attrs : List (Bytes × Bytes)}
    (h : (match region b.path with
      | .body | .cell | .caption => mayStand b.path n
      | .columns => decide (n = b%"col")
      | _ => false) = true) : b.content (.start n attrs false) = some (b.insertVoid n attrs) := by
  have stands : mayStand b.path n = true → n ∉ tableNames ∧ b.bodyStart n attrs = some (b.insertVoid n attrs) := by
    intro h
    rw [mayStand] at h
    refine ⟨fun hn => ?_, ?_⟩
    · have : ∀ m ∈ tableNames, kind m = .ignored := by decide +kernel
      rw [this n hn] at h
      cases h
    · rw [Builder.bodyStart]
      cases hk : kind n <;> rw [hk] at h <;> simp only [Bool.not_eq_true', reduceCtorEq] at h ⊢
      rw [endP_stays h]
      rfl
  rw [Builder.content]
  cases hr : region b.path <;> simp only [hr, reduceCtorEq, decide_eq_true_eq] at h ⊢
  case body => exact (stands h).2
  case cell => rw [Builder.cell, if_neg (stands h).1]; exact (stands h).2
  case caption => rw [Builder.cell, if_neg (stands h).1]; exact (stands h).2
  case columns => rw [Builder.columns, if_pos h]

theorem path_insertText (b : Builder) (s : Bytes) : (b.insertText s).path = b.path := by
  obtain ⟨m, st, x, y⟩ := b
  cases s <;> cases st <;> rfl

theorem mode_insertText (b : Builder) (s : Bytes) : (b.insertText s).mode = b.mode := by
  obtain ⟨m, st, x, y⟩ := b
  cases s <;> cases st <;> rfl

theorem putText_append (s t : Bytes) (kids : List Dom) : putText t (putText s kids) = putText (s ++ t) kids := by
  cases kids with
  | nil => simp [putText]
  | cons d k => cases d <;> simp [putText]

theorem insertText_append (b : Builder) (s t : Bytes) : (b.insertText s).insertText t = b.insertText (s ++ t) := by
  obtain ⟨m, st, x, y⟩ := b
  cases s with
  | nil => rfl
  | cons c s =>
    cases t with
    | nil => simp [Builder.insertText]
    | cons d t =>
      cases st with
      | nil => rfl
      | cons o st => simp [Builder.insertText, putText_append]

/-- Text is inserted, whatever follows it. -/
theorem feed_addText {b : Builder} {s : Bytes}
    (h : ∀ t, b.step (.text (s ++ t)) = (b.insertText s).step (.text t))
    (h' : (b.insertText s).step (.text []) = some (b.insertText s)) (is : List Item) :
    b.feed (addText s is) = (b.insertText s).feed is := by
  have one : ∀ is, b.feed (.text s :: is) = (b.insertText s).feed is := by
    intro is
    rw [Builder.feed]
    have := h []
    rw [List.append_nil] at this
    rw [this, h']
    rfl
  cases s with
  | nil => rfl
  | cons c s =>
    match is with
    | [] => exact one _
    | .text t :: rest => rw [addText, Builder.feed, h, Builder.feed]; simp
    | .start _ _ _ :: rest => exact one _
    | .close _ :: rest => exact one _
    | .comment _ :: rest => exact one _
    | .doctype _ :: rest => exact one _

theorem seen_noNuls (s : Bytes) : noNuls (seen s) = seen s := by
  simp [noNuls, seen, List.filter_filter]

theorem insertText_add (m : Mode) (o : Open) (st : List Open) (x y : List Dom) (s : Bytes) :
    Builder.insertText ⟨m, o :: st, x, y⟩ s = ⟨m, { o with kids := add o.kids (.text s) } :: st, x, y⟩ := by
  cases s <;> rfl

theorem feed_flow {b : Builder} (hm : b.mode = .inBody) (hr : (region b.path).Flow) (s : Bytes) (is : List Item) :
    b.feed (addText (seen s) is) = (b.insertText (seen s)).feed is := by
  have step : ∀ {b : Builder}, b.mode = .inBody → (region b.path).Flow → ∀ t, b.step (.text t) =
      some (b.insertText (noNuls t)) := by
    intro b hm hr t
    rw [Builder.step, hm]
    simp only
    rw [Builder.content]
    cases h : region b.path <;> rw [h] at hr <;> first | exact hr.elim | rfl
  refine feed_addText (fun t => ?_) ?_ is
  · rw [step hm hr, step (by rw [mode_insertText, hm]) (by rw [path_insertText]; exact hr), insertText_append]
    congr 2
    simp only [noNuls, List.filter_append]
    congr 1
    exact seen_noNuls s
  · rw [step (by rw [mode_insertText, hm]) (by rw [path_insertText]; exact hr)]
    rfl

theorem feed_spaces {b : Builder} (hm : b.mode = .inBody) (hr : ¬ (region b.path).Flow) {s : Bytes}
    (hs : s.all isSpace = true) (is : List Item) : b.feed (addText s is) = (b.insertText s).feed is := by
  have step : ∀ {b : Builder}, b.mode = .inBody → ¬ (region b.path).Flow → ∀ t, b.step (.text t) =
      if t.all isSpace then some (b.insertText t) else none := by
    intro b hm hr t
    rw [Builder.step, hm]
    simp only
    rw [Builder.content]
    cases h : region b.path <;> rw [h] at hr <;> first | exact absurd trivial hr | rfl
  refine feed_addText (fun t => ?_) ?_ is
  · rw [step hm hr, step (by rw [mode_insertText, hm]) (by rw [path_insertText]; exact hr), insertText_append]
    simp [hs]
  · rw [step (by rw [mode_insertText, hm]) (by rw [path_insertText]; exact hr)]
    rfl

theorem feed_raw {b : Builder} {back : Mode} (hm : b.mode = .text back) (s : Bytes) (is : List Item) :
    b.feed (addText s is) = (b.insertText s).feed is := by
  have step : ∀ {b : Builder}, b.mode = .text back → ∀ t, b.step (.text t) = some (b.insertText t) := by
    intro b hm t
    rw [Builder.step, hm]
  refine feed_addText (fun t => ?_) ?_ is
  · rw [step hm, step (by rw [mode_insertText, hm]), insertText_append]
  · rw [step (by rw [mode_insertText, hm])]
    rfl

theorem feed_texts {back : Mode} {x y : List Dom} {st : List Open} : (ts : List Tree) → (∀ t ∈ ts, t.IsText) →
    ∀ (o : Open) (rest : List Tok), Builder.feed ⟨.text back, o :: st, x, y⟩ (items (meantAll ts ++ rest)) =
      Builder.feed ⟨.text back, { o with kids := (nodes ts).foldl add o.kids } :: st, x, y⟩ (items rest)
  | [], _, o, rest => rfl
  | t :: ts, h, o, rest => by
    have h0 := h t (by simp)
    cases t <;> simp only [Tree.IsText] at h0
    next s =>
    rw [meantAll, meant, List.append_assoc, items_chars, feed_raw rfl, insertText_add,
      feed_texts ts (fun t ht => h t (by simp [ht]))]
    rfl

/-! ### Trees in the body -/

theorem feed_step {b b' : Builder} {i : Item} {is : List Item} (h : b.step i = some b') :
    b.feed (i :: is) = b'.feed is := by
  rw [Builder.feed, h]
  rfl

theorem feed_content {o : Open} {st : List Open} {x y : List Dom} {b' : Builder} {i : Item} {is : List Item}
    (h : Builder.content ⟨.inBody, o :: st, x, y⟩ i = some b') :
    Builder.feed ⟨.inBody, o :: st, x, y⟩ (i :: is) = b'.feed is := feed_step h

theorem allowed_texts {path : List Bytes} {n : Bytes} (h : Allowed path n) : n ∈ textNames ↔ (kind n).Texts := by
  have h1 : ∀ n ∈ textNames, kind n = .headText ∨ kind n = .text ∨ kind n = .xmp ∨ kind n = .outside := by decide +kernel
  constructor
  · intro hn
    rcases h1 n hn with e | e | e | e
    · rw [e]; trivial
    · rw [e]; trivial
    · rw [e]; trivial
    · have h2 : ∀ m ∈ b%"caption" :: b%"colgroup" :: b%"tr" :: b%"td" :: b%"th" :: sectionNames, m ∉ textNames := by
        decide +kernel
      rw [Allowed] at h
      cases hr : region path <;> simp only [hr, mayStart, e, reduceCtorEq] at h
      case row => exact absurd hn (h2 n (by rcases h with rfl | rfl <;> decide))
      case rows => exact absurd hn (h2 n (by subst h; decide))
      case table =>
        exact absurd hn (h2 n (by
          simp only [List.mem_cons] at h ⊢
          rcases h with h | h | h
          · exact .inl h
          · exact .inr (.inl h)
          · exact .inr (.inr (.inr (.inr (.inr h))))))
  · intro hk
    have h2 : ∀ n ∈ headTextNames ++ bodyTextNames ++ [b%"xmp"], n ∈ textNames := by decide +kernel
    have k := kind_is n
    refine h2 n ?_
    cases e : kind n <;> rw [e] at hk k <;> first | exact hk.elim | skip
    · exact List.mem_append_left _ (List.mem_append_left _ k)
    · exact List.mem_append_left _ (List.mem_append_right _ k)
    · exact List.mem_append_right _ (by rw [show n = b%"xmp" from k]; simp)

theorem fits_element {path : List Bytes} {name : Bytes} {attrs : List (Bytes × Option Bytes)} {cs : List Tree}
    (h : fits path (.element name attrs cs) = true) :
    Allowed path (lower name) ∧ fitsAll (lower name :: path) cs = true := by
  rw [fits, Bool.and_eq_true] at h
  refine ⟨?_, h.2⟩
  have h := h.1
  rw [Allowed]
  cases hr : region path <;> simp only [hr, decide_eq_true_eq, reduceCtorEq] at h ⊢ <;> exact h

mutual
theorem feed_tree {x y : List Dom} {st : List Open} : (t : Tree) → Proper t → ∀ (o : Open) (rest : List Tok),
    fits (o.name :: st.map (·.name)) t = true →
    Builder.feed ⟨.inBody, o :: st, x, y⟩ (items (meant t ++ rest)) =
      Builder.feed ⟨.inBody, { o with kids := add o.kids (node t) } :: st, x, y⟩ (items rest)
  | .element name attrs cs, hp, o, rest, hf => by
    obtain ⟨ha, hc⟩ := fits_element hf
    obtain ⟨_, _, _, hp⟩ := hp
    rw [meant, startTok, List.cons_append, List.cons_append, List.append_assoc, items]
    by_cases ht : (kind (lower name)).Texts
    · have hp := (hp.resolve_right fun h => h.1 ((allowed_texts ha).2 ht)).2
      rw [feed_content (content_raw (b := ⟨.inBody, o :: st, x, y⟩) rfl ha ht).2]
      rw [show Builder.insertRaw ⟨.inBody, o :: st, x, y⟩ (lower name) (attrs.map fun a => (lower a.1, seen (a.2.getD []))) =
        ⟨.text .inBody, ⟨lower name, domAttrs attrs, []⟩ :: o :: st, x, y⟩ from rfl, feed_texts cs hp,
        List.singleton_append, items, feed_step (b' := ⟨.inBody, { o with kids := _ :: o.kids } :: st, x, y⟩) rfl]
      rw [node, ← children, ← addAll_children]
      rfl
    · have hp := (hp.resolve_left fun h => ht ((allowed_texts ha).1 h.1)).2
      rw [feed_content (content_opens (b := ⟨.inBody, o :: st, x, y⟩) rfl ha ht)]
      rw [show Builder.push ⟨.inBody, o :: st, x, y⟩ (lower name) (attrs.map fun a => (lower a.1, seen (a.2.getD []))) =
        ⟨.inBody, ⟨lower name, domAttrs attrs, []⟩ :: o :: st, x, y⟩ from rfl, feed_trees cs hp _ _ hc,
        List.singleton_append, items]
      rw [feed_content (content_closes (b := ⟨.inBody, ⟨lower name, domAttrs attrs, (nodes cs).foldl add []⟩ :: o :: st, x, y⟩)
        rfl (by simp) ha ht)]
      rw [node, ← children, ← addAll_children]
      rfl
  | .void name attrs, _, o, rest, hf => by
    rw [meant, List.singleton_append, startTok, items,
      feed_content (content_stands (b := ⟨.inBody, o :: st, x, y⟩) (by rw [fits] at hf; exact hf))]
    rfl
  | .text s, _, o, rest, hf => by
    rw [meant, items_chars, node]
    by_cases hr : (region (o.name :: st.map (·.name))).Flow
    · rw [feed_flow (b := ⟨.inBody, o :: st, x, y⟩) rfl hr, insertText_add]
    · rw [feed_spaces (b := ⟨.inBody, o :: st, x, y⟩) rfl hr, insertText_add]
      rw [fits] at hf
      cases h : region (o.name :: st.map (·.name)) <;> rw [h] at hf hr <;> first | exact absurd trivial hr | exact hf
  | .comment s, _, o, rest, _ => by
    rw [meant, List.singleton_append, items, feed_step (b' := ⟨.inBody, { o with kids := .comment (seen s) :: o.kids } :: st,
      x, y⟩)]
    · rfl
    · rw [Builder.step]
      simp only
      rw [Builder.content]
      cases region (Builder.path ⟨.inBody, o :: st, x, y⟩) <;> rfl
  | .doctype s, _, o, rest, hf => by
    rw [fits] at hf
    cases hf
theorem feed_trees {x y : List Dom} {st : List Open} : (ts : List Tree) → ProperAll ts → ∀ (o : Open) (rest : List Tok),
    fitsAll (o.name :: st.map (·.name)) ts = true →
    Builder.feed ⟨.inBody, o :: st, x, y⟩ (items (meantAll ts ++ rest)) =
      Builder.feed ⟨.inBody, { o with kids := (nodes ts).foldl add o.kids } :: st, x, y⟩ (items rest)
  | [], _, _, _, _ => rfl
  | t :: ts, hp, o, rest, hf => by
    rw [fitsAll, Bool.and_eq_true] at hf
    rw [meantAll, List.append_assoc, feed_tree t hp.1 o _ hf.1, feed_trees ts hp.2 { o with kids := add o.kids (node t) } _ hf.2]
    rfl
end

end Aitch.Spec.Markup
