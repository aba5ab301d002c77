import Verif.Spec.Clean
import Verif.Spec.Xml
import Verif.Proofs.Markup
import Verif.Proofs.Start
import Verif.Proofs.Format
import Verif.Proofs.Built
import Verif.Proofs.Tag
/-
Tidy templates write trees.
-/
namespace Aitch

open Spec Markup

/-! ### Harmless bytes -/

/-- The bytes are the escaped form of something. -/
def Esc (w : Bytes) : Prop := ∃ s, w = escaped s

theorem Esc.nil : Esc [] := ⟨[], rfl⟩

theorem Esc.append {a b : Bytes} : Esc a → Esc b → Esc (a ++ b)
  | ⟨s, hs⟩, ⟨t, ht⟩ => ⟨s ++ t, by rw [escaped_append, hs, ht]⟩

theorem markupSafe_tail {a b : Bytes} (h : MarkupSafe (a ++ b)) : MarkupSafe b :=
  ⟨fun c hc => h.1 c (List.mem_append_right _ hc), fun pre post e => h.2 (a ++ pre) post (by rw [e, List.append_assoc])⟩

theorem esc_of_markupSafe (w : Bytes) (h : MarkupSafe w) : Esc w := by
  induction hn : w.length using Nat.strongRecOn generalizing w with
  | ind n ih =>
    cases w with
    | nil => exact .nil
    | cons c w =>
      by_cases hc : c = c%'&'
      · subst hc
        obtain ⟨r, hr, t, ht⟩ := h.2 [] w rfl
        rw [← ht] at h hn ⊢
        have hs : ∃ d, r = escapedByte d ∧ 0 < r.length := by
          simp only [refs, List.mem_cons, List.not_mem_nil, or_false] at hr
          rcases hr with rfl | rfl | rfl | rfl | rfl
          · exact ⟨c%'"', rfl, by decide⟩
          · exact ⟨c%'\'', rfl, by decide⟩
          · exact ⟨c%'&', rfl, by decide⟩
          · exact ⟨c%'<', rfl, by decide⟩
          · exact ⟨c%'>', rfl, by decide⟩
        obtain ⟨d, hd, hl⟩ := hs
        rw [List.length_append] at hn
        obtain ⟨s, hs⟩ := ih t.length (by omega) t (markupSafe_tail h) rfl
        exact ⟨d :: s, by rw [hs, hd]; rfl⟩
      · obtain ⟨s, hs⟩ := ih w.length (by simp at hn; omega) w (markupSafe_tail (a := [c]) h) rfl
        obtain ⟨h1, h2, h3, h4, h5⟩ := h.1 c (.head _)
        refine ⟨c :: s, ?_⟩
        have : escapedByte c = [c] := by
          unfold escapedByte
          rw [if_neg h3, if_neg h4, if_neg hc, if_neg h1, if_neg h2, if_neg h5]
        show _ = escapedByte c ++ escaped s
        rw [this, hs]; rfl

theorem esc_simple {w : Bytes} (h : ∀ c ∈ w, escapedByte c = [c]) : Esc w := by
  refine ⟨w, ?_⟩
  induction w with
  | nil => rfl
  | cons c w ih =>
    show _ = escapedByte c ++ escaped w
    rw [h c (.head _), ← ih fun d hd => h d (.tail _ hd)]; rfl

theorem esc_digits {w : Bytes} (h : ∀ c ∈ w, IsDigit c) : Esc w := by
  refine esc_simple fun c hc => ?_
  obtain ⟨h1, h2⟩ := h c hc
  unfold escapedByte
  have n : ∀ d : UInt8, ¬ (c%'0' ≤ d ∧ d ≤ c%'9') → c ≠ d := fun d hd e => hd (e ▸ ⟨h1, h2⟩)
  rw [if_neg (n _ (by decide)), if_neg (n _ (by decide)), if_neg (n _ (by decide)), if_neg (n _ (by decide)),
    if_neg (n _ (by decide)), if_neg (n _ (by decide))]

theorem esc_intDec (i : Int) : Esc (intDec i) := by
  rcases canonInt_intDec i with ⟨n, _, h⟩ | ⟨n, _, _, w', hw, h⟩
  · exact esc_digits h.2.1
  · rw [hw]
    exact Esc.append (a := b%"-") ⟨b%"-", by decide⟩ (esc_digits h.2.1)

theorem esc_data : (v : Any) → SafeData v → Esc (valueToBytes v)
  | .bool true, _ => ⟨b%"true", by decide⟩
  | .bool false, _ => ⟨b%"false", by decide⟩
  | .bytes bs, h => esc_of_markupSafe bs h
  | .str s, _ => ⟨s, by simp [valueToBytes, escaped_eq]⟩
  | .int _ i, _ => esc_intDec i
  | .float _ txt, h => esc_of_markupSafe txt h
  | .stringer _ out _, h => esc_of_markupSafe out h.1
  | .thunk r, h => by unfold valueToBytes; exact esc_data r h
  | .nil, _ | .dynFunc .., _ | .dynKey _, _ | .value _, _ | .node _, _ | .map _, _ | .anySlice _, _ | .slice .., _
  | .strMap .., _ | .struct .., _ | .ptr _, _ | .other _, _ => .nil

theorem safeDatas_iff (xs : List Any) : SafeDatas xs ↔ ∀ x ∈ xs, SafeData x := by
  induction xs with
  | nil => simp [SafeDatas]
  | cons x xs ih => simp [SafeDatas, ih]

theorem safeValues_iff (xs : List Value) : SafeValues xs ↔ ∀ x ∈ xs, SafeValue x := by
  induction xs with
  | nil => simp [SafeValues]
  | cons x xs ih => simp [SafeValues, ih]

theorem mem_of_lookup' {k : Bytes} {v : Any} : {l : List (Bytes × Any)} → l.lookup k = some v → (k, v) ∈ l
  | [], h => by simp at h
  | (k', v') :: l, h => by
    simp only [List.lookup_cons] at h
    split at h
    · rename_i hk
      cases h
      rw [beq_iff_eq] at hk
      subst hk
      exact .head _
    · exact .tail _ (mem_of_lookup' h)

theorem safe_lookup {c : Ctx} (hc : SafeCtx c) {k : Bytes} {v : Any} (h : c.lookup k = some v) : SafeData v := by
  unfold Ctx.lookup at h
  split at h
  · simp at h
  · exact hc.maps _ _ _ (mem_of_lookup' h)

theorem safe_child {c : Ctx} (hc : SafeCtx c) {it : Any} (h : SafeData it) (d : Option MapId) : SafeCtx (childCtx c it d) :=
  ⟨h, hc.maps, hc.delimited⟩

theorem esc_dyn {P : Fns} (S : SafeFns P) {c : Ctx} (hc : SafeCtx c) (d : Dyn) : Esc (dynBytes P c d) := by
  cases d with
  | user f => exact esc_of_markupSafe _ (S.dyn f c)
  | key k =>
    simp only [dynBytes]
    split
    · rename_i v hv; exact esc_data v (safe_lookup hc hv)
    · exact .nil
  | cargo => exact esc_data _ hc.cargo

mutual
theorem esc_value {P : Fns} (S : SafeFns P) {c : Ctx} (hc : SafeCtx c) : (v : Value) → SafeValue v → Esc (valueBytes P c v)
  | .mk _ (some d) _, _ => by unfold valueBytes; exact esc_dyn S hc d
  | .mk v none [], h => by unfold valueBytes; exact esc_of_markupSafe v h
  | .mk _ none (x :: xs), h => by
    unfold valueBytes; exact (esc_value S hc x h.1).append (esc_values S hc xs h.2)
theorem esc_values {P : Fns} (S : SafeFns P) {c : Ctx} (hc : SafeCtx c) : (vs : List Value) → SafeValues vs →
    Esc (valuesBytes P c vs)
  | [], _ => .nil
  | v :: vs, h => by unfold valuesBytes; exact (esc_value S hc v h.1).append (esc_values S hc vs h.2)
end

theorem safe_newValue (dl : Nat → List Value) (v : Any) (h : SafeArg v) : SafeValues (newValue dl v) := by
  have key : ∀ v, SafeData v → SafeValues [.mk (valueToBytes v) none []] := by
    intro v hv
    obtain ⟨s, hs⟩ := esc_data v hv
    refine ⟨?_, trivial⟩
    unfold SafeValue
    rw [hs, ← escaped_eq]
    exact markupSafe_escape s
  cases v with
  | nil => trivial
  | value v => exact h.elim
  | node n => exact h.elim
  | dynFunc a f => cases f <;> simp [newValue, SafeValues, SafeValue, markupSafe_nil]
  | dynKey k =>
    simp only [newValue]
    split <;> exact ⟨trivial, trivial⟩
  | _ => exact key _ h

theorem safeValues_append {a b : List Value} (ha : SafeValues a) (hb : SafeValues b) : SafeValues (a ++ b) := by
  rw [safeValues_iff] at *
  intro x hx
  rcases List.mem_append.1 hx with h | h
  · exact ha x h
  · exact hb x h

theorem safe_newValues (dl : Nat → List Value) (vs : List Any) (h : ∀ v ∈ vs, SafeArg v) : SafeValues (newValues dl vs) := by
  induction vs with
  | nil => trivial
  | cons v vs ih =>
    have := ih fun w hw => h w (.tail _ hw)
    rw [newValues_cons]
    exact safeValues_append (safe_newValue dl v (h v (.head _))) this

theorem safe_beneath : (v : Any) → SafeData v → SafeData v.beneath
  | .stringer _ _ v => fun h => safe_beneath v h.2
  | .nil | .bool _ | .bytes _ | .str _ | .int .. | .float .. | .thunk _ | .dynFunc .. | .dynKey _ | .value _ | .node _
  | .map _ | .anySlice _ | .slice .. | .strMap .. | .struct .. | .ptr _ | .other _ => id

theorem safe_items {P : Fns} (S : SafeFns P) {c : Ctx} (hc : SafeCtx c) (fn : ItemSrc) :
    ∀ v ∈ srcItems P c fn, SafeData v := by
  cases fn with
  | user f => exact S.items f c
  | key k =>
    simp only [srcItems, keyItems]
    split
    · rename_i xs h
      obtain ⟨v, h1, h2⟩ := Option.map_eq_some_iff.1 h
      have := safe_beneath v (safe_lookup hc h1)
      rw [h2] at this
      exact (safeDatas_iff xs).1 this
    · rename_i t xs h
      obtain ⟨v, h1, h2⟩ := Option.map_eq_some_iff.1 h
      have := safe_beneath v (safe_lookup hc h1)
      rw [h2] at this
      exact (safeDatas_iff xs).1 this
    · intro v hv
      obtain ⟨b, _, rfl⟩ := List.mem_map.1 hv
      trivial
    · simp

/-! ### Clean nodes: the same on the model's nodes -/

/-- Which attributes are allowed, and what their values then satisfy. -/
structure Rule (P : Fns) where
  ok : Attr → Prop
  value : Bytes → Option Bytes → Prop
  bool : ∀ n, ok (.bool n) → value n none
  plain : ∀ n vs, ok (.plain n vs) → SafeFns P → ∀ c, SafeCtx c → SafeValues vs →
    ∃ s, valuesBytes P c vs = escaped s ∧ value n (some s)
  delim : ∀ n d r, ok (.delim n d r) → ∀ s, value n (some s)

/-- Any attributes. -/
def Rule.any (P : Fns) : Rule P where
  ok _ := True
  value _ _ := True
  bool _ _ := trivial
  plain _ vs _ S _ hc h := (esc_values S hc vs h).imp fun _ h => ⟨h, trivial⟩
  delim _ _ _ _ _ := trivial

/-- The attribute's name is allowed and its values are harmless. -/
def AttrClean {P : Fns} (B : List Bytes) (L : Syntax) (ρ : Rule P) (a : Attr) : Prop :=
  a.name ∈ B ∧ ρ.ok a ∧ match a with
    | .plain _ vs => SafeValues vs
    | .bool _ => L = .html
    | .delim _ d _ => Esc d

/-- The same for the head of an element. -/
structure HeadClean {P : Fns} (A B : List Bytes) (L : Syntax) (ρ : Rule P) (h : ElemHead) : Prop where
  wf : WFHead h
  name : h.name ∈ A
  statics : ∀ a ∈ h.attributes, AttrClean B L ρ a
  conds : ∀ ca ∈ h.conditionals, AttrClean B L ρ ca.att

/-- `Tidy`, on nodes. -/
inductive Clean (P : Fns) (A B : List Bytes) (L : Syntax) (ρ : Rule P) : (text : Bool) → Node → Prop
  | attr {text a} : AttrClean B L ρ a → Clean P A B L ρ text (.attr a)
  | element {h contents} (text) : HeadClean A B L ρ h → (text = true ↔ lower h.name ∈ textNames) →
      (∀ n ∈ contents, n.isAttr = false) → (∀ n ∈ contents, Clean P A B L ρ text n) → Clean P A B L ρ false (.element h contents)
  | voidElement {h} : L = .html → HeadClean A B L ρ h → lower h.name ∉ textNames → Clean P A B L ρ false (.voidElement h)
  | text {text vs} : SafeValues vs → Clean P A B L ρ text (.text vs)
  | fragment {text vs} : SafeValues vs → Clean P A B L ρ text (.fragment vs)
  | comment {vs} : L = .html → SafeValues vs → Clean P A B L ρ false (.comment vs)
  | docType {vs} : L = .html → SafeValues vs → Clean P A B L ρ false (.pi b%"DOCTYPE" vs)
  | collection {text ns} : (∀ n ∈ ns, Clean P A B L ρ text n) → Clean P A B L ρ text (.collection ns)
  | conditional {text ns as fn} : (∀ n ∈ ns, n.isAttr = false) → (∀ n ∈ ns, Clean P A B L ρ text n) → (∀ a ∈ as, AttrClean B L ρ a) →
      Clean P A B L ρ text (.conditional ns as fn)
  | collector {text f} : (∀ c n, some n ∈ P.collect f c → Clean P A B L ρ text n) → Clean P A B L ρ text (.collector f)
  | iterator {text ns fn} : (∀ n ∈ ns, n.isAttr = false) → (∀ n ∈ ns, Clean P A B L ρ text n) → Clean P A B L ρ text (.iterator ns fn)
  | yieldIterator {text ns f} : (∀ n ∈ ns, n.isAttr = false) → (∀ n ∈ ns, Clean P A B L ρ text n) →
      Clean P A B L ρ text (.yieldIterator ns f)
  | imperative {f} : (∀ c d, .writeRaw d ∈ P.imp f c → MarkupSafe d) →
      (∀ c ns n, .writeNodes ns ∈ P.imp f c → some n ∈ ns → Clean P A B L ρ false n) →
      (∀ c name v attrs, .start name v attrs ∈ P.imp f c → name ∈ A ∧ lower name ∉ textNames ∧ (v = true → L = .html)) →
      (∀ c name v attrs n, .start name v attrs ∈ P.imp f c → some n ∈ attrs → Clean P A B L ρ false n) →
      (∀ c, openAfter (P.imp f c) [] = []) → Clean P A B L ρ false (.imperative (some f))
  | document {p contents} : (∀ n ∈ p.toList ++ contents, n.isAttr = false) → (∀ n ∈ p.toList ++ contents, Clean P A B L ρ false n) →
      Clean P A B L ρ false (.document p contents)

/-! ### Tags -/

/-- What is shown has an allowed name and a harmless value. -/
def ShownClean {P : Fns} (B : List Bytes) (L : Syntax) (ρ : Rule P) (x : Shown) : Prop :=
  x.1 ∈ B ∧ (∀ v, x.2 = some v → ∃ s, v = escaped s ∧ ρ.value x.1 (some s)) ∧ (x.2 = none → L = .html ∧ ρ.value x.1 none)

section
variable {P : Fns} (S : SafeFns P) {c : Ctx} (hc : SafeCtx c) {A B : List Bytes} {L : Syntax} {ρ : Rule P}
include S hc

theorem esc_delimJoin {d : Bytes} (hd : Esc d) (vs : List Value) (h : SafeValues vs) :
    Esc (delimJoin d (vs.map (valueBytes P c))) := by
  induction vs with
  | nil => exact .nil
  | cons v vs ih =>
    have h1 := esc_value S hc v h.1
    cases vs with
    | nil => exact h1
    | cons v' vs =>
      have := ih h.2
      simp only [List.map_cons] at this ⊢
      unfold delimJoin
      refine Esc.append ?_ this
      split
      · exact .nil
      · exact h1.append hd

theorem shown_clean {a : Attr} (ha : AttrClean B L ρ a) : ShownClean B L ρ (shown P c a) := by
  obtain ⟨h1, hq, h2⟩ := ha
  cases a with
  | plain n vs =>
    refine ⟨h1, fun v hv => ?_, fun h => by simp [shown] at h⟩
    simp only [shown, Option.some.injEq] at hv
    exact hv ▸ ρ.plain n vs hq S c hc h2
  | bool n => exact ⟨h1, fun v hv => by simp [shown] at hv, fun _ => ⟨h2, ρ.bool n hq⟩⟩
  | delim n d r =>
    refine ⟨h1, fun v hv => ?_, fun h => by simp [shown] at h⟩
    simp only [shown, Option.some.injEq] at hv
    exact hv ▸ (esc_delimJoin S hc h2 _ (hc.delimited r)).imp fun s hs => ⟨hs, ρ.delim n d r hq s⟩

omit S in
theorem safe_values {a : Attr} (ha : AttrClean B L ρ a) : SafeValues (a.values c.dl) := by
  cases a with
  | plain n vs => exact ha.2.2
  | bool n => trivial
  | delim n d r => exact hc.delimited r

theorem shownMerged_clean {a : Attr} (ha : AttrClean B L ρ a) {more : List Attr} (hm : ∀ b ∈ more, AttrClean B L ρ b)
    {last : Attr} (hl : AttrClean B L ρ last) : ShownClean B L ρ (shownMerged P c a more last) := by
  cases a with
  | plain n vs => exact shown_clean S hc hl
  | bool n => exact shown_clean S hc hl
  | delim n d r =>
    refine ⟨ha.1, fun v hv => ?_, fun h => by simp [shownMerged] at h⟩
    simp only [shownMerged, Option.some.injEq] at hv
    refine hv ▸ (esc_delimJoin S hc ha.2.2 _ (safeValues_append (hc.delimited r) ?_)).imp fun s hs => ⟨hs, ρ.delim n d r ha.2.1 s⟩
    rw [safeValues_iff]
    intro x hx
    obtain ⟨b, hb, hx⟩ := List.mem_flatMap.1 hx
    exact (safeValues_iff _).1 (safe_values hc (hm b hb)) x hx

theorem tagShows_clean {h : ElemHead} (hh : HeadClean A B L ρ h) {l : List Shown} (ht : TagShows P c h l) :
    ∀ x ∈ l, ShownClean B L ρ x := by
  have hact : ∀ a ∈ active P c h.conditionals, AttrClean B L ρ a := by
    intro a ha
    obtain ⟨ca, h1, rfl⟩ := active_mem ha
    exact hh.conds ca h1
  have hnamed : ∀ n, ∀ a ∈ named n (active P c h.conditionals), AttrClean B L ρ a :=
    fun n a ha => hact a (List.mem_filter.1 ha).1
  unfold TagShows at ht
  simp only at ht
  split at ht
  · subst ht
    intro x hx
    obtain ⟨a, ha, rfl⟩ := List.mem_map.1 hx
    exact shown_clean S hc (hh.statics a ha)
  · obtain ⟨l₁, l₂, h1, h2, rfl⟩ := ht
    intro x hx
    rcases List.mem_append.1 hx with hx | hx
    · have hx := h1.mem_iff.1 hx
      unfold shownStatics at hx
      obtain ⟨a, ha, rfl⟩ := List.mem_map.1 hx
      have hn := hnamed a.name
      split
      · exact shown_clean S hc (hh.statics a ha)
      · rename_i e es he
        rw [he] at hn
        exact shownMerged_clean S hc (hh.statics a ha) hn (hn _ (List.getLast_mem _))
    · have hx := h2.mem_iff.1 hx
      unfold shownExtras at hx
      obtain ⟨n, _, hx⟩ := List.mem_filterMap.1 hx
      have hn := hnamed n
      split at hx
      · simp at hx
      · rename_i e es he
        simp only [Option.some.injEq] at hx
        subst hx
        rw [he] at hn
        exact shownMerged_clean S hc (hn _ (.head _)) (fun b hb => hn b (.tail _ hb)) (hn _ (List.getLast_mem _))

theorem esc_parts {ds : List Attr} (h : ∀ a ∈ ds, AttrClean B L ρ a) (w : Bool) :
    Esc (joinParts w (partsOf P c ds)) := by
  have parts : ∀ p ∈ partsOf P c ds, Esc p.1 ∧ Esc p.2 := by
    intro p hp
    obtain ⟨a, ha, hp⟩ := List.mem_flatMap.1 hp
    obtain ⟨v, hv, rfl⟩ := List.mem_map.1 hp
    refine ⟨?_, esc_value S hc v ((safeValues_iff _).1 (safe_values hc (h a ha)) v hv)⟩
    cases a with
    | delim n d r => exact (h _ ha).2.2
    | _ => exact .nil
  generalize partsOf P c ds = ps at parts
  induction ps generalizing w with
  | nil => exact .nil
  | cons p ps ih =>
    obtain ⟨d, x⟩ := p
    have := parts _ (.head _)
    unfold joinParts
    refine Esc.append (Esc.append ?_ this.2) (ih true fun q hq => parts q (.tail _ hq))
    split
    · exact this.1
    · exact .nil

theorem startShows_clean {as : List Attr} (h : ∀ a ∈ as, AttrClean B L ρ a) : ∀ x ∈ startShows P c as, ShownClean B L ρ x := by
  intro x hx
  obtain ⟨n, hn, rfl⟩ := List.mem_map.1 hx
  rw [mem_distinct] at hn
  obtain ⟨a, ha, rfl⟩ := List.mem_map.1 hn
  have hds : ∀ b ∈ named a.name as, AttrClean B L ρ b := fun b hb => h b (List.mem_filter.1 hb).1
  have hname : ∀ b ∈ named a.name as, b.name = a.name := fun b hb => by simpa using (List.mem_filter.1 hb).2
  have hmem : ∀ b ∈ delimSuffix (named a.name as), b ∈ named a.name as := fun b hb =>
    List.mem_reverse.1 ((List.takeWhile_sublist _).subset (List.mem_reverse.1 hb))
  have hany : ∀ b ∈ named a.name as, isDelim b = true → ∀ s, ρ.value a.name (some s) := by
    intro b hb hd s
    rw [← hname b hb]
    cases b with
    | delim n d r => exact ρ.delim n d r (hds _ hb).2.1 s
    | _ => simp [isDelim, refOf] at hd
  have hsuf : ∀ b ∈ delimSuffix (named a.name as), isDelim b = true := fun b hb => by
    have := List.mem_reverse.1 hb
    exact List.all_eq_true.1 List.all_takeWhile b this
  have hp := esc_parts S hc fun b hb => hds b (hmem b hb)
  have hparts : ∀ s, partsOf P c (delimSuffix (named a.name as)) ≠ [] → ρ.value a.name (some s) := by
    intro s hne
    cases hs : delimSuffix (named a.name as) with
    | nil => rw [hs] at hne; exact (hne rfl).elim
    | cons b bs =>
      have hb : b ∈ delimSuffix (named a.name as) := by rw [hs]; exact .head _
      exact hany b (hmem b hb) (hsuf b hb) s
  refine ⟨(h a ha).1, fun v hv => ?_, fun hv => ?_⟩
  · simp only [startValue] at hv
    split at hv
    · rename_i n vs he
      cases hv
      have hm := (List.mem_filter.1 (List.mem_of_getLast? he)).1
      obtain ⟨s, hs, hv⟩ := ρ.plain n vs (hds _ hm).2.1 S c hc (hds _ hm).2.2
      by_cases hne : partsOf P c (delimSuffix (named a.name as)) = []
      · refine ⟨s, by rw [hne, hs]; simp [joinParts], ?_⟩
        have : n = a.name := hname _ hm
        subst this; exact hv
      · exact (Esc.append ⟨s, hs⟩ (hp _)).imp fun s hs => ⟨hs, hparts s hne⟩
    · split at hv
      · simp at hv
      · rename_i hne
        cases hv; exact (hp _).imp fun s hs => ⟨hs, hparts s hne⟩
    · rename_i h1 h2
      cases hv
      refine (hp _).imp fun s hs => ⟨hs, ?_⟩
      by_cases hd : isDelim a = true
      · exact hany a (List.mem_filter.2 ⟨ha, by simp⟩) hd s
      · exfalso
        have hm : a ∈ (named a.name as).filter fun a => !isDelim a :=
          List.mem_filter.2 ⟨List.mem_filter.2 ⟨ha, by simp⟩, by simpa using hd⟩
        cases hl : ((named a.name as).filter fun a => !isDelim a).getLast? with
        | none => rw [List.getLast?_eq_none_iff] at hl; rw [hl] at hm; cases hm
        | some b =>
          have := (List.mem_filter.1 (List.mem_of_getLast? hl)).2
          cases b with
          | plain n vs => exact h1 _ _ hl
          | bool n => exact h2 _ hl
          | delim n d r => simp [isDelim, refOf] at this
  · simp only [startValue] at hv
    split at hv
    · cases hv
    · rename_i n he
      have hm := (List.mem_filter.1 (List.mem_of_getLast? he)).1
      have : n = a.name := hname _ hm
      subst this
      exact ⟨(hds _ hm).2.2, ρ.bool _ (hds _ hm).2.1⟩
    · cases hv

end

/-- A tag with clean attributes, all different, is the tag of a tree. -/
theorem shown_attrs' {A B : List Bytes} {L : Syntax} {P : Fns} {ρ : Rule P} (N : GoodNames A B) {l : List Shown} (h : ∀ x ∈ l, ShownClean B L ρ x) (hn : (l.map (·.1)).Nodup) :
    ∃ attrs, AttrsOK attrs ∧ (∀ a ∈ attrs, a.1 ∈ B) ∧ (∀ name, tagBytes name l = writeTag name attrs) ∧
      attrs.map (·.1) = l.map (·.1) ∧ (L = .xml → ∀ a ∈ attrs, a.2 ≠ none) ∧ ∀ a ∈ attrs, ρ.value a.1 a.2 := by
  have key : ∃ attrs : List (Bytes × Option Bytes), attrs.map (·.1) = l.map (·.1) ∧
      attrs.flatMap Markup.writeAttr = l.flatMap Shown.bytes ∧ (L = .xml → ∀ a ∈ attrs, a.2 ≠ none) ∧
      ∀ a ∈ attrs, ρ.value a.1 a.2 := by
    clear hn
    induction l with
    | nil => exact ⟨[], rfl, rfl, by simp, by simp⟩
    | cons x l ih =>
      obtain ⟨attrs, h1, h2, h3, h4⟩ := ih fun y hy => h y (.tail _ hy)
      obtain ⟨n, _ | v⟩ := x
      · have := (h _ (.head _)).2.2 rfl
        refine ⟨(n, none) :: attrs, by simp [h1], by simp [h2, Markup.writeAttr, Shown.bytes], fun e => ?_, fun a ha => ?_⟩
        · rw [e] at this; cases this.1
        · rcases List.mem_cons.1 ha with rfl | ha
          · exact this.2
          · exact h4 a ha
      · obtain ⟨s, hs, hv⟩ := (h _ (.head _)).2.1 v rfl
        refine ⟨(n, some s) :: attrs, by simp [h1], by simp [h2, Markup.writeAttr, Shown.bytes, hs], fun e a ha => ?_, fun a ha => ?_⟩
        · rcases List.mem_cons.1 ha with rfl | ha
          · simp
          · exact h3 e a ha
        · rcases List.mem_cons.1 ha with rfl | ha
          · exact hv
          · exact h4 a ha
  obtain ⟨attrs, h1, h2, hv, hw⟩ := key
  have hB : ∀ a ∈ attrs, a.1 ∈ B := by
    intro a ha
    have := List.mem_map_of_mem (f := (·.1)) ha
    rw [h1] at this
    obtain ⟨x, hx, e⟩ := List.mem_map.1 this
    exact e ▸ (h x hx).1
  refine ⟨attrs, ⟨fun a ha => N.attributes _ (hB a ha), ?_⟩, hB, fun name => by simp [tagBytes, writeTag, h2], h1, hv, hw⟩
  rw [← h1] at hn
  clear h1 h2 hv hw
  induction attrs with
  | nil => exact .nil
  | cons a attrs ih =>
    rw [List.map_cons, List.nodup_cons] at hn ⊢
    refine ⟨fun hm => hn.1 ?_, ih hn.2 fun b hb => hB b (.tail _ hb)⟩
    obtain ⟨b, hb, e⟩ := List.mem_map.1 hm
    have := N.distinct _ (hB b (.tail _ hb)) _ (hB a (.head _)) e
    exact this ▸ List.mem_map_of_mem hb

theorem shown_attrs {A B : List Bytes} {L : Syntax} {P : Fns} {ρ : Rule P} (N : GoodNames A B) {l : List Shown} (h : ∀ x ∈ l, ShownClean B L ρ x) (hn : (l.map (·.1)).Nodup) :
    ∃ attrs, AttrsOK attrs ∧ (∀ a ∈ attrs, a.1 ∈ B) ∧ (∀ name, tagBytes name l = writeTag name attrs) ∧
      (L = .xml → ∀ a ∈ attrs, a.2 ≠ none) ∧ ∀ a ∈ attrs, ρ.value a.1 a.2 :=
  let ⟨attrs, h1, h2, h3, _, h4⟩ := shown_attrs' N h hn
  ⟨attrs, h1, h2, h3, h4⟩

/-! ### Nodes -/

mutual
/-- All attributes in a tree have values that are allowed. -/
def Valued (V : Bytes → Option Bytes → Prop) : Tree → Prop
  | .element _ attrs children => (∀ a ∈ attrs, V a.1 a.2) ∧ ValuedAll V children
  | .void _ attrs => ∀ a ∈ attrs, V a.1 a.2
  | _ => True
/-- `Valued` for all trees. -/
def ValuedAll (V : Bytes → Option Bytes → Prop) : List Tree → Prop
  | [] => True
  | t :: ts => Valued V t ∧ ValuedAll V ts
end

/-- The bytes are those of proper trees with allowed names; only texts if `text`. -/
def Trees {P : Fns} (A B : List Bytes) (L : Syntax) (ρ : Rule P) (text : Bool) (w : Bytes) : Prop :=
  ∃ ts, w = writeAll ts ∧ WithinAll A B ts ∧ ProperAll ts ∧ (text = true → ∀ t ∈ ts, t.IsText) ∧
    (L = .xml → Xml.FitsAll ts) ∧ ValuedAll ρ.value ts

theorem fitsAll_append {a b : List Tree} (ha : Xml.FitsAll a) (hb : Xml.FitsAll b) : Xml.FitsAll (a ++ b) := by
  induction a with
  | nil => exact hb
  | cons t a ih => exact ⟨ha.1, ih ha.2⟩

theorem writeAll_append (a b : List Tree) : writeAll (a ++ b) = writeAll a ++ writeAll b := by
  induction a with
  | nil => rfl
  | cons t a ih => simp [writeAll, ih]

theorem withinAll_append {A B : List Bytes} {a b : List Tree} (ha : WithinAll A B a) (hb : WithinAll A B b) :
    WithinAll A B (a ++ b) := by
  induction a with
  | nil => exact hb
  | cons t a ih => exact ⟨ha.1, ih ha.2⟩

theorem properAll_append {a b : List Tree} (ha : ProperAll a) (hb : ProperAll b) : ProperAll (a ++ b) := by
  induction a with
  | nil => exact hb
  | cons t a ih => exact ⟨ha.1, ih ha.2⟩

theorem valuedAll_append {V : Bytes → Option Bytes → Prop} {a b : List Tree} (ha : ValuedAll V a) (hb : ValuedAll V b) :
    ValuedAll V (a ++ b) := by
  induction a with
  | nil => exact hb
  | cons t a ih => exact ⟨ha.1, ih ha.2⟩

theorem Trees.nil {A B : List Bytes} {L : Syntax} {P : Fns} {ρ : Rule P} {text : Bool} : Trees A B L ρ text [] := ⟨[], rfl, trivial, trivial, by simp, fun _ => trivial, trivial⟩

theorem Trees.append {A B : List Bytes} {L : Syntax} {P : Fns} {ρ : Rule P} {text : Bool} {a b : Bytes} : Trees A B L ρ text a → Trees A B L ρ text b →
    Trees A B L ρ text (a ++ b)
  | ⟨s, h1, h2, h3, h4, h5, h6⟩, ⟨t, g1, g2, g3, g4, g5, g6⟩ =>
    ⟨s ++ t, by rw [writeAll_append, h1, g1], withinAll_append h2 g2, properAll_append h3 g3, fun e x hx => by
      rcases List.mem_append.1 hx with hx | hx
      · exact h4 e x hx
      · exact g4 e x hx, fun e => fitsAll_append (h5 e) (g5 e), valuedAll_append h6 g6⟩

theorem Trees.text {A B : List Bytes} {L : Syntax} {P : Fns} {ρ : Rule P} {text : Bool} {w : Bytes} : Esc w → Trees A B L ρ text w
  | ⟨s, hs⟩ => ⟨[.text s], by simp [writeAll, write, hs], ⟨trivial, trivial⟩, ⟨trivial, trivial⟩, by simp [Tree.IsText],
      fun _ => ⟨trivial, trivial⟩, ⟨trivial, trivial⟩⟩

theorem Trees.one {A B : List Bytes} {L : Syntax} {P : Fns} {ρ : Rule P} {t : Tree} (h1 : Within A B t) (h2 : Proper t) (h3 : L = .xml → Xml.Fits t)
    (h4 : Valued ρ.value t) : Trees A B L ρ false (write t) :=
  ⟨[t], by simp [writeAll], ⟨h1, trivial⟩, ⟨h2, trivial⟩, by simp, fun e => ⟨h3 e, trivial⟩, ⟨h4, trivial⟩⟩

/-- The tree of an element. -/
theorem element_tree {A B : List Bytes} {L : Syntax} {P : Fns} {ρ : Rule P} (N : GoodNames A B) {name : Bytes} {l : List Shown} {text : Bool} {w : Bytes}
    (hn : name ∈ A) (hl : ∀ x ∈ l, ShownClean B L ρ x) (hd : (l.map (·.1)).Nodup) (ht : text = true ↔ lower name ∈ textNames)
    (hw : Trees A B L ρ text w) : ∃ t, tagBytes name l ++ w ++ endBytes name = write t ∧ Xml.IsElement t ∧ Within A B t ∧
      Proper t ∧ (L = .xml → Xml.Fits t) ∧ Valued ρ.value t := by
  obtain ⟨attrs, h1, h2, h3, h4, h5⟩ := shown_attrs N hl hd
  obtain ⟨ts, rfl, g1, g2, g3, g4, g5⟩ := hw
  refine ⟨.element name attrs ts, by simp [write, h3, endBytes], trivial, ⟨hn, h2, g1⟩,
    ⟨(N.elements _ hn).1, (N.elements _ hn).2, h1, ?_⟩, fun e => ⟨h4 e, g4 e⟩, ⟨h5, g5⟩⟩
  by_cases h : lower name ∈ textNames
  · exact .inl ⟨h, g3 (ht.2 h)⟩
  · exact .inr ⟨h, g2⟩

theorem Trees.element {A B : List Bytes} {L : Syntax} {P : Fns} {ρ : Rule P} (N : GoodNames A B) {name : Bytes} {l : List Shown} {text : Bool} {w : Bytes}
    (hn : name ∈ A) (hl : ∀ x ∈ l, ShownClean B L ρ x) (hd : (l.map (·.1)).Nodup) (ht : text = true ↔ lower name ∈ textNames)
    (hw : Trees A B L ρ text w) : Trees A B L ρ false (tagBytes name l ++ w ++ endBytes name) := by
  obtain ⟨t, h1, _, h2, h3, h4, h5⟩ := element_tree N hn hl hd ht hw
  rw [h1]
  exact .one h2 h3 h4 h5

theorem Trees.void {A B : List Bytes} {L : Syntax} {P : Fns} {ρ : Rule P} (N : GoodNames A B) {name : Bytes} {l : List Shown}
    (hL : L = .html) (hn : name ∈ A) (hl : ∀ x ∈ l, ShownClean B L ρ x) (hd : (l.map (·.1)).Nodup)
    (ht : lower name ∉ textNames) : Trees A B L ρ false (tagBytes name l) := by
  obtain ⟨attrs, h1, h2, h3, _, h5⟩ := shown_attrs N hl hd
  have : tagBytes name l = write (.void name attrs) := by simp [write, h3]
  rw [this]
  exact .one ⟨hn, h2⟩ ⟨(N.elements _ hn).1, (N.elements _ hn).2, h1, ht⟩ (fun e => by rw [hL] at e; cases e) h5

theorem start_clean {P : Fns} (S : SafeFns P) {c : Ctx} (hc : SafeCtx c) {A B : List Bytes} {L : Syntax} {ρ : Rule P} {attrs : List (Option Node)}
    (h : ∀ n, some n ∈ attrs → Clean P A B L ρ false n) :
    (∀ x ∈ startShows P c (startAttrs attrs), ShownClean B L ρ x) ∧ ((startShows P c (startAttrs attrs)).map (·.1)).Nodup := by
  constructor
  · refine startShows_clean S hc fun a ha => ?_
    obtain ⟨n, hn, e⟩ := List.mem_filterMap.1 ha
    have := h n (by simpa using hn)
    split at e
    · cases e
      cases this with
      | attr h => exact h
    · simp at e
  · unfold startShows
    rw [List.map_map]
    have : (fun n => n) = ((fun x : Shown => x.1) ∘ fun n => (n, startValue P c (named n (startAttrs attrs)))) := rfl
    rw [← this, List.map_id']
    exact nodup_distinct _

/-- The bytes end the open elements `stack`, with trees after each end tag. -/
inductive Closes {P : Fns} (A B : List Bytes) (L : Syntax) (ρ : Rule P) : (stack : List Bytes) → Bytes → Prop
  | nil : Closes A B L ρ [] []
  | cons {n st w w'} : Trees A B L ρ false w → Closes A B L ρ st w' → Closes A B L ρ (n :: st) (endBytes n ++ w ++ w')

section
variable {P : Fns} {A B : List Bytes} {L : Syntax} {ρ : Rule P} (N : GoodNames A B) (S : SafeFns P)
include N S

set_option linter.unusedSectionVars false in
mutual
theorem out_trees : {c : Ctx} → {n : Node} → {w : Bytes} → Out P c n w → SafeCtx c → n.isAttr = false →
    ∀ {text}, Clean P A B L ρ text n → Trees A B L ρ text w
  | _, _, _, .element ht ha, hc, _, _, hn => by
    cases hn with
    | element text hh hx h1 h2 =>
      have ih := outAll_trees ha hc h1 h2
      exact .element N hh.name (tagShows_clean S hc hh ht) (tagShows_names hh.wf ht).1 hx ih
  | _, _, _, .voidElement ht, hc, _, _, hn => by
    cases hn with
    | voidElement hL hh hx => exact .void N hL hh.name (tagShows_clean S hc hh ht) (tagShows_names hh.wf ht).1 hx
  | _, _, _, .attr, _, h, _, _ => by simp [Node.isAttr, Node.type] at h
  | _, _, _, .text, hc, _, _, hn => by cases hn with | text h => exact .text (esc_values S hc _ h)
  | _, _, _, .fragment, hc, _, _, hn => by cases hn with | fragment h => exact .text (esc_values S hc _ h)
  | _, _, _, .comment, hc, _, _, hn => by
    cases hn with
    | comment hL h =>
      obtain ⟨s, hs⟩ := esc_values S hc _ h
      rw [hs]
      exact .one (t := .comment s) trivial trivial (fun e => by rw [hL] at e; cases e) trivial
  | _, _, _, .pi, hc, _, _, hn => by
    cases hn with
    | docType hL h =>
      obtain ⟨s, hs⟩ := esc_values S hc _ h
      rw [hs]
      exact .one (t := .doctype s) trivial trivial (fun e => by rw [hL] at e; cases e) trivial
  | _, _, _, .collection (ns := ns) ha, hc, _, _, hn => by
    cases hn with
    | collection h =>
      exact outAll_trees ha hc (fun n hn => by simpa using (List.mem_filter.1 hn).2)
        (fun n hn => h n (List.mem_filter.1 hn).1)
  | _, _, _, .conditionalOn h1 ha, hc, _, _, hn => by
    cases hn with
    | conditional h1 h2 _ => exact outAll_trees ha hc h1 h2
  | _, _, _, .conditionalOff h1, _, _, _, _ => .nil
  | c, _, _, .collector (f := f) ha, hc, _, _, hn => by
    cases hn with
    | collector h =>
      exact outAll_trees ha hc (fun n hn => by simpa using (List.mem_filter.1 hn).2)
        (fun n hn => h c n (by simpa using (List.mem_filter.1 hn).1))
  | _, _, _, .imperativeNil, _, _, _, _ => .nil
  | c, _, _, .imperative (f := f) ho, hc, _, _, hn => by
    cases hn with
    | imperative h1 h2 h3 h4 h5 =>
      obtain ⟨a, b, rfl, ha, hb⟩ := outOps_trees ho hc (h1 c) (h2 c) (h3 c) (h4 c) (h5 c)
      cases hb
      simpa using ha
  | _, _, _, .iterator (fn := fn) hi, hc, _, _, hn => by
    cases hn with
    | iterator h1 h2 =>
      exact outItems_trees hi hc (safe_items S hc fn) h1 h2
  | c, _, _, .yieldIterator (f := f) hi, hc, _, _, hn => by
    cases hn with
    | yieldIterator h1 h2 => exact outYields_trees hi hc (S.yields f c) h1 h2
  | _, _, _, .document (prologue := p) ha, hc, _, _, hn => by
    cases hn with
    | document h1 h2 => exact outAll_trees ha hc h1 h2
theorem outAll_trees : {c : Ctx} → {ns : List Node} → {w : Bytes} → OutAll P c ns w → SafeCtx c →
    (∀ n ∈ ns, n.isAttr = false) → ∀ {text}, (∀ n ∈ ns, Clean P A B L ρ text n) → Trees A B L ρ text w
  | _, _, _, .nil, _, _, _, _ => .nil
  | _, _, _, .cons h hs, hc, h1, _, h2 =>
    (out_trees h hc (h1 _ (.head _)) (h2 _ (.head _))).append
      (outAll_trees hs hc (fun n hn => h1 n (.tail _ hn)) fun n hn => h2 n (.tail _ hn))
theorem outItems_trees : {c : Ctx} → {ns : List Node} → {its : List Any} → {w : Bytes} → OutItems P c ns its w →
    SafeCtx c → (∀ v ∈ its, SafeData v) → (∀ n ∈ ns, n.isAttr = false) → ∀ {text}, (∀ n ∈ ns, Clean P A B L ρ text n) →
    Trees A B L ρ text w
  | _, _, _, _, .nil, _, _, _, _, _ => .nil
  | _, _, _, _, .cons h hs, hc, hi, h1, _, h2 =>
    (outAll_trees h (safe_child hc (hi _ (.head _)) _) h1 h2).append
      (outItems_trees hs hc (fun v hv => hi v (.tail _ hv)) h1 h2)
theorem outYields_trees : {c : Ctx} → {ns : List Node} → {d : Option MapId} → {its : List Any} → {w : Bytes} →
    OutYields P c ns d its w → SafeCtx c → (∀ v ∈ its, SafeData v) → (∀ n ∈ ns, n.isAttr = false) →
    ∀ {text}, (∀ n ∈ ns, Clean P A B L ρ text n) → Trees A B L ρ text w
  | _, _, _, _, _, .nil, _, _, _, _, _ => .nil
  | _, _, _, _, _, .cons h hs, hc, hi, h1, _, h2 =>
    (outAll_trees h (safe_child hc (hi _ (.head _)) _) h1 h2).append
      (outYields_trees hs hc (fun v hv => hi v (.tail _ hv)) h1 h2)
theorem outOps_trees : {c : Ctx} → {ops : List ImpOp} → {st : List Bytes} → {w : Bytes} → OutOps P c ops st w →
    SafeCtx c → (∀ d, .writeRaw d ∈ ops → MarkupSafe d) →
    (∀ ns n, .writeNodes ns ∈ ops → some n ∈ ns → Clean P A B L ρ false n) →
    (∀ name v attrs, .start name v attrs ∈ ops → name ∈ A ∧ lower name ∉ textNames ∧ (v = true → L = .html)) →
    (∀ name v attrs n, .start name v attrs ∈ ops → some n ∈ attrs → Clean P A B L ρ false n) →
    openAfter ops st = [] → ∃ a b, w = a ++ b ∧ Trees A B L ρ false a ∧ Closes A B L ρ st b
  | _, _, _, _, .nil, _, _, _, _, _, ho => ⟨[], [], rfl, .nil, by cases ho; exact .nil⟩
  | _, _, _, _, .writeString (d := d) h, hc, h1, h2, h3, h4, ho => by
    obtain ⟨a, b, rfl, ha, hb⟩ := outOps_trees h hc (fun d hd => h1 d (.tail _ hd)) (fun a b hd => h2 a b (.tail _ hd))
      (fun a b c hd => h3 a b c (.tail _ hd)) (fun a b c d hd => h4 a b c d (.tail _ hd)) ho
    exact ⟨_, b, (List.append_assoc ..).symm, (Trees.text ⟨d, escaped_eq d⟩).append ha, hb⟩
  | _, _, _, _, .writeRaw (d := d) h, hc, h1, h2, h3, h4, ho => by
    obtain ⟨a, b, rfl, ha, hb⟩ := outOps_trees h hc (fun d hd => h1 d (.tail _ hd)) (fun a b hd => h2 a b (.tail _ hd))
      (fun a b c hd => h3 a b c (.tail _ hd)) (fun a b c d hd => h4 a b c d (.tail _ hd)) ho
    exact ⟨_, b, (List.append_assoc ..).symm, (Trees.text (esc_of_markupSafe d (h1 d (.head _)))).append ha, hb⟩
  | _, _, _, _, .writeNodes (ns := ms) h' h, hc, h1, h2, h3, h4, ho => by
    obtain ⟨a, b, rfl, ha, hb⟩ := outOps_trees h hc (fun d hd => h1 d (.tail _ hd)) (fun a b hd => h2 a b (.tail _ hd))
      (fun a b c hd => h3 a b c (.tail _ hd)) (fun a b c d hd => h4 a b c d (.tail _ hd)) ho
    have := outAll_trees h' hc (fun n hn => by simpa using (List.mem_filter.1 hn).2)
      (fun n hn => h2 ms n (.head _) (by simpa using (List.mem_filter.1 hn).1))
    exact ⟨_, b, (List.append_assoc ..).symm, this.append ha, hb⟩
  | c, _, _, _, .startVoid (n := nm) (attrs := attrs) h, hc, h1, h2, h3, h4, ho => by
    obtain ⟨a, b, rfl, ha, hb⟩ := outOps_trees h hc (fun d hd => h1 d (.tail _ hd)) (fun a b hd => h2 a b (.tail _ hd))
      (fun a b c hd => h3 a b c (.tail _ hd)) (fun a b c d hd => h4 a b c d (.tail _ hd)) ho
    rw [startCollect_shows]
    have hs := start_clean (c := c) S hc (fun n hn => h4 nm true attrs n (.head _) hn)
    have hA := h3 nm true attrs (.head _)
    exact ⟨_, b, (List.append_assoc ..).symm, (Trees.void N (hA.2.2 rfl) hA.1 hs.1 hs.2 hA.2.1).append ha, hb⟩
  | c, _, _, _, .start (n := nm) (attrs := attrs) h, hc, h1, h2, h3, h4, ho => by
    obtain ⟨a, b, rfl, ha, hb⟩ := outOps_trees h hc (fun d hd => h1 d (.tail _ hd)) (fun a b hd => h2 a b (.tail _ hd))
      (fun a b c hd => h3 a b c (.tail _ hd)) (fun a b c d hd => h4 a b c d (.tail _ hd)) ho
    rw [startCollect_shows]
    have hs := start_clean (c := c) S hc (fun n hn => h4 nm false attrs n (.head _) hn)
    have hA := h3 nm false attrs (.head _)
    cases hb with
    | cons hw hst =>
      have he := Trees.element (text := false) N hA.1 hs.1 hs.2 ⟨by simp, fun h => (hA.2.1 h).elim⟩ ha
      exact ⟨_, _, by simp only [List.append_assoc], he.append hw, hst⟩
  | _, _, _, _, .endNone h, hc, h1, h2, h3, h4, ho =>
    outOps_trees h hc (fun d hd => h1 d (.tail _ hd)) (fun a b hd => h2 a b (.tail _ hd))
      (fun a b c hd => h3 a b c (.tail _ hd)) (fun a b c d hd => h4 a b c d (.tail _ hd)) ho
  | _, _, _, _, .endSome h, hc, h1, h2, h3, h4, ho => by
    obtain ⟨a, b, rfl, ha, hb⟩ := outOps_trees h hc (fun d hd => h1 d (.tail _ hd)) (fun a b hd => h2 a b (.tail _ hd))
      (fun a b c hd => h3 a b c (.tail _ hd)) (fun a b c d hd => h4 a b c d (.tail _ hd)) ho
    exact ⟨[], _, (List.append_assoc ..).symm, .nil, .cons ha hb⟩
  | _, _, st, _, .endAll h, hc, h1, h2, h3, h4, ho => by
    obtain ⟨a, b, rfl, ha, hb⟩ := outOps_trees h hc (fun d hd => h1 d (.tail _ hd)) (fun a b hd => h2 a b (.tail _ hd))
      (fun a b c hd => h3 a b c (.tail _ hd)) (fun a b c d hd => h4 a b c d (.tail _ hd)) ho
    cases hb
    rw [List.append_nil]
    clear ho
    induction st with
    | nil => exact ⟨a, [], by simp, ha, .nil⟩
    | cons n st ih =>
      obtain ⟨x, y, e, hx, hy⟩ := ih
      refine ⟨[], endBytes n ++ x ++ y, ?_, .nil, .cons hx hy⟩
      rw [List.flatMap_cons, List.append_assoc, e]; simp
end
end

/-! ### Tidy nodes are clean -/

theorem mem_declaredAll {cs : List Cond} {ns : List Node} {d : Attr × List Cond} :
    d ∈ declaredAll cs ns ↔ ∃ n ∈ ns, d ∈ declared cs n := by
  induction ns with
  | nil => simp [declaredAll]
  | cons n ns ih => simp [declaredAll, ih]

theorem clean_declared {P : Fns} {A B : List Bytes} {L : Syntax} {ρ : Rule P} {text : Bool} {n : Node} (h : Clean P A B L ρ text n) :
    ∀ cs, ∀ d ∈ declared cs n, AttrClean B L ρ d.1 := by
  induction h with
  | attr h => intro cs d hd; simp [declared] at hd; subst hd; exact h
  | collection _ ih =>
    rename_i ns _
    intro cs d hd
    unfold declared at hd
    obtain ⟨n, hn, hd⟩ := mem_declaredAll.1 hd
    exact ih n hn cs d hd
  | conditional _ _ h ih =>
    intro cs d hd
    unfold declared at hd
    rcases List.mem_append.1 hd with hd | hd
    · obtain ⟨a, ha, rfl⟩ := List.mem_map.1 hd
      exact h a ha
    · obtain ⟨n, hn, hd⟩ := mem_declaredAll.1 hd
      exact ih n hn _ d hd
  | _ => intro cs d hd; simp [declared] at hd

theorem clean_args {P : Fns} {A B : List Bytes} {L : Syntax} {ρ : Rule P} {text : Bool} {contents : List Any} (dl : Nat → List Value)
    (h1 : ∀ v ∈ contents, SafeArg v ∨ ∃ n, v = .node n) (h2 : ∀ n ∈ nodesIn contents, Clean P A B L ρ text n) :
    ∀ n ∈ contents.map (asNode dl), Clean P A B L ρ text n := by
  intro n hn
  obtain ⟨v, hv, rfl⟩ := List.mem_map.1 hn
  rcases h1 v hv with h | ⟨m, rfl⟩
  · have : asNode dl v = .text (newValues dl [v]) := by
      cases v <;> first | rfl | exact h.elim
    rw [this]
    exact .text (safe_newValues dl [v] (by simpa using h))
  · exact h2 m (List.mem_filterMap.2 ⟨_, hv, rfl⟩)

theorem clean_attrs {P : Fns} {A B : List Bytes} {L : Syntax} {ρ : Rule P} {text : Bool} {contents : List Any} (dl : Nat → List Value)
    (h2 : ∀ n ∈ nodesIn contents, Clean P A B L ρ text n) :
    ∀ d ∈ declaredAll [] (contents.map (asNode dl)), AttrClean B L ρ d.1 := by
  intro d hd
  obtain ⟨n, hn, hd⟩ := mem_declaredAll.1 hd
  obtain ⟨v, hv, rfl⟩ := List.mem_map.1 hn
  by_cases h : ∃ m, v = .node m
  · obtain ⟨m, rfl⟩ := h
    exact clean_declared (h2 m (List.mem_filterMap.2 ⟨_, hv, rfl⟩)) [] d hd
  · have : asNode dl v = .text (newValues dl [v]) := by
      cases v <;> first | rfl | exact (h ⟨_, rfl⟩).elim
    rw [this] at hd
    simp [declared] at hd

theorem clean_head {A B : List Bytes} {L : Syntax} {P : Fns} {ρ : Rule P} {name : Bytes} {ns : List Node} {e : ElemHead} (hn : name ∈ A)
    (h : ∀ d ∈ declaredAll [] ns, AttrClean B L ρ d.1) (hm : Merged (staticAttrs ns) e)
    (hc : e.conditionals = (attributesAndContents ns).2.1) (he : e.name = name) : HeadClean A B L ρ e := by
  refine ⟨hm.wf, he ▸ hn, fun a ha => ?_, fun ca hca => ?_⟩
  · have := chosen_mem (hm.att a ha)
    have := (List.mem_filter.1 this).1
    obtain ⟨d, hd, rfl⟩ := List.mem_map.1 this
    exact h d (List.mem_filter.1 hd).1
  · rw [hc] at hca
    have hmem := List.mem_map_of_mem (f := (·.att)) hca
    rw [(attributesAndContents_shape ns).2.1] at hmem
    obtain ⟨ca', hca', hx'⟩ := List.mem_map.1 hmem
    obtain ⟨d, hd, rfl⟩ := List.mem_map.1 hca'
    rw [← hx']
    exact h d (List.mem_filter.1 hd).1

theorem clean_newElement {P : Fns} {A B : List Bytes} {L : Syntax} {ρ : Rule P} {name : Bytes} {contents : List Any} {h : Heap} (text : Bool)
    (hn : name ∈ A) (ht : text = true ↔ lower name ∈ textNames) (h1 : ∀ v ∈ contents, SafeArg v ∨ ∃ n, v = .node n)
    (h2 : ∀ n ∈ nodesIn contents, Clean P A B L ρ text n) : Clean P A B L ρ false (NewElement name contents h).1 := by
  obtain ⟨e, dl, e1, e2⟩ := newElement_eq name contents h
  have hm := addAttributes_merged (staticAttrs (contents.map (asNode h.dl))) name
    (attributesAndContents (contents.map (asNode h.dl))).2.1 h.dl
  rw [e2] at hm
  rw [e1]
  refine .element text (clean_head hn (clean_attrs h.dl h2) hm.1 hm.2.2 hm.2.1) (by rw [hm.2.1]; exact ht) ?_ ?_
  · intro n hn; simpa using (List.mem_filter.1 hn).2
  · intro n hn; exact clean_args h.dl h1 h2 n (List.mem_filter.1 hn).1

theorem clean_newVoidElement {P : Fns} {A B : List Bytes} {L : Syntax} {ρ : Rule P} {name : Bytes} {contents : List Any} {h : Heap}
    (hL : L = .html) (hn : name ∈ A) (ht : lower name ∉ textNames)
    (h2 : ∀ n ∈ nodesIn contents, Clean P A B L ρ false n) : Clean P A B L ρ false (NewVoidElement name contents h).1 := by
  obtain ⟨e, dl, e1, e2⟩ := newVoidElement_eq name contents h
  have hm := addAttributes_merged (staticAttrs (contents.map (asNode h.dl))) name
    (attributesAndContents (contents.map (asNode h.dl))).2.1 h.dl
  rw [e2] at hm
  rw [e1]
  exact .voidElement hL (clean_head hn (clean_attrs h.dl h2) hm.1 hm.2.2 hm.2.1) (by rw [hm.2.1]; exact ht)

theorem condSplit_mem : {nodes : List (Option Node)} → {ns : List Node} → {as : List Attr} →
    condSplit nodes = .val (ns, as) →
    (∀ n ∈ ns, n.isAttr = false ∧ some n ∈ nodes) ∧ ∀ a ∈ as, some (.attr a) ∈ nodes
  | [], ns, as, h => by cases h; simp
  | none :: _, _, _, h => by simp [condSplit] at h
  | some n :: rest, ns, as, h => by
    unfold condSplit at h
    split at h
    · cases h
    · rename_i ns' as' hr
      have ih := condSplit_mem hr
      split at h
      · cases h
        refine ⟨fun m hm => ⟨(ih.1 m hm).1, .tail _ (ih.1 m hm).2⟩, fun b hb => ?_⟩
        rcases List.mem_cons.1 hb with rfl | hb
        · exact .head _
        · exact .tail _ (ih.2 b hb)
      · rename_i hna
        cases h
        refine ⟨fun m hm => ?_, fun b hb => .tail _ (ih.2 b hb)⟩
        rcases List.mem_cons.1 hm with rfl | hm
        · refine ⟨?_, .head _⟩
          cases m <;> first | rfl | exact (hna _ rfl).elim
        · exact ⟨(ih.1 m hm).1, .tail _ (ih.1 m hm).2⟩

theorem iterSplit_mem : {nodes : List (Option Node)} → {ns : List Node} → iterSplit nodes = .val ns →
    ∀ n ∈ ns, n.isAttr = false ∧ some n ∈ nodes
  | [], ns, h => by cases h; simp
  | none :: _, _, h => by simp [iterSplit] at h
  | some n :: rest, ns, h => by
    unfold iterSplit at h
    split at h
    · cases h
    · rename_i ns' hr
      have ih := iterSplit_mem hr
      split at h
      · cases h; exact fun m hm => ⟨(ih m hm).1, .tail _ (ih m hm).2⟩
      · rename_i hna
        cases h
        intro m hm
        rcases List.mem_cons.1 hm with rfl | hm
        · exact ⟨by simpa using hna, .head _⟩
        · exact ⟨(ih m hm).1, .tail _ (ih m hm).2⟩

theorem clean_mkConditional {P : Fns} {A B : List Bytes} {L : Syntax} {ρ : Rule P} {text : Bool} {fn : Cond} {nodes : List (Option Node)} {n : Node}
    (h : ∀ n, some n ∈ nodes → Clean P A B L ρ text n) (e : mkConditional fn nodes = .val n) : Clean P A B L ρ text n := by
  unfold mkConditional at e
  split at e
  · cases e
  · rename_i ns as hs
    cases e
    have := condSplit_mem hs
    refine .conditional (fun n hn => (this.1 n hn).1) (fun n hn => h n (this.1 n hn).2) fun a ha => ?_
    cases h _ (this.2 a ha) with
    | attr h => exact h

theorem clean_collection {P : Fns} {A B : List Bytes} {L : Syntax} {ρ : Rule P} {text : Bool} {nodes : List (Option Node)}
    (h : ∀ n, some n ∈ nodes → Clean P A B L ρ text n) : Clean P A B L ρ text (Collection nodes) :=
  .collection fun n hn => h n (by simpa using hn)

/-- The attribute that a declaration makes is allowed. -/
def Rule.Allows {P : Fns} (ρ : Rule P) : Decl → Prop
  | .plain n vs => ∀ dl, ρ.ok (.plain n (newValues dl vs))
  | .boolean n => ρ.ok (.bool n)
  | .delimited n d _ => ∀ r, ρ.ok (.delim n d r)

theorem tidyWith_clean {P : Fns} {A B : List Bytes} {L : Syntax} {K : Decl → Prop} {ρ : Rule P} (hK : ∀ d, K d → ρ.Allows d)
    {text : Bool} {n : Node} (h : TidyWith P A B L K text n) : Clean P A B L ρ text n := by
  induction h with
  | newElement name contents h h1 h2 h3 _ ih => exact clean_newElement false h1 ⟨by simp, fun h => (h2 h).elim⟩ h3 ih
  | newTextElement name contents h h1 h2 h3 _ ih => exact clean_newElement true h1 ⟨fun _ => h2, fun _ => rfl⟩ h3 ih
  | newVoidElement name contents h hL h1 h2 _ ih => exact clean_newVoidElement hL h1 h2 ih
  | newAttribute text dl name values h1 hk h2 => exact .attr ⟨h1, hK _ hk dl, safe_newValues dl values h2⟩
  | newBooleanAttribute text name hL h1 hk => exact .attr ⟨h1, hK _ hk, hL⟩
  | newDelimitedAttribute text name d values h h1 hk h2 _ => exact .attr ⟨h1, hK _ hk _, esc_of_markupSafe d h2⟩
  | text text dl contents h => exact .text (safe_newValues dl contents h)
  | fragment text dl contents h => exact .fragment (safe_newValues dl contents h)
  | comment dl contents hL h => exact .comment hL (safe_newValues dl contents h)
  | docType dl hL => exact .docType hL (safe_newValues dl _ (by simp [SafeArg, SafeData]))
  | collection text nodes _ ih => exact clean_collection ih
  | contentCollect text f _ ih => exact .collector ih
  | conditional text fn nodes n _ e ih =>
    unfold Conditional at e
    split at e
    · cases e; exact clean_collection ih
    · exact clean_mkConditional ih e
  | when text key nodes n _ e ih =>
    unfold When at e
    split at e
    · exact clean_mkConditional ih e
    · split at e <;> exact clean_mkConditional ih e
  | iterate text fn nodes n _ e ih =>
    unfold Iterate at e
    split at e
    · cases e
    · split at e
      · cases e
      · rename_i ns hs
        cases e
        have := iterSplit_mem hs
        exact .iterator (fun n hn => (this n hn).1) fun n hn => ih n (this n hn).2
  | iterateKey text key nodes n _ e ih =>
    unfold IterateKey at e
    split at e
    · cases e
    · rename_i ns hs
      cases e
      have := iterSplit_mem hs
      exact .iterator (fun n hn => (this n hn).1) fun n hn => ih n (this n hn).2
  | iterateYield text fn nodes n _ e ih =>
    unfold IterateYield at e
    split at e
    · cases e
    · split at e
      · cases e
      · rename_i ns hs
        cases e
        have := iterSplit_mem hs
        exact .yieldIterator (fun n hn => (this n hn).1) fun n hn => ih n (this n hn).2
  | imperative f h1 _ h3 _ h5 ih2 ih4 => exact .imperative h1 ih2 h3 ih4 h5
  | document lang head body h hL hhtml hhead hbody hlang hk h1 h2 _ _ ih1 ih2 =>
    have hlangA : ∀ n, langArg h.dl lang = .node n → Clean P A B L ρ false n := by
      intro n hn
      cases lang <;> simp only [langArg, Any.node.injEq, reduceCtorEq] at hn <;>
        (subst hn; exact .attr ⟨hlang, hK _ hk _, safe_newValues _ _ (by simpa using h1)⟩)
    have hheadA : ∀ n, (headArg head h).1 = .node n → Clean P A B L ρ false n := by
      intro n hn
      unfold headArg at hn
      split at hn
      · cases hn
      · simp only [Any.node.injEq] at hn
        subst hn
        exact clean_newElement false hhead ⟨by simp, by decide⟩ (fun v hv => h2 v (List.mem_append_left _ hv)) ih1
    have hargs : ∀ v, v = langArg h.dl lang ∨ v = (headArg head h).1 → SafeArg v ∨ ∃ n, v = .node n := by
      rintro v (rfl | rfl)
      · cases lang <;> first | exact .inr ⟨_, rfl⟩ | exact .inl trivial
      · unfold headArg
        split
        · exact .inl trivial
        · exact .inr ⟨_, rfl⟩
    have hbodyA : Clean P A B L ρ false (Body body (headArg head h).2).1 :=
      clean_newElement false hbody ⟨by simp, by decide⟩ (fun v hv => h2 v (List.mem_append_right _ hv)) ih2
    have hhtmlA : ∀ h', Clean P A B L ρ false
        (Html [langArg h.dl lang, (headArg head h).1, .node (Body body (headArg head h).2).1] h').1 := by
      intro h'
      refine clean_newElement false hhtml ⟨by simp, by decide⟩ ?_ ?_
      · intro v hv
        simp only [List.mem_cons, List.not_mem_nil, or_false] at hv
        rcases hv with hv | hv | hv
        · exact hargs v (.inl hv)
        · exact hargs v (.inr hv)
        · exact .inr ⟨_, hv⟩
      · intro n hn
        obtain ⟨x, hx, e⟩ := List.mem_filterMap.1 hn
        split at e
        · rename_i m
          cases e
          simp only [List.mem_cons, List.not_mem_nil, or_false] at hx
          rcases hx with hx | hx | hx
          · exact hlangA n hx.symm
          · exact hheadA n hx.symm
          · cases hx; exact hbodyA
        · simp at e
    unfold Document
    refine .document ?_ ?_
    · intro n hn
      simp only [Option.toList, List.cons_append, List.nil_append, List.mem_cons, List.not_mem_nil, or_false] at hn
      rcases hn with rfl | rfl
      · rfl
      · obtain ⟨e, dl, e1, _⟩ := newElement_eq b%"html"
          [langArg h.dl lang, (headArg head h).1, .node (Body body (headArg head h).2).1] (Body body (headArg head h).2).2
        unfold Html
        rw [e1]; rfl
    · intro n hn
      simp only [Option.toList, List.cons_append, List.nil_append, List.mem_cons, List.not_mem_nil, or_false] at hn
      rcases hn with rfl | rfl
      · exact .docType hL (safe_newValues _ _ (by simp [SafeArg, SafeData]))
      · exact hhtmlA _

theorem tidy_clean {P : Fns} {A B : List Bytes} {L : Syntax} {text : Bool} {n : Node} (h : Tidy P A B L text n) :
    Clean P A B L (Rule.any P) text n :=
  tidyWith_clean (fun d _ => by cases d <;> simp [Rule.Allows, Rule.any]) h

theorem tidy_built {P : Fns} {A B : List Bytes} {L : Syntax} {K : Decl → Prop} {text : Bool} {n : Node}
    (h : TidyWith P A B L K text n) : Built n := by
  induction h with
  | newElement name contents h _ _ _ _ ih => exact .newElement name contents h ih
  | newTextElement name contents h _ _ _ _ ih => exact .newElement name contents h ih
  | newVoidElement name contents h _ _ _ _ ih => exact .newVoidElement name contents h ih
  | newAttribute text dl name values => exact .newAttribute dl name values
  | newBooleanAttribute text name => exact .newBooleanAttribute name
  | newDelimitedAttribute text name d values h => exact .newDelimitedAttribute name d values h
  | text text dl contents => exact .text dl contents
  | fragment text dl contents => exact .fragment dl contents
  | comment dl contents => exact .comment dl contents
  | docType dl => exact .pi dl _ _
  | collection text nodes _ ih => exact .collection nodes ih
  | contentCollect text f => exact .contentCollect (some f)
  | conditional text fn nodes n _ e ih => exact .conditional fn nodes n ih e
  | when text key nodes n _ e ih => exact .when key nodes n ih e
  | iterate text fn nodes n _ e ih => exact .iterate fn nodes n ih e
  | iterateKey text key nodes n _ e ih => exact .iterateKey key nodes n ih e
  | iterateYield text fn nodes n _ e ih => exact .iterateYield fn nodes n ih e
  | imperative f => exact .imperative (some f)
  | document lang head body h _ _ _ _ _ _ _ _ _ _ ih1 ih2 => exact .document lang head body h ih1 ih2

/-! ### Reading trees -/

/-- The tags of an item have allowed names. -/
def TokWithin (A B : List Bytes) : Tok → Prop
  | .start name attrs _ => name ∈ A.map lower ∧ ∀ a ∈ attrs, a.1 ∈ B.map lower
  | .close name => name ∈ A.map lower
  | _ => True

theorem startTok_within {A B : List Bytes} {name : Bytes} {attrs : List (Bytes × Option Bytes)} (h1 : name ∈ A)
    (h2 : ∀ a ∈ attrs, a.1 ∈ B) : TokWithin A B (startTok name attrs) := by
  refine ⟨List.mem_map_of_mem h1, fun a ha => ?_⟩
  obtain ⟨b, hb, rfl⟩ := List.mem_map.1 ha
  exact List.mem_map_of_mem (h2 b hb)

mutual
theorem toks_within {A B : List Bytes} : (raw : Bool) → (t : Tree) → Within A B t → ∀ k ∈ toks raw t, TokWithin A B k
  | raw, .element name attrs children, h => by
    intro k hk
    unfold toks at hk
    rcases List.mem_append.1 hk with hk | hk
    · rcases List.mem_cons.1 hk with rfl | hk
      · exact startTok_within h.1 h.2.1
      · exact toksAll_within _ children h.2.2 k hk
    · rw [List.mem_singleton] at hk
      subst hk
      exact List.mem_map_of_mem h.1
  | raw, .void name attrs, h => by
    intro k hk
    unfold toks at hk
    rw [List.mem_singleton] at hk
    subst hk
    exact startTok_within h.1 h.2
  | raw, .text s, _ => by
    intro k hk
    unfold toks at hk
    obtain ⟨c, _, rfl⟩ := List.mem_map.1 hk
    trivial
  | raw, .comment s, _ => by
    intro k hk
    unfold toks at hk
    rw [List.mem_singleton] at hk
    subst hk
    trivial
  | raw, .doctype s, _ => by
    intro k hk
    unfold toks at hk
    simp only [List.mem_cons, List.not_mem_nil, or_false] at hk
    rcases hk with rfl | rfl <;> trivial
theorem toksAll_within {A B : List Bytes} : (raw : Bool) → (ts : List Tree) → WithinAll A B ts →
    ∀ k ∈ toksAll raw ts, TokWithin A B k
  | _, [], _ => by simp [toksAll]
  | raw, t :: ts, h => by
    intro k hk
    unfold toksAll at hk
    rcases List.mem_append.1 hk with hk | hk
    · exact toks_within raw t h.1 k hk
    · exact toksAll_within raw ts h.2 k hk
end

theorem mem_addText {i : Item} (hi : ∀ t, i ≠ .text t) {s : Bytes} {l : List Item} (h : i ∈ addText s l) : i ∈ l := by
  cases s with
  | nil => cases l <;> exact h
  | cons c s =>
    cases l with
    | nil => simp [addText] at h; exact (hi _ h).elim
    | cons j l =>
      cases j with
      | text t =>
        simp only [addText, List.mem_cons] at h
        rcases h with h | h
        · exact (hi _ h).elim
        · exact .tail _ h
      | _ =>
        simp only [addText, List.mem_cons] at h
        rcases h with h | h
        · exact (hi _ h).elim
        · simpa using h

theorem items_start {name : Bytes} {attrs : List (Bytes × Bytes)} {sc : Bool} {ks : List Tok}
    (h : .start name attrs sc ∈ items ks) : .start name attrs sc ∈ ks := by
  induction ks with
  | nil => simp [items] at h
  | cons k ks ih =>
    cases k with
    | char c =>
      unfold items at h
      exact .tail _ (ih (mem_addText (by simp) h))
    | start n a s =>
      unfold items at h
      rcases List.mem_cons.1 h with h | h
      · cases h; exact .head _
      · exact .tail _ (ih h)
    | _ =>
      unfold items at h
      rcases List.mem_cons.1 h with h | h
      · cases h
      · exact .tail _ (ih h)

theorem items_close {name : Bytes} {ks : List Tok} (h : .close name ∈ items ks) : .close name ∈ ks := by
  induction ks with
  | nil => simp [items] at h
  | cons k ks ih =>
    cases k with
    | char c =>
      unfold items at h
      exact .tail _ (ih (mem_addText (by simp) h))
    | close n =>
      unfold items at h
      rcases List.mem_cons.1 h with h | h
      · cases h; exact .head _
      · exact .tail _ (ih h)
    | _ =>
      unfold items at h
      rcases List.mem_cons.1 h with h | h
      · cases h
      · exact .tail _ (ih h)

end Aitch
