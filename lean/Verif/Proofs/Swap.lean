import Verif.Spec.Swap
import Verif.Proofs.Built
/-
Exchanging parts with the same output does not change the output.
-/
namespace Aitch
open Spec

section
variable (n₁ n₂ : Node)

mutual
/-- Two nodes that differ in some places inside, where the first has `n₁` and the second `n₂`. -/
inductive Like : Node → Node → Prop
  | here : Like n₁ n₂
  | refl (n) : Like n n
  | element (h) {as bs} : LikeAll as bs → Like (.element h as) (.element h bs)
  | collection {as bs} : LikeAll as bs → Like (.collection as) (.collection bs)
  | conditional (xs fn) {as bs} : LikeAll as bs → Like (.conditional as xs fn) (.conditional bs xs fn)
  | iterator (fn) {as bs} : LikeAll as bs → Like (.iterator as fn) (.iterator bs fn)
  | yieldIterator (f) {as bs} : LikeAll as bs → Like (.yieldIterator as f) (.yieldIterator bs f)
  | document (p) {as bs} : LikeAll as bs → Like (.document p as) (.document p bs)
inductive LikeAll : List Node → List Node → Prop
  | nil : LikeAll [] []
  | cons {a b as bs} : Like a b → LikeAll as bs → LikeAll (a :: as) (b :: bs)
end
end

variable {n₁ n₂ : Node}

theorem likeAll_refl : (ns : List Node) → LikeAll n₁ n₂ ns ns
  | [] => .nil
  | n :: ns => .cons (.refl n) (likeAll_refl ns)

mutual
theorem Like.symm : {a b : Node} → Like n₁ n₂ a b → Like n₂ n₁ b a
  | _, _, .here => .here
  | _, _, .refl n => .refl n
  | _, _, .element h hs => .element h hs.symm
  | _, _, .collection hs => .collection hs.symm
  | _, _, .conditional xs fn hs => .conditional xs fn hs.symm
  | _, _, .iterator fn hs => .iterator fn hs.symm
  | _, _, .yieldIterator f hs => .yieldIterator f hs.symm
  | _, _, .document p hs => .document p hs.symm
theorem LikeAll.symm : {as bs : List Node} → LikeAll n₁ n₂ as bs → LikeAll n₂ n₁ bs as
  | _, _, .nil => .nil
  | _, _, .cons h hs => .cons h.symm hs.symm
end

/-! ### Splitting contents -/

/-- The result of splitting, up to exchanged contents. -/
structure LikeSplit (n₁ n₂ : Node) (a b : Split) : Prop where
  attrs : a.attrs = b.attrs
  condAttrs : a.condAttrs = b.condAttrs
  contents : LikeAll n₁ n₂ a.contents b.contents

theorem LikeAll.append {as bs cs ds : List Node} (h : LikeAll n₁ n₂ as bs) (h' : LikeAll n₁ n₂ cs ds) :
    LikeAll n₁ n₂ (as ++ cs) (bs ++ ds) := by
  cases h with
  | nil => exact h'
  | cons h hs => exact .cons h (hs.append h')

theorem LikeSplit.append {a b c d : Split} (h : LikeSplit n₁ n₂ a b) (h' : LikeSplit n₁ n₂ c d) :
    LikeSplit n₁ n₂ (a.append c) (b.append d) :=
  ⟨by simp only [Split.append]; rw [h.attrs, h'.attrs], by simp only [Split.append]; rw [h.condAttrs, h'.condAttrs],
    h.contents.append h'.contents⟩

mutual
theorem splitItem_quiet : (n : Node) → declared [] n = [] → condCount n = 0 → (s : CondSlice) → (hp : CondHeap) →
    splitItem s n hp = ({ contents := [n] }, hp)
  | .attr _, h, _, _, _ => by simp [declared] at h
  | .collection ns, h, hc, s, hp => by
    have ih := splitItems_quiet ns (by simpa [declared] using h) (by simpa [condCount] using hc) s hp
    simp only [splitItem]
    rw [ih.2.2, ih.1, ih.2.1]
  | .conditional .., _, hc, _, _ => by simp [condCount] at hc
  | .element .., _, _, _, _ => rfl
  | .voidElement .., _, _, _, _ => rfl
  | .text .., _, _, _, _ => rfl
  | .comment .., _, _, _, _ => rfl
  | .fragment .., _, _, _, _ => rfl
  | .pi .., _, _, _, _ => rfl
  | .collector .., _, _, _, _ => rfl
  | .imperative .., _, _, _, _ => rfl
  | .iterator .., _, _, _, _ => rfl
  | .yieldIterator .., _, _, _, _ => rfl
  | .document .., _, _, _, _ => rfl
theorem splitItems_quiet : (ns : List Node) → declaredAll [] ns = [] → condCountAll ns = 0 → (s : CondSlice) →
    (hp : CondHeap) →
    (splitItems s ns hp).1.attrs = [] ∧ (splitItems s ns hp).1.condAttrs = [] ∧ (splitItems s ns hp).2 = hp
  | [], _, _, _, _ => ⟨rfl, rfl, rfl⟩
  | n :: ns, h, hc, s, hp => by
    simp only [declaredAll, List.append_eq_nil_iff] at h
    simp only [condCountAll] at hc
    have h1 := splitItem_quiet n h.1 (by omega) s hp
    have h2 := splitItems_quiet ns h.2 (by omega) s hp
    simp only [splitItems, h1]
    exact ⟨by simp [Split.append, h2.1], by simp [Split.append, h2.2.1], h2.2.2⟩
end

theorem splitItem_inert {n : Node} (o : Inert n) (s : CondSlice) (hp : CondHeap) :
    splitItem s n hp = ({ contents := [n] }, hp) := splitItem_quiet n o.2.1 o.2.2 s hp

section
variable (o₁ : Inert n₁) (o₂ : Inert n₂)
include o₁ o₂

set_option linter.unusedSectionVars false in
mutual
theorem splitItem_like : {a b : Node} → Like n₁ n₂ a b → (s : CondSlice) → (hp : CondHeap) →
    LikeSplit n₁ n₂ (splitItem s a hp).1 (splitItem s b hp).1 ∧ (splitItem s a hp).2 = (splitItem s b hp).2
  | _, _, .here, s, hp => by
    rw [splitItem_inert o₁, splitItem_inert o₂]
    exact ⟨⟨rfl, rfl, .cons .here .nil⟩, rfl⟩
  | _, _, .refl n, s, hp => ⟨⟨rfl, rfl, likeAll_refl _⟩, rfl⟩
  | _, _, .element h hs, s, hp => ⟨⟨rfl, rfl, .cons (.element h hs) .nil⟩, rfl⟩
  | _, _, .collection hs, s, hp => by
    have ih := splitItems_like hs s hp
    simp only [splitItem]
    exact ⟨⟨ih.1.attrs, ih.1.condAttrs, .cons (.collection hs) .nil⟩, ih.2⟩
  | _, _, .conditional xs fn hs, s, hp => by
    have ih := splitItems_like hs (condAppend s fn hp).1 (condAppend s fn hp).2
    simp only [splitItem]
    refine ⟨⟨rfl, ?_, .cons (.conditional xs fn hs) .nil⟩, ih.2⟩
    rw [ih.1.condAttrs]
  | _, _, .iterator fn hs, s, hp => ⟨⟨rfl, rfl, .cons (.iterator fn hs) .nil⟩, rfl⟩
  | _, _, .yieldIterator f hs, s, hp => ⟨⟨rfl, rfl, .cons (.yieldIterator f hs) .nil⟩, rfl⟩
  | _, _, .document p hs, s, hp => ⟨⟨rfl, rfl, .cons (.document p hs) .nil⟩, rfl⟩
theorem splitItems_like : {as bs : List Node} → LikeAll n₁ n₂ as bs → (s : CondSlice) → (hp : CondHeap) →
    LikeSplit n₁ n₂ (splitItems s as hp).1 (splitItems s bs hp).1 ∧ (splitItems s as hp).2 = (splitItems s bs hp).2
  | _, _, .nil, s, hp => ⟨⟨rfl, rfl, .nil⟩, rfl⟩
  | _, _, .cons (a := a) h hs, s, hp => by
    have h1 := splitItem_like h s hp
    have h2 := splitItems_like hs s (splitItem s a hp).2
    simp only [splitItems]
    rw [← h1.2]
    exact ⟨h1.1.append h2.1, h2.2⟩
end
end

section
variable (o₁ : n₁.isAttr = false) (o₂ : n₂.isAttr = false)
include o₁ o₂

theorem Like.isAttr {a b : Node} (h : Like n₁ n₂ a b) : a.isAttr = b.isAttr := by
  cases h with
  | here =>
    rw [o₁, o₂]
  | _ => rfl

omit o₂ in
theorem Like.attr {x : Attr} {b : Node} (h : Like n₁ n₂ (.attr x) b) : b = .attr x := by
  cases h with
  | here => exact absurd o₁ (by simp [Node.isAttr, Node.type])
  | refl => rfl

theorem LikeAll.filter {as bs : List Node} (h : LikeAll n₁ n₂ as bs) :
    LikeAll n₁ n₂ (as.filter fun n => !n.isAttr) (bs.filter fun n => !n.isAttr) := by
  cases h with
  | nil => exact .nil
  | cons h hs =>
    rw [List.filter_cons, List.filter_cons, h.isAttr o₁ o₂]
    split
    · exact .cons h hs.filter
    · exact hs.filter

/-- Splitting the contents of an element separates the same attributes, and contents that are alike. -/
def Splits (apart : Prop) (n₁ n₂ : Node) : Prop :=
  ∀ {as bs : List Node}, LikeAll n₁ n₂ as bs → (apart → SeparateAll 0 as ∧ SeparateAll 0 bs) →
    (attributesAndContents as).1 = (attributesAndContents bs).1 ∧
    (attributesAndContents as).2.1 = (attributesAndContents bs).2.1 ∧
    LikeAll n₁ n₂ (attributesAndContents as).2.2 (attributesAndContents bs).2.2

omit o₁ o₂ in
theorem splits_inert (i₁ : Inert n₁) (i₂ : Inert n₂) : Splits False n₁ n₂ := by
  intro as bs h _
  have hs := splitItems_like i₁ i₂ h ⟨0, 0, 0⟩ ⟨fun _ => [], 1⟩
  simp only [attributesAndContents]
  rw [hs.1.attrs, hs.1.condAttrs, hs.2]
  exact ⟨rfl, rfl, hs.1.contents⟩

omit o₁ o₂ in
mutual
theorem declared_under (cs : List Cond) : (n : Node) → (ds : List Cond) →
    declared (cs ++ ds) n = (declared ds n).map fun p => (p.1, cs ++ p.2)
  | .attr a, ds => rfl
  | .collection ns, ds => by
    simp only [declared]
    exact declaredAll_under cs ns ds
  | .conditional ns as fn, ds => by
    have ih := declaredAll_under cs ns (ds ++ [fn])
    simp only [declared, List.map_append, List.map_map]
    rw [← ih]
    simp [List.append_assoc, Function.comp_def]
  | .element .., _ => rfl
  | .voidElement .., _ => rfl
  | .text .., _ => rfl
  | .comment .., _ => rfl
  | .fragment .., _ => rfl
  | .pi .., _ => rfl
  | .collector .., _ => rfl
  | .imperative .., _ => rfl
  | .iterator .., _ => rfl
  | .yieldIterator .., _ => rfl
  | .document .., _ => rfl
theorem declaredAll_under (cs : List Cond) : (ns : List Node) → (ds : List Cond) →
    declaredAll (cs ++ ds) ns = (declaredAll ds ns).map fun p => (p.1, cs ++ p.2)
  | [], _ => rfl
  | n :: ns, ds => by
    simp only [declaredAll, List.map_append]
    rw [declared_under cs n ds, declaredAll_under cs ns ds]
end

section
variable (d : declared [] n₁ = declared [] n₂)
include d

set_option linter.unusedSectionVars false in
mutual
theorem declared_like : {a b : Node} → Like n₁ n₂ a b → (cs : List Cond) → declared cs a = declared cs b
  | _, _, .here, cs => by
    have h1 := declared_under cs n₁ []
    have h2 := declared_under cs n₂ []
    rw [List.append_nil] at h1 h2
    rw [h1, h2, d]
  | _, _, .refl n, cs => rfl
  | _, _, .element h hs, cs => rfl
  | _, _, .collection hs, cs => by
    simp only [declared]
    exact declaredAll_like hs cs
  | _, _, .conditional xs fn hs, cs => by
    simp only [declared]
    rw [declaredAll_like hs]
  | _, _, .iterator fn hs, cs => rfl
  | _, _, .yieldIterator f hs, cs => rfl
  | _, _, .document p hs, cs => rfl
theorem declaredAll_like : {as bs : List Node} → LikeAll n₁ n₂ as bs → (cs : List Cond) →
    declaredAll cs as = declaredAll cs bs
  | _, _, .nil, _ => rfl
  | _, _, .cons h hs, cs => by
    simp only [declaredAll]
    rw [declared_like h cs, declaredAll_like hs cs]
end

theorem splits_apart : Splits True n₁ n₂ := by
  intro as bs h hs
  obtain ⟨h1, h2⟩ := hs trivial
  obtain ⟨a1, -, a3⟩ := attributesAndContents_shape as
  obtain ⟨b1, -, b3⟩ := attributesAndContents_shape bs
  rw [a1, b1, a3, b3, attributesAndContents_conds h1, attributesAndContents_conds h2]
  have hd := declaredAll_like o₁ o₂ d h []
  refine ⟨?_, ?_, h.filter o₁ o₂⟩
  · simp only [staticAttrs]; rw [hd]
  · simp only [condAttrs]; rw [hd]
end

omit o₁ o₂ in
theorem separateAll_args (dl : Nat → List Value) (as : List Any) :
    SeparateAll 0 (contentsToNodes dl as) ↔ SeparateAll 0 (nodesIn as) := by
  induction as with
  | nil => exact Iff.rfl
  | cons a as ih =>
    cases a with
    | node n => exact and_congr Iff.rfl ih
    | _ => exact Iff.trans ⟨fun h => h.2, fun h => ⟨trivial, h⟩⟩ ih

omit o₁ o₂ in
theorem apart_nodes {apart : Prop} {as bs : List Any} (h : apart → Apart as bs) (dl : Nat → List Value) (ha : apart) :
    SeparateAll 0 (contentsToNodes dl as) ∧ SeparateAll 0 (contentsToNodes dl bs) :=
  ⟨(separateAll_args dl as).2 (h ha).1, (separateAll_args dl bs).2 (h ha).2⟩

omit o₁ o₂ in
theorem newElement_like {apart : Prop} (hsp : Splits apart n₁ n₂) {as bs : List Any} {h : Heap}
    (hl : LikeAll n₁ n₂ (contentsToNodes h.dl as) (contentsToNodes h.dl bs))
    (ha : apart → SeparateAll 0 (contentsToNodes h.dl as) ∧ SeparateAll 0 (contentsToNodes h.dl bs)) (name : Bytes) :
    Like n₁ n₂ (NewElement name as h).1 (NewElement name bs h).1 ∧
      (NewElement name as h).2 = (NewElement name bs h).2 := by
  obtain ⟨h1, h2, h3⟩ := hsp hl ha
  simp only [NewElement]
  rw [h1, h2]
  exact ⟨.element _ h3, rfl⟩

omit o₁ o₂ in
theorem newVoidElement_like {apart : Prop} (hsp : Splits apart n₁ n₂) {as bs : List Any} {h : Heap}
    (hl : LikeAll n₁ n₂ (contentsToNodes h.dl as) (contentsToNodes h.dl bs))
    (ha : apart → SeparateAll 0 (contentsToNodes h.dl as) ∧ SeparateAll 0 (contentsToNodes h.dl bs)) (name : Bytes) :
    (NewVoidElement name as h).1 = (NewVoidElement name bs h).1 := by
  obtain ⟨h1, h2, -⟩ := hsp hl ha
  simp only [NewVoidElement]
  rw [h1, h2]

omit o₁ o₂ in
theorem likeAll_nodes {dl : Nat → List Value} {a b : Node} {as bs : List Any} (h : Like n₁ n₂ a b)
    (hs : LikeAll n₁ n₂ (contentsToNodes dl as) (contentsToNodes dl bs)) :
    LikeAll n₁ n₂ (contentsToNodes dl (.node a :: as)) (contentsToNodes dl (.node b :: bs)) := .cons h hs

/-- Nodes, some of them nil, that are alike. -/
inductive LikeOpts (n₁ n₂ : Node) : List (Option Node) → List (Option Node) → Prop
  | nil : LikeOpts n₁ n₂ [] []
  | none {as bs} : LikeOpts n₁ n₂ as bs → LikeOpts n₁ n₂ (none :: as) (none :: bs)
  | some {a b as bs} : Like n₁ n₂ a b → LikeOpts n₁ n₂ as bs → LikeOpts n₁ n₂ (some a :: as) (some b :: bs)

omit o₁ o₂ in
theorem LikeOpts.filterMap {as bs : List (Option Node)} (h : LikeOpts n₁ n₂ as bs) :
    LikeAll n₁ n₂ (as.filterMap id) (bs.filterMap id) := by
  induction h with
  | nil => exact .nil
  | none _ ih => exact ih
  | some h _ ih => exact .cons h ih

theorem condSplit_like {as bs : List (Option Node)} (h : LikeOpts n₁ n₂ as bs) {ns ms : List Node} {xs ys : List Attr}
    (h1 : condSplit as = .val (ns, xs)) (h2 : condSplit bs = .val (ms, ys)) : LikeAll n₁ n₂ ns ms ∧ xs = ys := by
  induction h generalizing ns ms xs ys with
  | nil => cases h1; cases h2; exact ⟨.nil, rfl⟩
  | none => cases h1
  | @some a b as bs h hs ih =>
    simp only [condSplit] at h1 h2
    cases e1 : condSplit as with
    | panic => rw [e1] at h1; cases h1
    | val r1 =>
      cases e2 : condSplit bs with
      | panic => rw [e2] at h2; cases h2
      | val r2 =>
        rw [e1] at h1
        rw [e2] at h2
        have ih := ih e1 e2
        have hat := h.isAttr o₁ o₂
        by_cases ha : ∃ x, a = .attr x
        · obtain ⟨x, rfl⟩ := ha
          have := h.attr o₁
          subst this
          cases h1; cases h2
          exact ⟨ih.1, by rw [ih.2]⟩
        · have hb : ¬ ∃ x, b = .attr x := by
            rintro ⟨x, rfl⟩
            exact ha ⟨x, h.symm.attr o₂⟩
          have k1 : ns = a :: r1.1 ∧ xs = r1.2 := by
            cases a with
            | attr x => exact absurd ⟨x, rfl⟩ ha
            | _ => cases h1; exact ⟨rfl, rfl⟩
          have k2 : ms = b :: r2.1 ∧ ys = r2.2 := by
            cases b with
            | attr x => exact absurd ⟨x, rfl⟩ hb
            | _ => cases h2; exact ⟨rfl, rfl⟩
          rw [k1.1, k1.2, k2.1, k2.2]
          exact ⟨.cons h ih.1, ih.2⟩

theorem iterSplit_like {as bs : List (Option Node)} (h : LikeOpts n₁ n₂ as bs) {ns ms : List Node}
    (h1 : iterSplit as = .val ns) (h2 : iterSplit bs = .val ms) : LikeAll n₁ n₂ ns ms := by
  induction h generalizing ns ms with
  | nil => cases h1; cases h2; exact .nil
  | none => cases h1
  | @some a b as bs h hs ih =>
    simp only [iterSplit] at h1 h2
    cases e1 : iterSplit as with
    | panic => rw [e1] at h1; cases h1
    | val r1 =>
      cases e2 : iterSplit bs with
      | panic => rw [e2] at h2; cases h2
      | val r2 =>
        rw [e1] at h1
        rw [e2] at h2
        have ih := ih e1 e2
        have hat := h.isAttr o₁ o₂
        simp only at h1 h2
        rw [← hat] at h2
        split at h1
        · next hh => rw [if_pos hh] at h2; cases h1; cases h2; exact ih
        · next hh => rw [if_neg hh] at h2; cases h1; cases h2; exact .cons h ih

theorem mkConditional_like {as bs : List (Option Node)} (h : LikeOpts n₁ n₂ as bs) {fn : Cond} {a b : Node}
    (h1 : mkConditional fn as = .val a) (h2 : mkConditional fn bs = .val b) : Like n₁ n₂ a b := by
  simp only [mkConditional] at h1 h2
  cases e1 : condSplit as with
  | panic => rw [e1] at h1; cases h1
  | val r1 =>
    cases e2 : condSplit bs with
    | panic => rw [e2] at h2; cases h2
    | val r2 =>
      rw [e1] at h1
      rw [e2] at h2
      obtain ⟨k1, k2⟩ := condSplit_like o₁ o₂ h e1 e2
      cases h1; cases h2
      rw [k2]
      exact .conditional _ _ k1

omit o₁ o₂ in
theorem swapArgs_nil {apart : Prop} {as bs : List Any} (h : SwapArgs apart n₁ n₂ as bs) : as = [] ↔ bs = [] := by
  cases h <;> simp

omit o₁ o₂ in
theorem headArg_like {apart : Prop} (hsp : Splits apart n₁ n₂) {as bs : List Any} {h : Heap}
    (hl : LikeAll n₁ n₂ (contentsToNodes h.dl as) (contentsToNodes h.dl bs)) (ha : apart → Apart as bs)
    (he : as = [] ↔ bs = []) :
    (∀ dl, LikeAll n₁ n₂ (contentsToNodes dl [(headArg as h).1]) (contentsToNodes dl [(headArg bs h).1])) ∧
      (headArg as h).2 = (headArg bs h).2 := by
  have ih := newElement_like hsp hl (apart_nodes ha h.dl) b%"head"
  cases as with
  | nil =>
    rw [he.1 rfl]
    exact ⟨fun _ => likeAll_refl _, rfl⟩
  | cons a as =>
    cases bs with
    | nil => exact absurd (he.2 rfl) (by simp)
    | cons b bs => exact ⟨fun _ => .cons ih.1 .nil, ih.2⟩

omit o₁ o₂ in
theorem separate_lang (dl dl' : Nat → List Value) (lang : Any) (head : List Any) (h : Heap) (h' : Heap) (body : List Any) :
    SeparateAll 0 (contentsToNodes dl [langArg dl' lang, (headArg head h).1, .node (NewElement b%"body" body h').1]) := by
  rw [separateAll_args]
  have h2 : SeparateAll 0 (nodesIn [(headArg head h).1, .node (NewElement b%"body" body h').1]) := by
    cases head with
    | nil => exact ⟨trivial, trivial⟩
    | cons a as => exact ⟨trivial, trivial, trivial⟩
  cases lang with
  | nil => exact h2
  | _ => exact ⟨trivial, h2⟩

omit o₁ o₂ in
theorem document_like {apart : Prop} (hsp : Splits apart n₁ n₂) {as bs cs ds : List Any} {h : Heap}
    (hl : LikeAll n₁ n₂ (contentsToNodes h.dl as) (contentsToNodes h.dl bs)) (he : as = [] ↔ bs = [])
    (hb : ∀ dl, LikeAll n₁ n₂ (contentsToNodes dl cs) (contentsToNodes dl ds))
    (ha : apart → Apart as bs ∧ Apart cs ds) (lang : Any) :
    Like n₁ n₂ (Document lang as cs h).1 (Document lang bs ds h).1 := by
  obtain ⟨h1, h2⟩ := headArg_like hsp hl (fun a => (ha a).1) he
  have h3 := newElement_like hsp (h := (headArg as h).2) (hb _) (apart_nodes (fun a => (ha a).2) _) b%"body"
  have h4 := newElement_like hsp (h := (NewElement b%"body" cs (headArg as h).2).2)
    (as := [langArg h.dl lang, (headArg as h).1, .node (NewElement b%"body" cs (headArg as h).2).1])
    (bs := [langArg h.dl lang, (headArg bs h).1, .node (NewElement b%"body" ds (headArg as h).2).1])
    (.cons (.refl _) ((h1 _).append (.cons h3.1 .nil)))
    (fun _ => ⟨separate_lang .., separate_lang ..⟩) b%"html"
  simp only [Document, Body, Html]
  rw [← h2, ← h3.2]
  exact .document _ (.cons h4.1 .nil)

section
variable {apart : Prop} (hsp : Splits apart n₁ n₂)
include hsp

set_option linter.unusedSectionVars false in
mutual
theorem swap_like : {a b : Node} → Swap apart n₁ n₂ a b → Like n₁ n₂ a b
  | _, _, .here => .here
  | _, _, .same _ => .refl _
  | _, _, .newElement name h hs ha => (newElement_like hsp (swapArgs_like hs h.dl) (apart_nodes ha h.dl) name).1
  | _, _, .newVoidElement name h hs ha => by
    rw [newVoidElement_like hsp (swapArgs_like hs h.dl) (apart_nodes ha h.dl) name]
    exact .refl _
  | _, _, .collection hs => .collection (swapNodes_like hs).filterMap
  | _, _, .conditional (fn := none) hs h1 h2 => by
    have ih := swapNodes_like hs
    cases h1; cases h2
    exact .collection ih.filterMap
  | _, _, .conditional (fn := some _) hs h1 h2 => by
    have ih := swapNodes_like hs
    exact mkConditional_like o₁ o₂ ih h1 h2
  | _, _, .when (key := key) hs h1 h2 => by
    have ih := swapNodes_like hs
    clear hs
    cases key with
    | nil => exact mkConditional_like o₁ o₂ ih h1 h2
    | cons x key =>
      simp only [When] at h1 h2
      split at h1
      · next hh => rw [if_pos hh] at h2; exact mkConditional_like o₁ o₂ ih h1 h2
      · next hh => rw [if_neg hh] at h2; exact mkConditional_like o₁ o₂ ih h1 h2
  | _, _, .iterate (fn := none) hs h1 h2 => by cases h1
  | _, _, .iterate (fn := some _) (as := as) (bs := bs) hs h1 h2 => by
    have ih := swapNodes_like hs
    clear hs
    simp only [Iterate] at h1 h2
    cases e1 : iterSplit as with
    | panic => rw [e1] at h1; cases h1
    | val r1 =>
      cases e2 : iterSplit bs with
      | panic => rw [e2] at h2; cases h2
      | val r2 =>
        rw [e1] at h1; rw [e2] at h2
        cases h1; cases h2
        exact .iterator _ (iterSplit_like o₁ o₂ ih e1 e2)
  | _, _, .iterateKey (as := as) (bs := bs) hs h1 h2 => by
    have ih := swapNodes_like hs
    clear hs
    simp only [IterateKey] at h1 h2
    cases e1 : iterSplit as with
    | panic => rw [e1] at h1; cases h1
    | val r1 =>
      cases e2 : iterSplit bs with
      | panic => rw [e2] at h2; cases h2
      | val r2 =>
        rw [e1] at h1; rw [e2] at h2
        cases h1; cases h2
        exact .iterator _ (iterSplit_like o₁ o₂ ih e1 e2)
  | _, _, .iterateYield (fn := none) hs h1 h2 => by cases h1
  | _, _, .iterateYield (fn := some _) (as := as) (bs := bs) hs h1 h2 => by
    have ih := swapNodes_like hs
    clear hs
    simp only [IterateYield] at h1 h2
    cases e1 : iterSplit as with
    | panic => rw [e1] at h1; cases h1
    | val r1 =>
      cases e2 : iterSplit bs with
      | panic => rw [e2] at h2; cases h2
      | val r2 =>
        rw [e1] at h1; rw [e2] at h2
        cases h1; cases h2
        exact .yieldIterator _ (iterSplit_like o₁ o₂ ih e1 e2)
  | _, _, .document lang h hs1 hs2 ha =>
    document_like hsp (swapArgs_like hs1 h.dl) (swapArgs_nil hs1) (swapArgs_like hs2) ha lang
theorem swapArgs_like : {as bs : List Any} → SwapArgs apart n₁ n₂ as bs → (dl : Nat → List Value) →
    LikeAll n₁ n₂ (contentsToNodes dl as) (contentsToNodes dl bs)
  | _, _, .nil, _ => .nil
  | _, _, .same _ hs, dl => .cons (.refl _) (swapArgs_like hs dl)
  | _, _, .node h hs, dl => .cons (swap_like h) (swapArgs_like hs dl)
theorem swapNodes_like : {as bs : List (Option Node)} → SwapNodes apart n₁ n₂ as bs → LikeOpts n₁ n₂ as bs
  | _, _, .nil => .nil
  | _, _, .none hs => .none (swapNodes_like hs)
  | _, _, .some h hs => .some (swap_like h) (swapNodes_like hs)
end
end

/-! ### What they write -/

section
variable {P : Fns} (hw : ∀ c w, c.frame.err = none → Out P c n₁ w → Out P c n₂ w)
include hw

omit o₁ o₂ hw in
theorem outItems_like {as bs : List Node} (h : ∀ c w, c.frame.err = none → OutAll P c as w → OutAll P c bs w)
    {c : Ctx} : {its : List Any} → {w : Bytes} → OutItems P c as its w → OutItems P c bs its w
  | _, _, .nil => .nil
  | _, _, .cons ho hs => .cons (h _ _ rfl ho) (outItems_like h hs)

omit o₁ o₂ hw in
theorem outYields_like {as bs : List Node} (h : ∀ c w, c.frame.err = none → OutAll P c as w → OutAll P c bs w)
    {c : Ctx} : {d : Option MapId} → {its : List Any} → {w : Bytes} → OutYields P c as d its w → OutYields P c bs d its w
  | _, _, _, .nil => .nil
  | _, _, _, .cons ho hs => .cons (h _ _ rfl ho) (outYields_like h hs)

set_option linter.unusedSectionVars false in
mutual
theorem out_like : {a b : Node} → Like n₁ n₂ a b → (c : Ctx) → (w : Bytes) → c.frame.err = none → Out P c a w → Out P c b w
  | _, _, .here, c, w, he, h => hw c w he h
  | _, _, .refl _, _, _, _, h => h
  | _, _, .element hd hs, c, w, he, h => by
    have ih := outAll_like hs
    cases h with
    | element ht ho => exact .element ht ((ih c _ he).1 ho)
  | _, _, .collection hs, c, w, he, h => by
    have ih := outAll_like hs
    cases h with
    | collection ho => exact .collection ((ih c _ he).2 ho)
  | _, _, .conditional xs fn hs, c, w, he, h => by
    have ih := outAll_like hs
    cases h with
    | conditionalOn hf ho => exact .conditionalOn hf ((ih c _ he).1 ho)
    | conditionalOff hf => exact .conditionalOff hf
  | _, _, .iterator fn hs, c, w, he, h => by
    have ih := outAll_like hs
    cases h with
    | iterator ho => exact .iterator (outItems_like (fun c w he => (ih c w he).1) ho)
  | _, _, .yieldIterator f hs, c, w, he, h => by
    have ih := outAll_like hs
    cases h with
    | yieldIterator ho => exact .yieldIterator (outYields_like (fun c w he => (ih c w he).1) ho)
  | _, _, .document p hs, c, w, he, h => by
    have ih := outAll_like hs
    cases h with
    | document ho =>
      cases p with
      | none => exact .document ((ih c _ he).1 ho)
      | some p =>
        cases ho with
        | cons h1 h2 => exact .document (.cons h1 ((ih c _ he).1 h2))
theorem outAll_like : {as bs : List Node} → LikeAll n₁ n₂ as bs → (c : Ctx) → (w : Bytes) → c.frame.err = none →
    (OutAll P c as w → OutAll P c bs w) ∧
      (OutAll P c (as.filter fun n => !n.isAttr) w → OutAll P c (bs.filter fun n => !n.isAttr) w)
  | _, _, .nil, _, _, _ => ⟨id, id⟩
  | _, _, .cons h hs, c, w, he => by
    have h1 := out_like h c
    have h2 := outAll_like hs c
    refine ⟨fun ho => ?_, fun ho => ?_⟩
    · cases ho with
      | cons g1 g2 => exact .cons (h1 _ he g1) ((h2 _ he).1 g2)
    · rw [List.filter_cons] at ho ⊢
      rw [← h.isAttr o₁ o₂]
      split at ho
      · next hh =>
        rw [if_pos hh]
        cases ho with
        | cons g1 g2 => exact .cons (h1 _ he g1) ((h2 _ he).2 g2)
      · next hh =>
        rw [if_neg hh]
        exact (h2 _ he).2 ho
end
end
end

/-! ### Exchanging keeps things built -/

variable {apart : Prop}

mutual
theorem swap_built (b₁ : Built n₁) : {a b : Node} → Swap apart n₁ n₂ a b → Built a
  | _, _, .here => b₁
  | _, _, .same b => b
  | _, _, .newElement name h hs _ => .newElement _ _ _ (swapArgs_built b₁ hs)
  | _, _, .newVoidElement name h hs _ => .newVoidElement _ _ _ (swapArgs_built b₁ hs)
  | _, _, .collection hs => .collection _ (swapNodes_built b₁ hs)
  | _, _, .conditional hs h1 _ => .conditional _ _ _ (swapNodes_built b₁ hs) h1
  | _, _, .when hs h1 _ => .when _ _ _ (swapNodes_built b₁ hs) h1
  | _, _, .iterate hs h1 _ => .iterate _ _ _ (swapNodes_built b₁ hs) h1
  | _, _, .iterateKey hs h1 _ => .iterateKey _ _ _ (swapNodes_built b₁ hs) h1
  | _, _, .iterateYield hs h1 _ => .iterateYield _ _ _ (swapNodes_built b₁ hs) h1
  | _, _, .document _ _ hs1 hs2 _ => .document _ _ _ _ (swapArgs_built b₁ hs1) (swapArgs_built b₁ hs2)
theorem swapArgs_built (b₁ : Built n₁) : {as bs : List Any} → SwapArgs apart n₁ n₂ as bs → ∀ n ∈ nodesIn as, Built n
  | _, _, .nil, n, hn => nomatch hn
  | _, _, .same hv hs, n, hn => by
    have ih := swapArgs_built b₁ hs n
    rw [mem_nodesIn] at hn
    cases hn with
    | head => exact hv n rfl
    | tail _ hn => exact ih (mem_nodesIn.2 hn)
  | _, _, .node h hs, n, hn => by
    have ih := swapArgs_built b₁ hs n
    have h1 := swap_built b₁ h
    rw [mem_nodesIn] at hn
    cases hn with
    | head => exact h1
    | tail _ hn => exact ih (mem_nodesIn.2 hn)
theorem swapNodes_built (b₁ : Built n₁) : {as bs : List (Option Node)} → SwapNodes apart n₁ n₂ as bs →
    ∀ n, some n ∈ as → Built n
  | _, _, .nil, n, hn => nomatch hn
  | _, _, .none hs, n, hn => by
    have ih := swapNodes_built b₁ hs n
    cases hn with
    | tail _ hn => exact ih hn
  | _, _, .some h hs, n, hn => by
    have ih := swapNodes_built b₁ hs n
    have h1 := swap_built b₁ h
    cases hn with
    | head => exact h1
    | tail _ hn => exact ih hn
end

mutual
theorem Spec.Swap.symm : {a b : Node} → Swap apart n₁ n₂ a b → Swap apart n₂ n₁ b a
  | _, _, .here => .here
  | _, _, .same b => .same b
  | _, _, .newElement name h hs ha => .newElement name h hs.symm fun a => (ha a).symm
  | _, _, .newVoidElement name h hs ha => .newVoidElement name h hs.symm fun a => (ha a).symm
  | _, _, .collection hs => .collection hs.symm
  | _, _, .conditional hs h1 h2 => .conditional hs.symm h2 h1
  | _, _, .when hs h1 h2 => .when hs.symm h2 h1
  | _, _, .iterate hs h1 h2 => .iterate hs.symm h2 h1
  | _, _, .iterateKey hs h1 h2 => .iterateKey hs.symm h2 h1
  | _, _, .iterateYield hs h1 h2 => .iterateYield hs.symm h2 h1
  | _, _, .document l h hs1 hs2 ha => .document l h hs1.symm hs2.symm fun a => ⟨(ha a).1.symm, (ha a).2.symm⟩
theorem Spec.SwapArgs.symm : {as bs : List Any} → SwapArgs apart n₁ n₂ as bs → SwapArgs apart n₂ n₁ bs as
  | _, _, .nil => .nil
  | _, _, .same hv hs => .same hv hs.symm
  | _, _, .node h hs => .node h.symm hs.symm
theorem Spec.SwapNodes.symm : {as bs : List (Option Node)} → SwapNodes apart n₁ n₂ as bs → SwapNodes apart n₂ n₁ bs as
  | _, _, .nil => .nil
  | _, _, .none hs => .none hs.symm
  | _, _, .some h hs => .some h.symm hs.symm
end

/-- Exchanging parts that can write the same keeps what can be written. -/
theorem swap_sameOutput {a b : Node} (b₁ : Built n₁) (b₂ : Built n₂) (o₁ : n₁.isAttr = false) (o₂ : n₂.isAttr = false)
    (hsp : Splits apart n₁ n₂) (hsp' : Splits apart n₂ n₁)
    (hs : SameOutput n₁ n₂) (h : Swap apart n₁ n₂ a b) : SameOutput a b := by
  intro P c w F he
  have ha := swap_built b₁ h
  have hb := swap_built b₂ h.symm
  rw [ha.renders_iff F he, hb.renders_iff F he]
  constructor
  · refine out_like o₁ o₂ (fun c w he ho => ?_) (swap_like o₁ o₂ hsp h) c w he
    exact (b₂.renders_iff F he).1 ((hs P c w F he).1 ((b₁.renders_iff F he).2 ho))
  · refine out_like o₂ o₁ (fun c w he ho => ?_) (swap_like o₂ o₁ hsp' h.symm) c w he
    exact (b₁.renders_iff F he).1 ((hs P c w F he).2 ((b₂.renders_iff F he).2 ho))

end Aitch
