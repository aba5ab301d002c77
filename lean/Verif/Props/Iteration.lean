import Verif.Proofs.Iter
import Verif.Proofs.Bare
import Verif.Spec.Sample
/-
C27, C28, C29, C30: iteration.
-/
namespace Aitch.Props
open Spec

/-- What the nodes of an iteration write for one item: the nodes that are no attributes, in order, in a child context
with the item as Cargo and the given Data. -/
def RendersItem (P : Fns) (outer : Ctx) (nodes : List Node) (item : Any) (data : Option MapId) (w : Bytes) : Prop :=
  RendersAll P (childCtx outer item data) (nonAttrs nodes) w

/-- For the examples: `Data["name"]` as text. -/
def nameText : Node := Text (fun _ => []) [.dynKey b%"name"]

theorem nameText_built : ∀ n ∈ [nameText], Built n := by
  intro n hn; simp at hn; subst hn; exact .text (fun _ => []) [.dynKey b%"name"]

section
variable {P : Fns} (F : BuiltFns P) (c : Ctx) (he : c.frame.err = none) (nodes : List Node) (hb : ∀ n ∈ nodes, Built n)
include F he hb

omit he in
theorem rendersItem_iff {item : Any} {data : Option MapId} {w : Bytes} :
    RendersItem P c nodes item data w ↔ OutAll P (childCtx c item data) (nonAttrs nodes) w :=
  rendersAll_iff F rfl fun n hn => hb n (nonAttrs_mem hn)

theorem renders_iterator {src : ItemSrc} (b : Built (.iterator (nonAttrs nodes) src)) (w : Bytes) :
    Renders P c (.iterator (nonAttrs nodes) src) w ↔
      ∃ ws, Each (fun it w => RendersItem P c nodes it (itemData c.frame.data it) w) (srcItems P c src) ws ∧
        w = ws.flatten := by
  rw [b.renders_iff F he]
  simp only [rendersItem_iff F c nodes hb]
  rw [← outItems_each]
  constructor
  · intro h; cases h; assumption
  · exact .iterator

/-! ### C27 — Iterate renders its nodes once per item in order -/

/-- `Iterate(fn, nodes...)`: for each item returned by `fn`, in order, the nodes with that item as Cargo, and as Data
the item if it is a `map[string]any`, else the outer Data. -/
theorem C27_iterate (f : FnId) : ∃ n, Iterate (some f) (nodes.map some) = .val n ∧
    ∀ w, Renders P c n w ↔
      ∃ ws, Each (fun it w => RendersItem P c nodes it (itemData c.frame.data it) w) (P.items f c) ws ∧ w = ws.flatten := by
  have hn : Iterate (some f) (nodes.map some) = .val (.iterator (nonAttrs nodes) (.user f)) := by
    simp only [Iterate, iterSplit_some]
  exact ⟨_, hn, renders_iterator F c he nodes hb
    (.iterate (some f) (nodes.map some) _ (fun n hn => hb n (by simpa using hn)) hn)⟩

omit F he hb in
example := C27_iterate Sample.built Sample.ctx rfl [nameText] nameText_built 0

/-- No items: nothing is written. -/
theorem C27_empty (f : FnId) (hf : P.items f c = []) : ∃ n, Iterate (some f) (nodes.map some) = .val n ∧
    RendersExactly P c n [] := by
  obtain ⟨n, hn, h⟩ := C27_iterate F c he nodes hb f
  refine ⟨n, hn, fun w => ?_⟩
  rw [h, hf]
  constructor
  · rintro ⟨ws, h, rfl⟩; cases h; rfl
  · rintro rfl; exact ⟨[], .nil, rfl⟩

omit F he hb in
example := C27_empty Sample.built Sample.ctx rfl [nameText] nameText_built 1 rfl

/-! ### C29 — IterateYield items see their own data (false in general) -/

/-- What `IterateYield` does: each yielded item is rendered with the last map yielded up to it (the item itself
included) as Data, and no Data if there is none. -/
theorem C29_exact_partial (f : FnId) : ∃ n, IterateYield (some f) (nodes.map some) = .val n ∧
    ∀ w, Renders P c n w ↔
      ∃ ws, Each (fun p w => RendersItem P c nodes p.2 (lastMap (p.1 ++ [p.2])) w) (withBefore [] (P.yields f c)) ws ∧
        w = ws.flatten := by
  have hn : IterateYield (some f) (nodes.map some) = .val (.yieldIterator (nonAttrs nodes) f) := by
    simp only [IterateYield, iterSplit_some]
  refine ⟨_, hn, fun w => ?_⟩
  rw [(Built.iterateYield (some f) (nodes.map some) _ (fun n hn => hb n (by simpa using hn)) hn).renders_iff F he]
  simp only [rendersItem_iff F c nodes hb]
  rw [← outYields_each]
  constructor
  · intro h; cases h; assumption
  · exact .yieldIterator

omit F he hb in
example := C29_exact_partial Sample.built Sample.ctx rfl [nameText] nameText_built 0

/-- The items for which this is what Iterate would do: maps, or items before which no map was yielded, if the outer
context has no Data. -/
def SeesOwnData (c : Ctx) (items : List Any) : Prop :=
  ∀ p ∈ withBefore [] items, lastMap (p.1 ++ [p.2]) = itemData c.frame.data p.2

/-- For such items `IterateYield` and `Iterate` write the same. -/
theorem C29_same_partial (f g : FnId) (hfg : P.yields f c = P.items g c) (hd : SeesOwnData c (P.items g c)) :
    ∃ n m, IterateYield (some f) (nodes.map some) = .val n ∧ Iterate (some g) (nodes.map some) = .val m ∧
      ∀ w, Renders P c n w ↔ Renders P c m w := by
  obtain ⟨n, hn, h1⟩ := C29_exact_partial F c he nodes hb f
  obtain ⟨m, hm, h2⟩ := C27_iterate F c he nodes hb g
  refine ⟨n, m, hn, hm, fun w => ?_⟩
  rw [h1, h2, hfg]
  have key : ∀ (its before : List Any) (ws : List Bytes),
      (∀ p ∈ withBefore before its, lastMap (p.1 ++ [p.2]) = itemData c.frame.data p.2) →
      (Each (fun p w => RendersItem P c nodes p.2 (lastMap (p.1 ++ [p.2])) w) (withBefore before its) ws ↔
        Each (fun it w => RendersItem P c nodes it (itemData c.frame.data it) w) its ws) := by
    intro its
    induction its with
    | nil =>
      intro before ws _
      constructor <;> intro h <;> cases h <;> exact .nil
    | cons it its ih =>
      intro before ws hp
      have hit := hp (before, it) (.head _)
      constructor
      · intro h
        cases h with
        | cons h1 h2 => exact .cons (hit ▸ h1) ((ih _ _ fun p hp' => hp p (.tail _ hp')).1 h2)
      · intro h
        cases h with
        | cons h1 h2 => exact .cons (hit ▸ h1) ((ih _ _ fun p hp' => hp p (.tail _ hp')).2 h2)
  simp only [key _ _ _ hd]

/-- Functions that yield or return two maps. -/
def twoMaps : Fns := { Sample.fns with items := fun _ _ => [.map 1, .map 0], yields := fun _ _ => [.map 1, .map 0] }

omit F he hb in
example := C29_same_partial (P := twoMaps) ⟨Sample.built.collect, Sample.built.imp⟩ Sample.ctx rfl [nameText] nameText_built
  0 0 rfl (by
    intro p hp
    simp [twoMaps, withBefore] at hp
    rcases hp with rfl | rfl <;> rfl)

/-! ### C30 — IterateKey item sources -/

/-- The items of a value: the elements of a slice (whatever its methods), in index order; nothing else has items. -/
inductive Elements : Any → List Any → Prop
  | anySlice {xs} : Elements (.anySlice xs) xs
  | slice {ty xs} : Elements (.slice ty xs) xs
  | bytes {bs : Bytes} : Elements (.bytes bs) (bs.map fun b => .int .uint8 b.toNat)
  | stringer {ty out v xs} : Elements v xs → Elements (.stringer ty out v) xs

omit F he hb in
theorem elements_beneath {v : Any} {xs : List Any} : Elements v xs ↔ Elements v.beneath xs := by
  constructor
  · intro h
    induction h with
    | anySlice => exact .anySlice
    | slice => exact .slice
    | bytes => exact .bytes
    | stringer _ ih => exact ih
  · have : ∀ v, Bare v v.beneath → Elements v.beneath xs → Elements v xs := by
      intro v hb
      generalize v.beneath = x at hb
      induction hb with
      | same => exact id
      | stringer _ ih => exact fun h => .stringer (ih h)
    exact this v (bare_beneath v)

/-- `IterateKey(k)` with a slice under `k`: its elements. -/
theorem C30_slice (k : Bytes) (m : MapId) (v : Any) (xs : List Any) (hm : c.frame.data = some m)
    (hv : (c.maps m).lookup k = some v) (hx : Elements v xs) : ∃ n, IterateKey k (nodes.map some) = .val n ∧
    ∀ w, Renders P c n w ↔
      ∃ ws, Each (fun it w => RendersItem P c nodes it (itemData c.frame.data it) w) xs ws ∧ w = ws.flatten := by
  have hn : IterateKey k (nodes.map some) = .val (.iterator (nonAttrs nodes) (.key k)) := by
    simp only [IterateKey, iterSplit_some]
  refine ⟨_, hn, fun w => ?_⟩
  rw [renders_iterator F c he nodes hb (.iterateKey k (nodes.map some) _ (fun n hn => hb n (by simpa using hn)) hn)]
  have : srcItems P c (.key k) = xs := by
    have hl : c.lookup k = some v := by simp [Ctx.lookup, hm, hv]
    rw [elements_beneath] at hx
    simp only [srcItems, keyItems, hl, Option.map_some]
    have hne := beneath_ne v
    generalize v.beneath = x at hx hne
    cases hx with
    | stringer => exact absurd rfl (hne _ _ _)
    | _ => rfl
  rw [this]

omit F he hb in
example := C30_slice Sample.built Sample.ctx rfl [nameText] nameText_built b%"list" 0 _ _ rfl rfl .anySlice

/-- `IterateKey(k)` without a slice under `k` (no Data, no such key, or another value): nothing. -/
theorem C30_none (k : Bytes)
    (hno : ∀ m v xs, c.frame.data = some m → (c.maps m).lookup k = some v → Elements v xs → xs = []) :
    ∃ n, IterateKey k (nodes.map some) = .val n ∧ RendersExactly P c n [] := by
  have hn : IterateKey k (nodes.map some) = .val (.iterator (nonAttrs nodes) (.key k)) := by
    simp only [IterateKey, iterSplit_some]
  refine ⟨_, hn, fun w => ?_⟩
  rw [renders_iterator F c he nodes hb (.iterateKey k (nodes.map some) _ (fun n hn => hb n (by simpa using hn)) hn)]
  have : srcItems P c (.key k) = [] := by
    unfold srcItems keyItems Ctx.lookup
    cases hd : c.frame.data with
    | none => rfl
    | some m =>
      simp only
      cases hv : (c.maps m).lookup k with
      | none => rfl
      | some v =>
        have hno' := fun xs h => hno m v xs hd hv (elements_beneath.2 h)
        rw [Option.map_some]
        generalize v.beneath = x at hno'
        cases x with
        | anySlice xs => exact hno' _ .anySlice
        | slice ty xs => exact hno' _ .slice
        | bytes bs => exact hno' _ .bytes
        | _ => rfl
  rw [this]
  constructor
  · rintro ⟨ws, h, rfl⟩; cases h; rfl
  · rintro rfl; exact ⟨[], .nil, rfl⟩

omit F he hb in
example := C30_none Sample.built Sample.ctx rfl [nameText] nameText_built b%"name" (by
  intro m v xs hm hv hx
  cases hm; cases hv; cases hx)

end

/-- `Iterate(fn, <text "[", Data["name"], Cargo, "]">)` over "x", a map, 7: the middle item sees its own data. -/
def iterSample (mk : List (Option Node) → Result Node) : Option Node :=
  match mk [some (Text (fun _ => []) [.str b%"[", .dynKey b%"name", .str b%"|", .dynKey b%".", .str b%"]"]),
      some (NewBooleanAttribute b%"ignored")] with
  | .val n => some n
  | .panic => none

example : (iterSample (Iterate (some 0))).all (fun n => (render Sample.env 2 n Sample.st).any fun r =>
    r.2.out == b%"[&lt;Bob&gt;|x][inner|][&lt;Bob&gt;|7]") := by decide +kernel

example : (iterSample (IterateYield (some 0))).all (fun n => (render Sample.env 2 n Sample.st).any fun r =>
    r.2.out == b%"[|x][inner|][inner|7]") := by decide +kernel

example : (iterSample (IterateKey b%"list")).all (fun n => (render Sample.env 2 n Sample.st).any fun r =>
    r.2.out == b%"[&lt;Bob&gt;|a][&lt;Bob&gt;|b]") := by decide +kernel

example : Elements (.stringer 3 b%"ab" (.slice 4 [.str b%"a"])) [.str b%"a"] := .stringer .slice

example : Elements (.anySlice [.str b%"a", .str b%"b"]) [.str b%"a", .str b%"b"] := .anySlice

/-- The full claim of C29: `IterateYield` writes what `Iterate` writes for the same items. -/
def C29_claim : Prop := ∀ (P : Fns) (c : Ctx) (nodes : List Node) (f g : FnId), BuiltFns P → c.frame.err = none →
  (∀ n ∈ nodes, Built n) → P.yields f c = P.items g c →
  ∀ n m, IterateYield (some f) (nodes.map some) = .val n → Iterate (some g) (nodes.map some) = .val m →
    ∀ w, Renders P c n w ↔ Renders P c m w

theorem C29_false : ¬ C29_claim := by
  intro h
  have h1 := h Sample.fns Sample.ctx [nameText] 0 0 Sample.built rfl
    (by intro n hn; simp at hn; subst hn; exact .text (fun _ => []) [.dynKey b%"name"]) rfl _ _ rfl rfl
  have h2 : Renders Sample.fns Sample.ctx (.yieldIterator [nameText] 0) b%"innerinner" :=
    ⟨Sample.env, Sample.healthy, Sample.computes, Sample.st, _, rfl, ⟨2, rfl⟩, rfl⟩
  have h3 : Renders Sample.fns Sample.ctx (.iterator [nameText] (.user 0)) b%"innerinner" := (h1 _).1 h2
  have h4 : Renders Sample.fns Sample.ctx (.iterator [nameText] (.user 0)) b%"&lt;Bob&gt;inner&lt;Bob&gt;" :=
    ⟨Sample.env, Sample.healthy, Sample.computes, Sample.st, _, rfl, ⟨2, rfl⟩, rfl⟩
  have b : Built (.iterator [nameText] (.user 0)) :=
    .iterate (some 0) [some nameText] _ (by intro n hn; simp at hn; subst hn; exact .text (fun _ => []) _) rfl
  have ho3 := (b.renders_iff Sample.built rfl).1 h3
  have ho4 := (b.renders_iff Sample.built rfl).1 h4
  have huniq : ∀ w, Out Sample.fns Sample.ctx (.iterator [nameText] (.user 0)) w → w = b%"&lt;Bob&gt;inner&lt;Bob&gt;" := by
    intro w ho
    cases ho with
    | iterator ho =>
      cases ho with
      | cons a1 ho => cases ho with
        | cons a2 ho => cases ho with
          | cons a3 ho =>
            cases ho
            cases a1 with | cons a1 n1 => cases a1; cases n1
                                          cases a2 with | cons a2 n2 => cases a2; cases n2
                                                                        cases a3 with | cons a3 n3 => cases a3; cases n3; rfl
  exact absurd (huniq _ ho3) (by decide)

example : SeesOwnData Sample.ctx [.map 1, .map 0] := by
  intro p hp
  simp [withBefore] at hp
  rcases hp with rfl | rfl <;> rfl

/-! ### C28 — iteration leaves the outer context alone

Proved for every environment: any writer, any user functions below the iteration node (they may change Data and Cargo
of the child contexts and all other memory), any errors.  Only the function given to the iteration itself, which gets
the outer context, is required not to change its Data and Cargo. -/

theorem C28_iterate {env : Env} {f : FnId} (hf : KeepsItem fun s => (env.items f s).2) {nodes : List (Option Node)}
    {n : Node} (hn : Iterate (some f) nodes = .val n) {s s' : St} {e : Option Err} (h : Runs env n s e s') :
    s'.frame.data = s.frame.data ∧ s'.frame.cargo = s.frame.cargo ∧ s'.parents = s.parents := by
  simp only [Iterate] at hn
  split at hn
  · cases hn
  · cases hn; exact runs_iterator (fun g hg => by cases hg; exact hf) h

example {s' : St} {e : Option Err} (h : Runs Sample.env (.iterator [nameText] (.user 0)) Sample.st e s') :=
  C28_iterate (nodes := [some nameText]) (fun _ => ⟨rfl, rfl⟩) rfl h

theorem C28_iterateKey {env : Env} {k : Bytes} {nodes : List (Option Node)} {n : Node}
    (hn : IterateKey k nodes = .val n) {s s' : St} {e : Option Err} (h : Runs env n s e s') :
    s'.frame.data = s.frame.data ∧ s'.frame.cargo = s.frame.cargo ∧ s'.parents = s.parents := by
  simp only [IterateKey] at hn
  split at hn
  · cases hn
  · cases hn; exact runs_iterator (fun g hg => by cases hg) h

example {s' : St} {e : Option Err} (h : Runs Sample.env (.iterator [nameText] (.key b%"list")) Sample.st e s') :=
  C28_iterateKey (nodes := [some nameText]) rfl h

theorem C28_iterateYield {env : Env} {f : FnId} (hf : ∀ s, KeepsItemYield (env.yields f s))
    {nodes : List (Option Node)} {n : Node} (hn : IterateYield (some f) nodes = .val n) {s s' : St} {e : Option Err}
    (h : Runs env n s e s') :
    s'.frame.data = s.frame.data ∧ s'.frame.cargo = s.frame.cargo ∧ s'.parents = s.parents := by
  simp only [IterateYield] at hn
  split at hn
  · cases hn
  · cases hn; exact runs_yieldIterator hf h

example {s' : St} {e : Option Err} (h : Runs Sample.env (.yieldIterator [nameText] 0) Sample.st e s') :=
  C28_iterateYield (nodes := [some nameText]) (fun _ => .yield fun _ => .yield fun _ => .yield fun _ => .done) rfl h

end Aitch.Props
