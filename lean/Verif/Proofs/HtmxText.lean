import Verif.Proofs.Htmx
import Verif.Proofs.Library
import Verif.Proofs.Leaf
import Verif.Proofs.Built
/-
The text written for header maps.
-/
namespace Aitch
open Spec

theorem argsBytes_cons (P : Fns) (c : Ctx) (dl : Nat → List Value) (v : Any) (vs : List Any) :
    argsBytes P c dl (v :: vs) = argsBytes P c dl [v] ++ argsBytes P c dl vs := by
  unfold argsBytes
  rw [← valuesBytes_append, ← newValues_append]; rfl

theorem argsBytes_append (P : Fns) (c : Ctx) (dl : Nat → List Value) (us vs : List Any) :
    argsBytes P c dl (us ++ vs) = argsBytes P c dl us ++ argsBytes P c dl vs := by
  unfold argsBytes
  rw [newValues_append, valuesBytes_append]

theorem argsBytes_bytes (P : Fns) (c : Ctx) (dl : Nat → List Value) (w : Bytes) : argsBytes P c dl [.bytes w] = w := by
  simp [argsBytes, newValues, newValue, valueToBytes, valuesBytes, valueBytes]

theorem valueBytes_concat (P : Fns) (c : Ctx) (dl : Nat → List Value) (vs : List Any) :
    valueBytes P c (NewConcatValue dl vs) = argsBytes P c dl vs := by
  unfold NewConcatValue argsBytes
  cases newValues dl vs <;> simp [valueBytes, valuesBytes]

/-- One entry of the object. -/
def entryText (val : Bytes → Bytes) (k : Bytes) : Bytes := b%"'" ++ safeKey k ++ b%"': " ++ val k

theorem serializeKeys_bytes (P : Fns) (c : Ctx) (dl : Nat → List Value) (m : GoMap) (d : Bytes) (k : Bytes)
    (ks : List Bytes) : argsBytes P c dl (serializeKeys m d (k :: ks)) =
      d ++ List.intercalate b%", " ((k :: ks).map (entryText fun k => argsBytes P c dl [m.get k])) := by
  induction ks generalizing d k with
  | nil =>
    simp only [serializeKeys]
    rw [argsBytes_cons, argsBytes_cons, argsBytes_bytes]
    simp [argsBytes, newValues, valuesBytes, entryText, List.intercalate, safeKey, quoteKey]
  | cons k' ks ih =>
    rw [serializeKeys, argsBytes_cons, argsBytes_cons _ _ _ (m.get k), ih, argsBytes_bytes]
    have : ∀ (x y : Bytes) (l : List Bytes), List.intercalate b%", " (x :: y :: l) =
        x ++ b%", " ++ List.intercalate b%", " (y :: l) := by
      intro x y l; simp [List.intercalate]
    rw [List.map_cons, List.map_cons, List.map_cons, this]
    simp [entryText, safeKey, quoteKey]

theorem serialize_bytes (P : Fns) (c : Ctx) (dl : Nat → List Value) (ord : GoMap → GoMap) (m : GoMap) (pre : Bytes) :
    argsBytes P c dl (serialize ord m pre) =
      pre ++ objectText (fun k => argsBytes P c dl [m.get k]) (sortStrings (keysOf (ord m))) := by
  unfold serialize
  rw [argsBytes_append, argsBytes_append, argsBytes_append, argsBytes_bytes, argsBytes_bytes]
  have hp : argsBytes P c dl (if pre = [] then [] else [.bytes pre]) = pre := by
    split
    · rename_i h; rw [h]; rfl
    · exact argsBytes_bytes _ _ _ _
  rw [hp, objectText]
  show _ ++ argsBytes P c dl (serializeKeys m [] (sortStrings (keysOf (ord m)))) ++ _ = _
  cases sortStrings (keysOf (ord m)) with
  | nil => simp [serializeKeys, argsBytes, newValues, valuesBytes, List.intercalate]
  | cons k ks =>
    rw [serializeKeys_bytes]
    have : entryText (fun k => argsBytes P c dl [m.get k]) =
        fun k => b%"'" ++ safeKey k ++ b%"': " ++ argsBytes P c dl [m.get k] := rfl
    rw [this]
    simp

theorem rendersExactly_plain {P : Fns} (F : BuiltFns P) (c : Ctx) (he : c.frame.err = none) (dl : Nat → List Value)
    (name : Bytes) (values : List Any) : RendersExactly P c (NewAttribute dl name values)
      (b%" " ++ name ++ b%"=\"" ++ argsBytes P c dl values ++ b%"\"") := by
  refine rendersExactly_of_out (n := NewAttribute dl name values) F.wf trivial he ?_ fun w h => ?_
  · exact Out.attr
  · cases h; rfl

theorem lastValue_isSome (maps : List GoMap) (k : Bytes) :
    (lastValue maps k).isSome ↔ ∃ m ∈ maps, k ∈ keysOf m := by
  unfold lastValue
  rw [List.findSome?_isSome_iff]
  constructor
  · rintro ⟨m, hm, h⟩; exact ⟨m, by simpa using hm, (lookup_isSome k m).1 h⟩
  · rintro ⟨m, hm, h⟩; exact ⟨m, by simpa using hm, (lookup_isSome k m).2 h⟩

/-- Keys and text of a map that stands for the merged maps. -/
theorem merged_text (P : Fns) (c : Ctx) (dl : Nat → List Value) {ord : GoMap → GoMap} (ho : ∀ m, (ord m).Perm m)
    (maps : List GoMap) {m : GoMap} (hm : IsMap m) (hl : ∀ k, m.lookup k = lastValue maps k) (pre : Bytes) :
    ∃ ks : List Bytes, ks.Pairwise Before ∧ (∀ k, k ∈ ks ↔ ∃ m ∈ maps, k ∈ keysOf m) ∧
      argsBytes P c dl (serialize ord m pre) = pre ++ objectText (headerBytes P c dl maps) ks := by
  have hp : (keysOf (ord m)).Perm (keysOf m) := (ho m).map _
  refine ⟨sortStrings (keysOf (ord m)), sortStrings_before (hp.nodup_iff.2 hm), fun k => ?_, ?_⟩
  · rw [(sortStrings_perm _).mem_iff, hp.mem_iff, ← lookup_isSome, hl, lastValue_isSome]
  · rw [serialize_bytes]
    simp only [GoMap.get, hl]
    rfl

theorem lastValue_mem {maps : List GoMap} {k : Bytes} {v : Any} (h : lastValue maps k = some v) :
    ∃ m ∈ maps, (k, v) ∈ m := by
  unfold lastValue at h
  obtain ⟨m, hm, hv⟩ := List.exists_of_findSome?_eq_some h
  refine ⟨m, by simpa using hm, ?_⟩
  clear h hm
  induction m with
  | nil => simp at hv
  | cons e m ih =>
    obtain ⟨a, b⟩ := e
    rw [lookup_cons'] at hv
    split at hv
    · rename_i hka
      simp only [Option.some.injEq] at hv
      rw [hka, hv]; simp
    · exact List.mem_cons_of_mem _ (ih hv)

theorem mergedJS_spec {ord : Nat → GoMap → GoMap} (ho : Visits ord) (maps : List GoMap) (hm : ∀ m ∈ maps, IsMap m) :
    IsMap (mergedJS ord maps) ∧ ∀ k, (mergedJS ord maps).lookup k = lastValue maps k := by
  have h := mergeMaps_spec ho 0 maps [] hm (by simp [IsMap, keysOf])
  have h' : IsMap (mergeMaps ord 0 maps []) ∧ ∀ k, (mergeMaps ord 0 maps []).lookup k = lastValue maps k :=
    ⟨h.1, fun k => by rw [h.2]; simp⟩
  match maps, hm, h' with
  | [], _, h' => exact h'
  | [m], hm, _ => exact ⟨hm m (by simp), fun k => by simp [lastValue, mergedJS]⟩
  | _ :: _ :: _, _, h' => exact h'

end Aitch
