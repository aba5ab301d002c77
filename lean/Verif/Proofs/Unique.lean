import Verif.Spec.Determined
import Verif.Proofs.Element
/-
Without conditional attributes the output is determined; with them it is up to the order of attributes.
-/
namespace Aitch
open Spec

theorem everyHeadAll_iff {q : ElemHead → Prop} (ns : List Node) : EveryHeadAll q ns ↔ ∀ n ∈ ns, EveryHead q n := by
  induction ns with
  | nil => simp [EveryHeadAll]
  | cons n ns ih => simp [EveryHeadAll, ih]

theorem everyHead_contentNodes {q : ElemHead → Prop} {ns : List (Option Node)}
    (h : ∀ n, some n ∈ ns → EveryHead q n) : EveryHeadAll q (contentNodes ns) := by
  rw [everyHeadAll_iff]
  intro n hn
  have := (List.mem_filter.1 hn).1
  exact h n (by simpa using this)

theorem tagShows_unique {P : Fns} {c : Ctx} {h : ElemHead} (hc : NoCondAttrs h) {l l' : List Shown}
    (h1 : TagShows P c h l) (h2 : TagShows P c h l') : l = l' := by
  have hc : h.conditionals = [] := hc
  simp only [TagShows, hc, active] at h1 h2
  simp at h1 h2
  rw [h1, h2]

theorem tagShows_perm {P : Fns} {c : Ctx} {h : ElemHead} {l l' : List Shown}
    (h1 : TagShows P c h l) (h2 : TagShows P c h l') : l.Perm l' := by
  simp only [TagShows] at h1 h2
  split at h1
  · rename_i hc
    rw [if_pos hc] at h2
    rw [h1, h2]
  · rename_i hc
    rw [if_neg hc] at h2
    obtain ⟨a, b, ha, hb, rfl⟩ := h1
    obtain ⟨a', b', ha', hb', rfl⟩ := h2
    exact (ha.trans ha'.symm).append (hb.trans hb'.symm)

/-- A relation between outputs that is kept by everything but tags. -/
structure Congr (q : ElemHead → Prop) (P : Fns) (R : Bytes → Bytes → Prop) : Prop where
  refl : ∀ w, R w w
  append : ∀ {a a' b b'}, R a a' → R b b' → R (a ++ b) (a' ++ b')
  tag : ∀ {c h l l'}, q h → TagShows P c h l → TagShows P c h l' → R (tagBytes h.name l) (tagBytes h.name l')

section
variable {P : Fns} {q : ElemHead → Prop} {R : Bytes → Bytes → Prop}

mutual
theorem out_rel (C : Congr q P R) (F : EveryHeadFns q P) : {c : Ctx} → {n : Node} → {w : Bytes} → Out P c n w → EveryHead q n →
    ∀ w', Out P c n w' → R w w'
  | _, _, _, .element ht ha, hn => by
    have ih := outAll_rel C F ha hn.2
    clear ha
    intro _ h'
    cases h' with
    | element ht' ha' => exact C.append (C.append (C.tag hn.1 ht ht') (ih _ ha')) (C.refl _)
  | _, _, _, .voidElement ht, hn => by
    intro _ h'
    cases h' with
    | voidElement ht' => exact C.tag hn ht ht'
  | _, _, _, .attr, _ => by intro _ h'; cases h'; exact C.refl _
  | _, _, _, .text, _ => by intro _ h'; cases h'; exact C.refl _
  | _, _, _, .comment, _ => by intro _ h'; cases h'; exact C.refl _
  | _, _, _, .fragment, _ => by intro _ h'; cases h'; exact C.refl _
  | _, _, _, .pi, _ => by intro _ h'; cases h'; exact C.refl _
  | _, _, _, .collection ha, hn => by
    have ih := outAll_rel C F ha (by
      rw [everyHeadAll_iff]
      exact fun n hm => (everyHeadAll_iff _).1 hn n (List.mem_filter.1 hm).1)
    clear ha
    intro _ h'
    cases h' with
    | collection ha' => exact ih _ ha'
  | _, _, _, .conditionalOn h1 ha, hn => by
    have ih := outAll_rel C F ha hn
    clear ha
    intro _ h'
    cases h' with
    | conditionalOn _ ha' => exact ih _ ha'
    | conditionalOff h2 => rw [h1] at h2; simp at h2
  | _, _, _, .conditionalOff h1, _ => by
    intro _ h'
    cases h' with
    | conditionalOn h2 _ => rw [h1] at h2; simp at h2
    | conditionalOff _ => exact C.refl _
  | c, _, _, .collector (f := f) ha, _ => by
    have ih := outAll_rel C F ha (everyHead_contentNodes (F.collect f c))
    clear ha
    intro _ h'
    cases h' with
    | collector ha' => exact ih _ ha'
  | _, _, _, .imperativeNil, _ => by intro _ h'; cases h'; exact C.refl _
  | c, _, _, .imperative (f := f) ho, _ => by
    have ih := outOps_rel C F ho (fun ns n h1 h2 => F.imp f c ns n h1 h2)
    clear ho
    intro _ h'
    cases h' with
    | imperative ho' => exact ih _ ho'
  | _, _, _, .iterator hi, hn => by
    have ih := outItems_rel C F hi hn
    clear hi
    intro _ h'
    cases h' with
    | iterator hi' => exact ih _ hi'
  | _, _, _, .yieldIterator hi, hn => by
    have ih := outYields_rel C F hi hn
    clear hi
    intro _ h'
    cases h' with
    | yieldIterator hi' => exact ih _ hi'
  | _, _, _, .document (prologue := p) ha, hn => by
    have ih := outAll_rel C F ha (by cases p <;> exact hn)
    clear ha
    intro _ h'
    cases h' with
    | document ha' => exact ih _ ha'
theorem outAll_rel (C : Congr q P R) (F : EveryHeadFns q P) : {c : Ctx} → {ns : List Node} → {w : Bytes} → OutAll P c ns w →
    EveryHeadAll q ns → ∀ w', OutAll P c ns w' → R w w'
  | _, _, _, .nil, _ => by intro _ h'; cases h'; exact C.refl _
  | _, _, _, .cons h hs, hn => by
    have ih := out_rel C F h hn.1
    have ihs := outAll_rel C F hs hn.2
    clear h hs
    intro _ h'
    cases h' with
    | cons h' hs' => exact C.append (ih _ h') (ihs _ hs')
theorem outItems_rel (C : Congr q P R) (F : EveryHeadFns q P) : {c : Ctx} → {ns : List Node} → {its : List Any} → {w : Bytes} →
    OutItems P c ns its w → EveryHeadAll q ns → ∀ w', OutItems P c ns its w' → R w w'
  | _, _, _, _, .nil, _ => by intro _ h'; cases h'; exact C.refl _
  | _, _, _, _, .cons h hs, hn => by
    have ih := outAll_rel C F h hn
    have ihs := outItems_rel C F hs hn
    clear h hs
    intro _ h'
    cases h' with
    | cons h' hs' => exact C.append (ih _ h') (ihs _ hs')
theorem outYields_rel (C : Congr q P R) (F : EveryHeadFns q P) : {c : Ctx} → {ns : List Node} → {d : Option MapId} →
    {its : List Any} → {w : Bytes} → OutYields P c ns d its w → EveryHeadAll q ns →
    ∀ w', OutYields P c ns d its w' → R w w'
  | _, _, _, _, _, .nil, _ => by intro _ h'; cases h'; exact C.refl _
  | _, _, _, _, _, .cons h hs, hn => by
    have ih := outAll_rel C F h hn
    have ihs := outYields_rel C F hs hn
    clear h hs
    intro _ h'
    cases h' with
    | cons h' hs' => exact C.append (ih _ h') (ihs _ hs')
theorem outOps_rel (C : Congr q P R) (F : EveryHeadFns q P) : {c : Ctx} → {ops : List ImpOp} → {st : List Bytes} → {w : Bytes} →
    OutOps P c ops st w → (∀ ns n, .writeNodes ns ∈ ops → some n ∈ ns → EveryHead q n) →
    ∀ w', OutOps P c ops st w' → R w w'
  | _, _, _, _, .nil, _ => by intro _ h'; cases h'; exact C.refl _
  | _, _, _, _, .writeNodes (ns := ms) ha h, hn => by
    have iha := outAll_rel C F ha (everyHead_contentNodes fun n hm => hn ms n (by simp) hm)
    have ih := outOps_rel C F h (fun ns n h1 h2 => hn ns n (by simp [h1]) h2)
    clear ha h
    intro _ h'
    cases h' with
    | writeNodes ha' h' => exact C.append (iha _ ha') (ih _ h')
  | _, _, _, _, .writeString h, hn => by
    have ih := outOps_rel C F h (fun ns n h1 h2 => hn ns n (by simp [h1]) h2)
    clear h
    intro _ h'
    cases h' with
    | writeString h' => exact C.append (C.refl _) (ih _ h')
  | _, _, _, _, .writeRaw h, hn => by
    have ih := outOps_rel C F h (fun ns n h1 h2 => hn ns n (by simp [h1]) h2)
    clear h
    intro _ h'
    cases h' with
    | writeRaw h' => exact C.append (C.refl _) (ih _ h')
  | _, _, _, _, .startVoid h, hn => by
    have ih := outOps_rel C F h (fun ns n h1 h2 => hn ns n (by simp [h1]) h2)
    clear h
    intro _ h'
    cases h' with
    | startVoid h' => exact C.append (C.refl _) (ih _ h')
  | _, _, _, _, .start h, hn => by
    have ih := outOps_rel C F h (fun ns n h1 h2 => hn ns n (by simp [h1]) h2)
    clear h
    intro _ h'
    cases h' with
    | start h' => exact C.append (C.refl _) (ih _ h')
  | _, _, _, _, .endNone h, hn => by
    have ih := outOps_rel C F h (fun ns n h1 h2 => hn ns n (by simp [h1]) h2)
    clear h
    intro _ h'
    cases h' with
    | endNone h' => exact ih _ h'
  | _, _, _, _, .endSome h, hn => by
    have ih := outOps_rel C F h (fun ns n h1 h2 => hn ns n (by simp [h1]) h2)
    clear h
    intro _ h'
    cases h' with
    | endSome h' => exact C.append (C.refl _) (ih _ h')
  | _, _, _, _, .endAll h, hn => by
    have ih := outOps_rel C F h (fun ns n h1 h2 => hn ns n (by simp [h1]) h2)
    clear h
    intro _ h'
    cases h' with
    | endAll h' => exact C.append (C.refl _) (ih _ h')
end
end

theorem out_unique {P : Fns} (F : EveryHeadFns NoCondAttrs P) {c : Ctx} {n : Node} (hn : EveryHead NoCondAttrs n)
    {w w' : Bytes} (h : Out P c n w) (h' : Out P c n w') : w = w' :=
  out_rel (R := Eq) ⟨fun _ => rfl, fun h h' => by rw [h, h'], fun hq h h' => by rw [tagShows_unique hq h h']⟩ F h hn _ h'

mutual
theorem everyHead_true : (n : Node) → EveryHead (fun _ => True) n
  | .element _ contents => ⟨trivial, everyHeadAll_true contents⟩
  | .voidElement _ => trivial
  | .collection ns => everyHeadAll_true ns
  | .conditional ns _ _ => everyHeadAll_true ns
  | .iterator ns _ => everyHeadAll_true ns
  | .yieldIterator ns _ => everyHeadAll_true ns
  | .document none contents => everyHeadAll_true contents
  | .document (some p) contents => ⟨everyHead_true p, everyHeadAll_true contents⟩
  | .attr _ | .text _ | .comment _ | .fragment _ | .pi _ _ | .collector _ | .imperative _ => trivial
theorem everyHeadAll_true : (ns : List Node) → EveryHeadAll (fun _ => True) ns
  | [] => trivial
  | n :: ns => ⟨everyHead_true n, everyHeadAll_true ns⟩
end

theorem out_reordered {P : Fns} {c : Ctx} {n : Node} {w w' : Bytes} (h : Out P c n w) (h' : Out P c n w') :
    Reordered w w' :=
  out_rel (q := fun _ => True) ⟨.refl, .append, fun _ h h' => .tag _ (tagShows_perm h h')⟩
    ⟨fun _ _ _ _ => everyHead_true _, fun _ _ _ _ _ _ => everyHead_true _⟩ h (everyHead_true n) _ h'

end Aitch
