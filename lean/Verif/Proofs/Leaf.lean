import Verif.Proofs.Format
import Verif.Proofs.Built
/-
From the specification `Out` to `Writes` and `RendersExactly`.
-/
namespace Aitch
open Spec

theorem writes_of_out {env : Env} (H : Healthy env) {n : Node} (wf : WF n) {s : St} (cf : CallbackFree s.dl n)
    (he : s.frame.err = none) {w : Bytes} (h : ∀ w', Out noFns s.toCtx n w' → w' = w) : Writes env n s w := by
  obtain ⟨s', w', h1, h2, h3, h4⟩ := callbackFree_refines H wfFns_noFns wf cf he
  rw [h w' h3] at h4
  exact ⟨s', h1, h4, h2⟩

theorem rendersExactly_of_out {P : Fns} (F : WFFns P) {n : Node} (wf : WF n) {c : Ctx} (he : c.frame.err = none)
    {w : Bytes} (h : Out P c n w) (hu : ∀ w', Out P c n w' → w' = w) : RendersExactly P c n w := by
  intro w'
  rw [renders_iff_out F wf he]
  exact ⟨hu w', fun e => e ▸ h⟩

theorem writes_unique {env : Env} {n : Node} {s : St} {w w' : Bytes} (h : Writes env n s w)
    (h' : Writes env n s w') : w = w' := by
  obtain ⟨s1, h1, h2, -⟩ := h
  obtain ⟨s2, h3, h4, -⟩ := h'
  obtain ⟨-, rfl⟩ := runs_unique h1 h3
  rw [h2] at h4
  exact List.append_cancel_left h4

theorem valuesUse_append' {q : Action → Prop} {a b : List Value} :
    ValuesUse q (a ++ b) ↔ ValuesUse q a ∧ ValuesUse q b := by
  induction a with
  | nil => simp [ValuesUse]
  | cons v a ih => simp [ValuesUse, ih, and_assoc]

/-- Contents that call no function: neither functions nor values nor nodes. -/
def Plain : Any → Prop
  | .value _ | .dynFunc _ _ | .node _ => False
  | _ => True

theorem valuesUse_plain {q : Action → Prop} {dl : Nat → List Value} {vs : List Any} (h : ∀ v ∈ vs, Plain v) :
    ValuesUse q (newValues dl vs) := by
  induction vs with
  | nil => trivial
  | cons v vs ih =>
    rw [newValues_cons, valuesUse_append']
    refine ⟨?_, ih fun v hv => h v (by simp [hv])⟩
    have hv := h v (by simp)
    cases v <;> first | exact hv.elim | (simp [newValue, ValuesUse, ValueUses])
    split <;> simp [ValuesUse, ValueUses]

theorem plain_strs (strs : List Bytes) : ∀ v ∈ strs.map Any.str, Plain v := by
  intro v hv
  obtain ⟨s, -, rfl⟩ := List.mem_map.1 hv
  trivial

theorem valuesBytes_strs (P : Fns) (c : Ctx) (dl : Nat → List Value) (strs : List Bytes) :
    valuesBytes P c (newValues dl (strs.map .str)) = strs.flatMap escaped := by
  induction strs with
  | nil => rfl
  | cons s strs ih =>
    rw [List.map_cons, newValues_cons, valuesBytes_append, ih]
    simp [newValue, valuesBytes, valueBytes, valueToBytes, escaped_eq]

theorem markupSafe_strs (strs : List Bytes) : MarkupSafe (strs.flatMap escaped) := by
  induction strs with
  | nil => exact markupSafe_nil
  | cons s strs ih =>
    rw [List.flatMap_cons, ← escaped_eq]
    exact markupSafe_append (markupSafe_escape s) ih

section
variable {env : Env} (H : Healthy env) {s : St} (he : s.frame.err = none)
include H he

theorem writes_Text (dl : Nat → List Value) {vs : List Any} (hp : ∀ v ∈ vs, Plain v) :
    Writes env (Text dl vs) s (valuesBytes noFns s.toCtx (newValues dl vs)) :=
  by
  refine writes_of_out H ?_ ?_ he fun _ h => by cases h; rfl
  · trivial
  · exact valuesUse_plain hp

theorem writes_Fragment (dl : Nat → List Value) {vs : List Any} (hp : ∀ v ∈ vs, Plain v) :
    Writes env (Fragment dl vs) s (valuesBytes noFns s.toCtx (newValues dl vs)) :=
  by
  refine writes_of_out H ?_ ?_ he fun _ h => by cases h; rfl
  · trivial
  · exact valuesUse_plain hp

theorem writes_Comment (dl : Nat → List Value) {vs : List Any} (hp : ∀ v ∈ vs, Plain v) :
    Writes env (Comment dl vs) s (b%"<!--" ++ valuesBytes noFns s.toCtx (newValues dl vs) ++ b%"-->") :=
  by
  refine writes_of_out H ?_ ?_ he fun _ h => by cases h; rfl
  · trivial
  · exact valuesUse_plain hp

theorem writes_PI (dl : Nat → List Value) (name : Bytes) {vs : List Any} (hp : ∀ v ∈ vs, Plain v) :
    Writes env (PI dl name vs) s (b%"<!" ++ name ++ b%" " ++ valuesBytes noFns s.toCtx (newValues dl vs) ++ b%">\n") :=
  by
  refine writes_of_out H ?_ ?_ he fun _ h => by cases h; rfl
  · trivial
  · exact valuesUse_plain hp

theorem writes_NewAttribute (dl : Nat → List Value) (name : Bytes) {vs : List Any} (hp : ∀ v ∈ vs, Plain v) :
    Writes env (NewAttribute dl name vs) s
      (b%" " ++ name ++ b%"=\"" ++ valuesBytes noFns s.toCtx (newValues dl vs) ++ b%"\"") :=
  by
  refine writes_of_out H ?_ ?_ he fun _ h => by cases h; rfl
  · trivial
  · exact valuesUse_plain hp

end

theorem outOps_writeStrings {P : Fns} {c : Ctx} (ds : List Bytes) (stack : List Bytes) (w : Bytes) :
    OutOps P c (ds.map .writeString) stack w ↔ w = ds.flatMap escaped := by
  induction ds generalizing w with
  | nil => exact ⟨fun h => by cases h; rfl, fun h => by subst h; exact .nil⟩
  | cons d ds ih =>
    constructor
    · intro h
      cases h with | writeString h => rw [(ih _).1 h, escaped_eq]; rfl
    · rintro rfl
      rw [List.flatMap_cons, ← escaped_eq]
      exact .writeString ((ih _).2 rfl)

end Aitch
