import Verif.Proofs.Shape
import Verif.Props.Markup
/-
C64: texts and numbers in the data do not change the structure of a page.
-/
namespace Aitch.Props
open Spec Markup

/-! ### C64 — texts in the data do not change the structure of a page -/

/-- **C64**.  A template rendered in two contexts whose data have the same shape (the same keys, flags, lengths of lists, but
any texts and numbers): an HTML reader sees the same tags with the same attributes, in the same order; only texts and
attribute values differ. -/
theorem C64_structure {A B : List Bytes} (N : GoodNames A B) {P : Fns} (F : BuiltFns P) (S : SafeFns P) (H : ShapeFns P)
    {c c' : Ctx} (he : c.frame.err = none) (hc : SafeCtx c) (hc' : SafeCtx c') (hs : SameShapes c c') {n : Node}
    (ht : Tidy P A B .html false n) (hn : n.isAttr = false) (R : CharRefs) {w w' : Bytes} (hr : Renders P c n w)
    (hr' : Renders P c' n w') : SameTags (readHtml R w) (readHtml R w') := by
  have he' : c'.frame.err = none := (congrArg (·.1) hs.frame).symm.trans he
  rw [(tidy_built ht).renders_iff F he] at hr
  rw [(tidy_built ht).renders_iff F he'] at hr'
  obtain ⟨ts, ts', rfl, rfl, hp, -, hk⟩ := out_two N S H hr _ _ hr' hs hc hc' hn (tidy_clean ht)
  rw [read_write R ts hp.1, read_write R ts' hp.2]
  exact sameTags_items (hk false)

/-- The number of tags does not change either way: `SameTags` counts them. -/
theorem sameTags_count {l l' : List Item} (h : SameTags l l') (p : Item → Bool) (hp : ∀ s, p (.text s) = false)
    (hq : ∀ n as as' sc, p (.start n as sc) = p (.start n as' sc)) (hd : ∀ d d', p (.comment d) = p (.comment d'))
    (hdd : ∀ d d', p (.doctype d) = p (.doctype d')) : l.countP p = l'.countP p := by
  induction h with
  | nil => rfl
  | textLeft _ ih => rw [List.countP_cons, hp, ih]; rfl
  | textRight _ ih => rw [List.countP_cons, hp, ih]; rfl
  | start _ _ ih => rw [List.countP_cons, List.countP_cons, ih, hq]
  | close _ ih => rw [List.countP_cons, List.countP_cons, ih]
  | comment _ ih => rw [List.countP_cons, List.countP_cons, ih, hd]
  | doctype _ ih => rw [List.countP_cons, List.countP_cons, ih, hdd]

/-- In particular every element starts and ends equally often, whatever the texts. -/
theorem C64_count {A B : List Bytes} (N : GoodNames A B) {P : Fns} (F : BuiltFns P) (S : SafeFns P) (H : ShapeFns P)
    {c c' : Ctx} (he : c.frame.err = none) (hc : SafeCtx c) (hc' : SafeCtx c') (hs : SameShapes c c') {n : Node}
    (ht : Tidy P A B .html false n) (hn : n.isAttr = false) (R : CharRefs) {w w' : Bytes} (hr : Renders P c n w)
    (hr' : Renders P c' n w') (name : Bytes) :
    ((readHtml R w).countP fun | .start m _ _ => m = name | _ => false) =
      ((readHtml R w').countP fun | .start m _ _ => m = name | _ => false) ∧
    ((readHtml R w).countP fun | .close m => m = name | _ => false) =
      ((readHtml R w').countP fun | .close m => m = name | _ => false) := by
  have h := C64_structure N F S H he hc hc' hs ht hn R hr hr'
  constructor <;> exact sameTags_count h _ (fun _ => rfl) (fun _ _ _ _ => rfl) (fun _ _ => rfl) (fun _ _ => rfl)

/-- A context of the same shape as the sample, with hostile texts. -/
def hostileCtx : Ctx :=
  { Sample.ctx with
    frame := { err := none, data := some 0, cargo := .int .int 3 }
    maps := fun
      | 0 => [(b%"name", .str b%"\"></div><script>alert(1)</script>"), (b%"off", .bool false), (b%"n", .str b%"<p>"),
              (b%"list", .anySlice [.str b%"<br>", .int .int 2])]
      | m => Sample.maps m }

example : SameShapes Sample.ctx hostileCtx ∧ SafeCtx hostileCtx ∧ ShapeFns Sample.fns := by
  refine ⟨⟨rfl, rfl, fun m k => ?_, rfl, rfl, rfl⟩, ⟨trivial, fun m k v h => ?_, fun r => trivial⟩,
    ⟨fun _ _ _ _ => rfl, fun _ _ _ _ => rfl, fun _ _ _ _ => rfl, fun _ _ _ _ => rfl, fun f _ _ _ => ?_⟩⟩
  · by_cases hm : m = 0
    · subst hm
      simp only [Sample.ctx, hostileCtx, Sample.maps, List.lookup_cons, List.lookup_nil]
      repeat' split
      all_goals rfl
    · have : hostileCtx.maps m = Sample.ctx.maps m := by
        cases m with
        | zero => exact absurd rfl hm
        | succ m => rfl
      rw [this]
  · unfold hostileCtx at h
    simp only at h
    split at h
    · simp only [List.mem_cons, List.not_mem_nil, or_false, Prod.mk.injEq] at h
      rcases h with ⟨_, rfl⟩ | ⟨_, rfl⟩ | ⟨_, rfl⟩ | ⟨_, rfl⟩ <;> simp [SafeData, SafeDatas]
    · exact safe_sample.2.maps _ k v h
  · show SameCalls (Sample.fns.imp f _) (Sample.fns.imp f _)
    have : ∀ ops : List ImpOp, SameCalls ops ops := by
      intro ops
      induction ops with
      | nil => exact .nil
      | cons op ops ih => exact .cons (by cases op <;> trivial) ih
    exact this _

example : ¬ SameTags [.start b%"p" [] false] [.text b%"x", .start b%"q" [] false] := by
  intro h
  cases h with
  | textRight h => cases h

end Aitch.Props
