import Verif.Proofs.Depends
import Verif.Proofs.Unique
import Verif.Proofs.Quiet
import Verif.Spec.Sample
/-
C59: what a template writes depends only on what it refers to.
-/
namespace Aitch
open Spec

namespace Props

/-- A template with an iteration, a condition and two values. -/
def dependsSample : Node :=
  .iterator [.text [.mk [] (some (.key b%"name")) []], .conditional [.text [.mk [] (some .cargo) []]] [] (.has b%"n")]
    (.key b%"list")

theorem dependsSample_built : Built dependsSample :=
  .iterateKey b%"list" [some (Text (fun _ => []) [.dynKey b%"name"]),
    some (.conditional [Text (fun _ => []) [.dynKey b%"."]] [] (.has b%"n"))] _
    (by
      intro n hn
      simp only [List.mem_cons, List.not_mem_nil, or_false, Option.some.injEq] at hn
      rcases hn with rfl | rfl
      · exact .text _ _
      · exact .when b%"n" [some (Text (fun _ => []) [.dynKey b%"."])] _ (by
          intro n hn
          simp only [List.mem_cons, List.not_mem_nil, or_false, Option.some.injEq] at hn
          subst hn; exact .text _ _) rfl) rfl

theorem dependsSample_free : CallbackFree Sample.ctx.dl dependsSample := ⟨trivial, ⟨trivial, trivial⟩, ⟨trivial, ⟨trivial, trivial⟩, trivial⟩, trivial⟩

example : nodeRefs Sample.ctx.dl dependsSample = [.key b%"list", .key b%"name", .key b%"n", .cargo] := by decide

example : Ref.key b%"off" ∉ nodeRefs Sample.ctx.dl dependsSample := by decide

/-- If two contexts hold the same under everything that a template refers to (and its functions look at nothing else),
it can write the same in both. -/
theorem C59_relevant {P : Fns} (F : BuiltFns P) {n : Node} (b : Built n) {c c' : Ctx} (he : c.frame.err = none)
    (he' : c'.frame.err = none) (R : List Ref) (hr : ∀ d ∈ nodeRefs c.dl n, d ∈ R) (hu : HeedsOnly P R c.dl n)
    (S : SameUnder R c c') (w : Bytes) : Renders P c n w ↔ Renders P c' n w := by
  rw [b.renders_iff F he, b.renders_iff F he', out_sameUnder S hu hr]

/-- The sample template in the sample context and in one with another outside world. -/
example (w : Bytes) : Renders Sample.fns Sample.ctx dependsSample w ↔
    Renders Sample.fns { Sample.ctx with world := 5 } dependsSample w :=
  C59_relevant Sample.built dependsSample_built (c' := { Sample.ctx with world := 5 }) rfl rfl _ (fun _ h => h) (heedsOnly_of_callbackFree dependsSample_free)
    ⟨fun _ _ => rfl, fun _ _ _ => rfl, fun _ => rfl, rfl⟩ w

/-- The context after `m[k] = v` on the map `m`. -/
def put (c : Ctx) (m : MapId) (k : Bytes) (v : Any) : Ctx :=
  { c with maps := fun m' => if m' = m then (k, v) :: c.maps m else c.maps m' }

/-- So adding or changing an entry that a template without user functions does not refer to, in the data or in any
other map, changes nothing. -/
theorem C59_put {P : Fns} (F : BuiltFns P) {n : Node} (b : Built n) {c : Ctx} (he : c.frame.err = none)
    (hc : CallbackFree c.dl n) (m : MapId) (k : Bytes) (v : Any) (hk : .key k ∉ nodeRefs c.dl n) (w : Bytes) :
    Renders P c n w ↔ Renders P (put c m k v) n w := by
  have hl : ∀ j, .key j ∈ nodeRefs c.dl n → ∀ m', ((put c m k v).maps m').lookup j = (c.maps m').lookup j := by
    intro j hj m'
    simp only [put]
    split
    · next h =>
      subst h
      have hne : (j == k) = false := by
        rw [beq_eq_false_iff_ne]
        intro he
        subst he
        exact hk hj
      rw [List.lookup_cons, hne]
    · rfl
  refine C59_relevant F b (c' := put c m k v) he he _ (fun _ h => h) (heedsOnly_of_callbackFree hc) ⟨fun j hj => ?_, hl, fun _ => rfl, rfl⟩ w
  show Ctx.lookup _ j = _
  unfold Ctx.lookup
  show (match c.frame.data with | none => none | some m' => ((put c m k v).maps m').lookup j) = _
  cases c.frame.data with
  | none => rfl
  | some m' => exact hl j hj m'

example (w : Bytes) : Renders Sample.fns Sample.ctx dependsSample w ↔
    Renders Sample.fns (put Sample.ctx 0 b%"off" (.str b%"on")) dependsSample w :=
  C59_put Sample.built dependsSample_built rfl dependsSample_free 0 b%"off" (.str b%"on") (by decide) w

/-- A template without references and user functions writes the same in all contexts. -/
theorem C59_static {P : Fns} (F : BuiltFns P) {n : Node} (b : Built n) {c c' : Ctx} (he : c.frame.err = none)
    (he' : c'.frame.err = none) (hc : CallbackFree c.dl n) (hn : nodeRefs c.dl n = []) (hd : c'.dl = c.dl) (w : Bytes) :
    Renders P c n w ↔ Renders P c' n w :=
  C59_relevant F b he he' ([] : List Ref) (by rw [hn]; exact fun _ h => h) (heedsOnly_of_callbackFree hc)
    ⟨fun _ h => (nomatch h), fun _ h => (nomatch h), fun h => (nomatch h), hd⟩ w

example (w : Bytes) := C59_static Sample.built (.text (fun _ => []) [.str b%"a<b"]) (c := Sample.ctx)
  (c' := { Sample.ctx with frame := { err := none, data := none, cargo := .nil } }) rfl rfl ⟨trivial, trivial⟩ rfl rfl w

/-- The same for calls of `Render`: whatever the state is otherwise, both calls return nil and write the same, up to the
order of conditional attributes (see C20). -/
theorem C59_writes {env : Env} (H : Healthy env) {n : Node} (b : Built n) {s s' : St} (he : s.frame.err = none)
    (he' : s'.frame.err = none) (hc : CallbackFree s.dl n) (S : SameUnder (nodeRefs s.dl n) s.toCtx s'.toCtx) :
    ∃ w w', Writes env n s w ∧ Writes env n s' w' ∧ Reordered w w' := by
  obtain ⟨t, w, h1, h2, h3, h4⟩ := callbackFree_refines H wfFns_noFns b.wf hc he
  have hc' : CallbackFree s'.dl n := by
    rw [show s'.dl = s.dl from S.attributes]; exact hc
  obtain ⟨t', w', k1, k2, k3, k4⟩ := callbackFree_refines H wfFns_noFns b.wf hc' he'
  exact ⟨w, w', ⟨t, h1, h4, h2⟩, ⟨t', k1, k4, k2⟩,
    out_reordered h3 ((out_sameUnder S (heedsOnly_of_callbackFree hc) fun _ h => h).2 k3)⟩

example := C59_writes Sample.healthy dependsSample_built (s := Sample.st)
  (s' := { Sample.st with maps := fun m => (b%"off", .nil) :: Sample.maps m }) rfl rfl dependsSample_free
  ⟨fun k hk => by
      have : k ≠ b%"off" := by rintro rfl; exact absurd hk (by decide)
      simp [Ctx.lookup, Sample.st, Sample.ctx, List.lookup_cons, beq_eq_false_iff_ne.2 this],
    fun k hk m => by
      have : k ≠ b%"off" := by rintro rfl; exact absurd hk (by decide)
      simp [Sample.st, Sample.ctx, List.lookup_cons, beq_eq_false_iff_ne.2 this], fun _ => rfl, rfl⟩

/-- An entry that the template refers to does matter. -/
example : ∃ w, Renders Sample.fns Sample.ctx dependsSample w ∧
    ¬ Renders Sample.fns (put Sample.ctx 0 b%"name" (.str b%"Eve")) dependsSample w := by
  have wf : WF dependsSample := ⟨trivial, ⟨trivial, trivial⟩, trivial⟩
  refine ⟨b%"&lt;Bob&gt;a&lt;Bob&gt;b", ?_, fun h => ?_⟩
  · rw [renders_iff_out Sample.built.wf wf rfl]
    refine .iterator (.cons (w := b%"&lt;Bob&gt;a") (.cons (w := b%"&lt;Bob&gt;") .text (.cons (w := b%"a") (w' := []) (.conditionalOn rfl
      (.cons (w' := []) .text .nil)) .nil)) (.cons (w := b%"&lt;Bob&gt;b") (w' := []) (.cons (w := b%"&lt;Bob&gt;") .text (.cons (w := b%"b") (w' := [])
        (.conditionalOn rfl (.cons (w' := []) .text .nil)) .nil)) .nil))
  · rw [renders_iff_out Sample.built.wf wf rfl] at h
    cases h with
    | iterator h =>
      generalize hw : b%"&lt;Bob&gt;a&lt;Bob&gt;b" = w at h
      cases h with
      | cons h1 h2 =>
        cases h1 with
        | cons h3 h4 =>
          cases h3
          rw [show valuesBytes Sample.fns _ _ = b%"Eve" from rfl] at hw
          exact absurd (congrArg List.head? hw) (by simp)

end Props
end Aitch
