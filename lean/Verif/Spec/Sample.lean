import Verif.Spec.Built
/-
A concrete environment and states, for the examples that show the theorems' hypotheses are met.
-/
namespace Aitch.Spec.Sample

/-- User functions: number 0 of each kind does something, the others nothing. -/
def fns : Fns where
  dyn f _ := if f = 0 then b%"dyn" else []
  cond f _ := f = 0
  collect f _ := if f = 0 then [some (.text [.mk b%"collected" none []]), none] else []
  items f _ := if f = 0 then [.str b%"x", .map 1, .int .int 7] else []
  yields f _ := if f = 0 then [.str b%"x", .map 1, .int .int 7] else []
  imp f _ := if f = 0 then [.start b%"p" false [], .writeString b%"a<b", .end] else []

/-- A healthy writer, the functions `fns`, and maps ranged over in the given order. -/
def env : Env where
  write _ d := (d.length, none)
  dyn f s := (fns.dyn f s.toCtx, s)
  cond f s := (fns.cond f s.toCtx, s)
  collect f s := (fns.collect f s.toCtx, s)
  items f s := (fns.items f s.toCtx, s)
  yields f s := yieldsOf (fns.yields f s.toCtx)
  imp f s := impOf (fns.imp f s.toCtx)
  order _ ks := ks
  order_perm _ _ := .refl _

theorem healthy : Healthy env := fun _ _ => rfl

theorem computes : Computes env fns :=
  ⟨fun _ _ => rfl, fun _ _ => rfl, fun _ _ => rfl, fun _ _ => rfl, fun _ _ => rfl, fun _ _ => makesCalls_impOf _⟩

theorem built : BuiltFns fns := by
  refine ⟨fun f c n hn => ?_, fun f c ns n hn _ => ?_⟩
  · unfold fns at hn
    simp only at hn
    split at hn
    · simp at hn; subst hn; exact .text (fun _ => []) [.bytes b%"collected"]
    · simp at hn
  · unfold fns at hn
    simp only at hn
    split at hn <;> simp at hn

/-- Data with some keys, map number 0. -/
def maps : MapId → List (Bytes × Any)
  | 0 => [(b%"name", .str b%"<Bob>"), (b%"off", .bool false), (b%"n", .int .int (-12)),
          (b%"list", .anySlice [.str b%"a", .str b%"b"])]
  | 1 => [(b%"name", .str b%"inner")]
  | _ => []

/-- A context with data map 0 and a cargo. -/
def ctx : Ctx where
  frame := { err := none, data := some 0, cargo := .str b%"car&go" }
  parents := []
  maps := maps
  dl := fun _ => []
  dlNext := 0
  world := 0

/-- The state at the start of a render. -/
def st : St := { ctx with log := [], tick := 0 }

end Aitch.Spec.Sample
