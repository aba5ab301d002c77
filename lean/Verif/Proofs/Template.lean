import Verif.Spec.Template
import Verif.Proofs.Fuel
import Verif.Proofs.Refine
import Verif.Proofs.Built
import Verif.Proofs.Leaf
/-
Lemmas about templates.
-/
namespace Aitch

open Spec

theorem Le.execParts {rec rec' : Render} (R : ∀ n, Le (rec n) (rec' n)) :
    (ps : List Part) → Le (execParts rec ps) (execParts rec' ps)
  | [] => .refl _
  | .text t :: ps => by
    refine .bindR fun r => ?_
    cases h : r.2 with
    | none => exact Le.execParts R ps
    | some e => exact .refl _
  | .call n p :: ps => by
    refine .bind (R n) fun e => ?_
    cases e with
    | some e => exact .refl _
    | none =>
      refine .bindR fun r => ?_
      cases h : r.2 with
      | none => exact Le.execParts R ps
      | some e => exact .refl _

theorem exec_write (env : Env) (d : Bytes) (s : St) :
    exec env (Do.write d) s = some (env.write s.log d, s.wrote d (env.write s.log d)) := rfl

theorem leaves_iff {n : Node} {p : Place} {w : Bytes} : Leaves n p w ↔ w = escapeEmpty (contextFunc n) p := by
  cases p <;> cases n <;> rfl

theorem templateRun_of_exec {env : Env} {fuel : Nat} (ps : List Part) {s s' : St} {e : Option Err}
    (h : exec env (execParts (renderProg fuel) ps) s = some (e, s')) : TemplateRun env ps s e s' := by
  induction ps generalizing s with
  | nil => cases h; exact .done
  | cons p ps ih =>
    cases p with
    | text t =>
      simp only [execParts, exec_bind, exec_write, Option.bind_some] at h
      cases hr : (env.write s.log t).2 with
      | none => simp only [hr] at h; exact .text ⟨hr.symm, rfl⟩ (ih h)
      | some e1 => simp only [hr, exec_pure] at h; cases h; exact .textFails ⟨hr.symm, rfl⟩
    | call n pl =>
      simp only [execParts, exec_bind] at h
      cases hn : exec env (renderProg fuel n) s with
      | none => simp [hn] at h
      | some p =>
        obtain ⟨e1, s1⟩ := p
        simp only [hn, Option.bind_some] at h
        cases e1 with
        | some e1 => simp only [exec_pure] at h; cases h; exact .nodeFails ⟨fuel, hn⟩
        | none =>
          simp only [exec_bind, exec_write, Option.bind_some] at h
          cases hr : (env.write s1.log (escapeEmpty (contextFunc n) pl)).2 with
          | none => simp only [hr] at h; exact .node ⟨fuel, hn⟩ (leaves_iff.2 rfl) ⟨hr.symm, rfl⟩ (ih h)
          | some e1 =>
            simp only [hr, exec_pure] at h; cases h; exact .restFails ⟨fuel, hn⟩ (leaves_iff.2 rfl) ⟨hr.symm, rfl⟩

theorem exec_of_templateRun {env : Env} {ps : List Part} {s s' : St} {e : Option Err}
    (h : TemplateRun env ps s e s') : ∃ fuel, exec env (execParts (renderProg fuel) ps) s = some (e, s') := by
  induction h with
  | done => exact ⟨0, rfl⟩
  | text hw _ ih =>
    obtain ⟨f, ih⟩ := ih
    obtain ⟨h1, rfl⟩ := hw
    refine ⟨f, ?_⟩
    simp only [execParts, exec_bind, exec_write, Option.bind_some, ← h1]; exact ih
  | textFails hw =>
    obtain ⟨h1, rfl⟩ := hw
    refine ⟨0, ?_⟩
    simp only [execParts, exec_bind, exec_write, Option.bind_some, ← h1]; rfl
  | @node n p w ps s s1 s2 e s' hn hl hw _ ih =>
    obtain ⟨f, ih⟩ := ih
    cases leaves_iff.1 hl
    obtain ⟨g, hn⟩ := hn
    obtain ⟨h1, rfl⟩ := hw
    have hn' := (Le.renderProg (Nat.le_max_right f g) n).exec hn
    have ih' := (Le.execParts (fun n => Le.renderProg (Nat.le_max_left f g) n) ps).exec ih
    refine ⟨max f g, ?_⟩
    simp only [execParts, exec_bind, hn', exec_write, Option.bind_some, ← h1]; exact ih'
  | nodeFails hn =>
    obtain ⟨g, hn⟩ := hn
    refine ⟨g, ?_⟩
    simp only [execParts, exec_bind, show exec _ (renderProg g _) _ = _ from hn, Option.bind_some]; rfl
  | restFails hn hl hw =>
    cases leaves_iff.1 hl
    obtain ⟨g, hn⟩ := hn
    obtain ⟨h1, rfl⟩ := hw
    refine ⟨g, ?_⟩
    simp only [execParts, exec_bind, show exec _ (renderProg g _) _ = _ from hn, exec_write, Option.bind_some, ← h1]
    rfl

theorem executes_iff {env : Env} {t : List Part} {d : Option MapId} {cargo : Any} {s s' : St} {e : Option Err} :
    Executes env t d cargo s e s' ↔ TemplateRun env t (startedWith s d cargo) e s' :=
  ⟨fun ⟨_, h⟩ => templateRun_of_exec t h, exec_of_templateRun⟩

/-- Everything written before the end of a run is in the log at the end. -/
theorem templateRun_append {env : Env} {ps qs : List Part} {s s1 s' : St} {e : Option Err}
    (h1 : TemplateRun env ps s none s1) (h2 : TemplateRun env qs s1 e s') : TemplateRun env (ps ++ qs) s e s' := by
  generalize he : (none : Option Err) = r at h1
  induction h1 with
  | done => exact h2
  | text hw _ ih => exact .text hw (ih h2 he)
  | node hn hl hw _ ih => exact .node hn hl hw (ih h2 he)
  | textFails => cases he
  | nodeFails => cases he
  | restFails => cases he

theorem templateRun_stop {env : Env} {ps qs : List Part} {s s1 : St} {e : Err}
    (h1 : TemplateRun env ps s (some e) s1) : TemplateRun env (ps ++ qs) s (some e) s1 := by
  generalize he : some e = r at h1
  induction h1 with
  | done => cases he
  | text hw _ ih => exact .text hw (ih he)
  | node hn hl hw _ ih => exact .node hn hl hw (ih he)
  | textFails hw => exact .textFails hw
  | nodeFails hn => exact .nodeFails hn
  | restFails hn hl hw => exact .restFails hn hl hw

theorem templateRun_out {env : Env} {P : Fns} (G : Good env P) (F : BuiltFns P) {ps : List Part}
    (hb : ∀ n p, .call n p ∈ ps → Built n) {s s' : St} {e : Option Err} (he : s.frame.err = none)
    (h : TemplateRun env ps s e s') :
    e = none ∧ s'.toCtx = s.toCtx ∧ ∃ ws, Each (PartWrites P s.toCtx) ps ws ∧ s'.out = s.out ++ ws.flatten := by
  induction h with
  | done => exact ⟨rfl, rfl, [], .nil, by simp⟩
  | @text t ps s s1 e s' hw _ ih =>
    obtain ⟨_, rfl⟩ := hw
    obtain ⟨h1, h2, ws, h3, h4⟩ := ih (fun n p hn => hb n p (.tail _ hn)) he
    refine ⟨h1, h2, t :: ws, .cons rfl h3, ?_⟩
    rw [h4, G.healthy, out_wrote]; simp
  | textFails hw => obtain ⟨h1, rfl⟩ := hw; rw [G.healthy] at h1; cases h1
  | @node n p w0 ps s s1 s2 e s' hn hl hw _ ih =>
    obtain ⟨f, hn⟩ := hn
    obtain ⟨_, rfl⟩ := hw
    have b := hb n _ (.head _)
    obtain ⟨_, k2, w, k3, k4⟩ := render_refines G F.wf b.wf he hn
    have k5 : (s1.wrote w0 (env.write s1.log w0)).toCtx = s.toCtx := k2
    obtain ⟨h1, h2, ws, h3, h4⟩ := ih (fun n p hn => hb n p (.tail _ hn)) (by
      have := congrArg (fun c : Ctx => c.frame.err) k5
      exact this.trans he)
    rw [k5] at h2 h3
    refine ⟨h1, h2, (w ++ w0) :: ws, .cons ⟨w, w0, (b.renders_iff F he).mpr k3, hl, rfl⟩ h3, ?_⟩
    rw [h4, G.healthy, out_wrote, k4]; simp
  | @nodeFails n p ps s e s1 hn =>
    obtain ⟨f, hn⟩ := hn
    have := (render_refines G F.wf (hb n _ (.head _)).wf he hn).1
    cases this
  | restFails _ _ hw => obtain ⟨h1, rfl⟩ := hw; rw [G.healthy] at h1; cases h1

theorem lookup_contextFuncMap {m : NodeMap} (hd : (m.map (·.1)).Nodup) (k : Bytes) :
    (contextFuncMap m).lookup k = (m.lookup k).join := by
  induction m with
  | nil => rfl
  | cons e m ih =>
    obtain ⟨k', n⟩ := e
    simp only [List.map_cons, List.nodup_cons] at hd
    have ih := ih hd.2
    have hnone : k = k' → m.lookup k = none := by
      rintro rfl
      rw [List.lookup_eq_none_iff]
      intro p hp
      simp only [bne_iff_ne, ne_eq]
      rintro rfl
      exact hd.1 (List.mem_map_of_mem hp)
    cases n with
    | none =>
      simp only [contextFuncMap, List.filterMap_cons, Option.map_none]
      by_cases hk : k = k'
      · subst hk
        rw [List.lookup_cons]
        simp only [beq_self_eq_true]
        rw [show (m.filterMap _).lookup k = _ from ih, hnone rfl]; rfl
      · rw [List.lookup_cons]
        simp only [beq_false_of_ne hk]
        exact ih
    | some n =>
      simp only [contextFuncMap, List.filterMap_cons, Option.map_some]
      rw [List.lookup_cons, List.lookup_cons]
      by_cases hk : k = k'
      · subst hk; simp
      · simp only [beq_false_of_ne hk]; exact ih

theorem parse_iff {m : NodeMap} (hd : (m.map (·.1)).Nodup) (text : List Piece) (t : List Part) :
    parse (contextFuncMap m) text = some t ↔ Each (Names m) text t := by
  induction text generalizing t with
  | nil =>
    constructor
    · intro h; cases h; exact .nil
    · intro h; cases h; rfl
  | cons p ps ih =>
    cases p with
    | text x =>
      simp only [parse, Option.map_eq_some_iff]
      constructor
      · rintro ⟨t', h, rfl⟩; exact .cons .text ((ih _).mp h)
      · intro h; cases h with
        | cons h1 h2 => cases h1; exact ⟨_, (ih _).mpr h2, rfl⟩
    | action k p =>
      simp only [parse]
      rw [lookup_contextFuncMap hd]
      constructor
      · intro h
        cases hk : m.lookup k with
        | none => simp [hk] at h
        | some n =>
          cases n with
          | none => simp [hk] at h
          | some n =>
            simp only [hk, Option.join_some, Option.map_eq_some_iff] at h
            obtain ⟨t', h, rfl⟩ := h
            exact .cons (.action hk) ((ih _).mp h)
      · intro h; cases h with
        | cons h1 h2 =>
          cases h1 with
          | action hk => simp only [hk, Option.join_some, Option.map_eq_some_iff]; exact ⟨_, (ih _).mpr h2, rfl⟩

theorem parse_none {m : NodeMap} (hd : (m.map (·.1)).Nodup) (text : List Piece) :
    parse (contextFuncMap m) text = none ↔ ∃ k p, .action k p ∈ text ∧ ∀ n, m.lookup k ≠ some (some n) := by
  induction text with
  | nil => simp [parse]
  | cons p ps ih =>
    cases p with
    | text x => simp [parse, ih]
    | action k p =>
      simp only [parse]
      rw [lookup_contextFuncMap hd]
      cases hk : m.lookup k with
      | none => simp only [Option.join_none, true_iff]; exact ⟨k, p, .head _, by simp [hk]⟩
      | some n =>
        cases n with
        | none => simp only [Option.join_some, true_iff]; exact ⟨k, p, .head _, by simp [hk]⟩
        | some n =>
          simp only [Option.join_some, Option.map_eq_none_iff, ih, List.mem_cons]
          constructor
          · rintro ⟨k', p', h, h'⟩; exact ⟨k', p', .inr h, h'⟩
          · rintro ⟨k', p', h | h, h'⟩
            · cases h; exact absurd hk (h' n)
            · exact ⟨k', p', h, h'⟩

theorem isLetter_iff (c : UInt8) : goodName.isLetter c = true ↔ c ∈ letters ++ b%"_" ∨ 128 ≤ c := by
  have : ∀ n : Fin 256, goodName.isLetter (UInt8.ofFin n) = true ↔ UInt8.ofFin n ∈ letters ++ b%"_" ∨ 128 ≤ UInt8.ofFin n := by
    decide +kernel
  exact this c.toFin

theorem isLetterOrDigit_iff (c : UInt8) :
    (goodName.isLetter c || (48 ≤ c && c ≤ 57)) = true ↔ c ∈ letters ++ b%"_0123456789" ∨ 128 ≤ c := by
  have : ∀ n : Fin 256, (goodName.isLetter (UInt8.ofFin n) || (48 ≤ UInt8.ofFin n && UInt8.ofFin n ≤ 57)) = true ↔
      UInt8.ofFin n ∈ letters ++ b%"_0123456789" ∨ 128 ≤ UInt8.ofFin n := by decide +kernel
  exact this c.toFin

theorem goodName_iff (k : Bytes) : goodName k = true ↔ Identifier k := by
  cases k with
  | nil => simp [goodName, Identifier]
  | cons c cs =>
    simp only [goodName, Bool.and_eq_true, List.all_eq_true, isLetter_iff, isLetterOrDigit_iff]
    constructor
    · rintro ⟨h1, h2⟩; exact ⟨c, cs, rfl, h1, h2⟩
    · rintro ⟨_, _, h, h1, h2⟩; cases h; exact ⟨h1, h2⟩

theorem goodNames_iff (m : NodeMap) : ((contextFuncMap m).all fun e => goodName e.1) = true ↔ GoodNames m := by
  simp only [List.all_eq_true, goodName_iff, contextFuncMap, List.mem_filterMap, Option.map_eq_some_iff]
  constructor
  · intro h k n hm
    exact h (k, n) ⟨_, hm, n, rfl, rfl⟩
  · rintro h e ⟨x, hx, n, hn, rfl⟩
    obtain ⟨k, o⟩ := x
    simp only at hn
    subst hn
    exact h k n hx

theorem newTemplate_good {m : NodeMap} (h : GoodNames m) (text : List Piece) :
    NewTemplate text m = .val (parse (contextFuncMap m) text) := by
  unfold NewTemplate; rw [if_pos ((goodNames_iff m).2 h)]

theorem newTemplate_bad {m : NodeMap} (h : ¬ GoodNames m) (text : List Piece) : NewTemplate text m = .panic := by
  unfold NewTemplate; rw [if_neg fun h' => h ((goodNames_iff m).1 h')]

end Aitch
