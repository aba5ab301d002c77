import Verif.Proofs.Buffer
import Verif.Props.Depends
import Verif.Proofs.Leaf
/-
C91: components that render into a buffer.
-/
namespace Aitch.Props
open Spec

/-! ### C91 — rendering into a buffer -/

/-- If rendering into the buffer succeeds, the page gets the whole contents of the buffer in one call of its writer, and the
component returns what that call returns.  The context keeps its data and cargo, whatever happened in the inner one.  This
holds for any node, any functions and any writer. -/
theorem C91_once {env inner : Env} {f : FnId} {n : Node} (B : RendersInBuffer env inner f n passOn) {s t : St}
    (h : Runs inner n (inBuffer s) none t) (he : s.frame.err = none) :
    ∃ s', Runs env (component f) s (env.write s.log t.out).2 s' ∧
      s'.log = s.log ++ [⟨t.out, (env.write s.log t.out).1, (env.write s.log t.out).2⟩] ∧
      s'.frame = { s.frame with err := (env.write s.log t.out).2 } ∧ s'.parents = s.parents ∧
      s'.maps = t.maps ∧ s'.dl = t.dl ∧ s'.world = t.world := by
  obtain ⟨e, t', h1, h2⟩ := B.2 s
  obtain ⟨rfl, rfl⟩ := runs_unique h h1
  exact ⟨_, ⟨1, (exec_inBuffer 0 h2).trans (exec_writeRaw he)⟩, rfl, rfl, rfl, rfl, rfl, rfl⟩

/-- If rendering into the buffer fails, nothing of it reaches the page: the writer is not called, the context is as before,
and the component returns the error. -/
theorem C91_nothing {env inner : Env} {f : FnId} {n : Node} (B : RendersInBuffer env inner f n passOn) {s t : St} {e : Err}
    (h : Runs inner n (inBuffer s) (some e) t) :
    ∃ s', Runs env (component f) s (some e) s' ∧ s'.log = s.log ∧ s'.frame = s.frame ∧ s'.parents = s.parents := by
  obtain ⟨_, t', h1, h2⟩ := B.2 s
  obtain ⟨rfl, rfl⟩ := runs_unique h h1
  exact ⟨_, ⟨1, exec_inBuffer 0 h2⟩, rfl, rfl, rfl⟩

/-- After an error on the page the component writes nothing, and returns that error, or the one from the buffer. -/
theorem C91_after_error {env inner : Env} {f : FnId} {n : Node} (B : RendersInBuffer env inner f n passOn) {s : St} {e : Err}
    (he : s.frame.err = some e) :
    ∃ r s', Runs env (component f) s (some r) s' ∧ s'.log = s.log := by
  obtain ⟨e', t, h1, h2⟩ := B.2 s
  cases e' with
  | some e' => exact ⟨e', _, ⟨1, exec_inBuffer 0 h2⟩, rfl⟩
  | none => exact ⟨e, _, ⟨1, (exec_inBuffer 0 h2).trans (exec_writeRaw_err he)⟩, rfl⟩

/-- What the page gets is what the node itself could write there: also deep in the page and in loops, where the inner
context has no parent though the outer one has, as long as no function looks at the parent. -/
theorem C91_output {env inner : Env} {f : FnId} {n : Node} (B : RendersInBuffer env inner f n passOn) {P : Fns}
    (C : Computes inner P) (F : BuiltFns P) (I : IgnoresParent P) (b : Built n) (H : Healthy env) {s : St}
    (he : s.frame.err = none) : ∃ w, Renders P s.toCtx n w ∧ Writes env (component f) s w := by
  obtain ⟨e, t, h1, h2⟩ := B.2 s
  obtain ⟨fuel, h3⟩ := h1
  obtain ⟨rfl, h4, w, h5, h6⟩ := render_refines ⟨B.1, C⟩ F.wf b.wf rfl h3
  have h7 : t.out = w := by rw [h6]; rfl
  have h8 : Out P s.toCtx n w := by
    have := out_parents I h5 s.parents
    obtain ⟨⟨⟨err, _, _⟩, _, _, _, _, _⟩, _, _⟩ := s
    cases he
    exact this
  have r := (exec_inBuffer 0 h2).trans (@exec_writeRaw env (renderProg 0) t.out [] (backFrom s t) he)
  rw [H, h7] at r
  refine ⟨w, (b.renders_iff F he).2 h8, _, ⟨1, r⟩, ?_, ?_⟩
  · simp [St.out, St.setErr, St.wrote, accepted, backFrom]
  · have m1 : t.maps = s.maps := (congrArg Ctx.maps h4 : t.maps = (inBuffer s).maps)
    have m2 : t.dl = s.dl := (congrArg Ctx.dl h4 : t.dl = (inBuffer s).dl)
    have m3 : t.world = s.world := (congrArg Ctx.world h4 : t.world = (inBuffer s).world)
    have m4 : t.dlNext = s.dlNext := (congrArg Ctx.dlNext h4 : t.dlNext = (inBuffer s).dlNext)
    obtain ⟨⟨⟨err, _, _⟩, _, _, _, _, _⟩, _, _⟩ := s
    cases he
    simp only at m1 m2 m3 m4
    simp only [St.setErr, St.wrote, backFrom, m1, m2, m3, m4]

/-- A buffer can also be the result of a dynamic value.  So nodes can be written where only values can stand, in attribute
values and comments: the value stands for what the node could write there. -/
theorem C91_value {env inner : Env} {f : FnId} {n : Node} (B : ReturnsBuffer env inner f n) {P : Fns} (C : Computes inner P)
    (F : BuiltFns P) (I : IgnoresParent P) (b : Built n) (H : Healthy env) {s : St} (he : s.frame.err = none) (name : Bytes) :
    ∃ w, Renders P s.toCtx n w ∧
      Writes env (Text s.dl [.dynFunc true (some f)]) s w ∧
      Writes env (Comment s.dl [.dynFunc true (some f)]) s (b%"<!--" ++ w ++ b%"-->") ∧
      Writes env (NewAttribute s.dl name [.dynFunc true (some f)]) s (b%" " ++ name ++ b%"=\"" ++ w ++ b%"\"") := by
  obtain ⟨e, t, h1, h2⟩ := B.2 s
  obtain ⟨fuel, h3⟩ := h1
  obtain ⟨rfl, h4, w, h5, h6⟩ := render_refines ⟨B.1, C⟩ F.wf b.wf rfl h3
  have h7 : t.out = w := by rw [h6]; rfl
  have h8 : Out P s.toCtx n w := by
    have := out_parents I h5 s.parents
    obtain ⟨⟨⟨err, _, _⟩, _, _, _, _, _⟩, _, _⟩ := s
    cases he
    exact this
  have err : ∀ s' : St, s'.toCtx = s.toCtx → s'.frame.err = none := fun s' h =>
    (congrArg (fun c : Ctx => c.frame.err) h).trans he
  have val : ∀ s' : St, s'.toCtx = s.toCtx → s'.tick = s.tick → Puts env (renderValues [.mk [] (some (.user f)) []]) s' w := by
    intro s' hc ht
    rw [← h7]
    exact puts_dynValues H (err s' hc) (dyn_buffer B ⟨fuel, h3⟩ h4 hc ht)
  refine ⟨w, (b.renders_iff F he).2 h8, (val s rfl rfl).writes he rfl, ?_, ?_⟩
  · rw [List.append_assoc]
    exact Puts.writes ((puts_ctxWrite H _ he).bind fun _ s1 c1 t1 => (val s1 c1 t1).bind fun _ s2 c2 t2 =>
      puts_ctxWrite H _ (err s2 (c2.trans c1))) he (by
        rw [← exec_assoc]
        change exec env (ctxWrite b%"<!--" >>= fun _ => renderValues [.mk [] (some (.user f)) []] >>= fun _ =>
          ctxWrite b%"-->" >>= fun _ => retErr) s = _
        simp only [exec_bind, Option.bind_assoc])
  · rw [List.append_assoc, List.append_assoc, List.append_assoc]
    exact Puts.writes ((puts_ctxWrite H _ he).bind fun _ s1 c1 t1 =>
      (puts_ctxWrite H _ (err s1 c1)).bind fun _ s2 c2 t2 =>
      (puts_ctxWrite H _ (err s2 (c2.trans c1))).bind fun _ s3 c3 t3 =>
      (val s3 (c3.trans (c2.trans c1)) (t3.trans (t2.trans t1))).bind fun _ s4 c4 t4 =>
      puts_ctxWrite H _ (err s4 (c4.trans (c3.trans (c2.trans c1))))) he rfl

/-- With something to fall back on: either the page gets the whole output of the node, in one call, or it is as if the other
node alone had been there (in the memory that the failed attempt left). -/
theorem C91_fallback {env inner : Env} {f : FnId} {n m : Node} (B : RendersInBuffer env inner f n (orElse m)) {s t : St} :
    (Runs inner n (inBuffer s) none t → s.frame.err = none →
      ∃ s', Runs env (component f) s (env.write s.log t.out).2 s' ∧
        s'.log = s.log ++ [⟨t.out, (env.write s.log t.out).1, (env.write s.log t.out).2⟩]) ∧
    (∀ e, Runs inner n (inBuffer s) (some e) t → ∀ r s',
      (Runs env (component f) s r s' ↔ Runs env m (backFrom s t) r s')) := by
  obtain ⟨_, t', h1, h2⟩ := B.2 s
  refine ⟨fun h he => ?_, fun e h r s' => ?_⟩
  · obtain ⟨rfl, rfl⟩ := runs_unique h h1
    exact ⟨_, ⟨1, (exec_inBuffer 0 h2).trans (exec_writeRaw he)⟩, rfl⟩
  · obtain ⟨rfl, rfl⟩ := runs_unique h h1
    have key : ∀ fuel, render env (fuel + 1) (component f) s = render env fuel m (backFrom s t) := by
      intro fuel
      rw [exec_inBuffer fuel h2]
      change exec env (renderProg fuel m >>= fun e => Do.look >>= fun _ => Pure.pure e) (backFrom s t) = _
      rw [exec_bind]
      unfold render
      cases exec env (renderProg fuel m) (backFrom s t) <;> rfl
    constructor
    · rintro ⟨fuel, hr⟩
      cases fuel with
      | zero => simp [render, renderProg, exec] at hr
      | succ fuel => exact ⟨fuel, (key fuel).symm.trans hr⟩
    · rintro ⟨fuel, hr⟩
      exact ⟨fuel + 1, (key fuel).trans hr⟩

/-- A cache: bytes that were rendered into a buffer once, in state `s₀`, are what the node itself could write in a later
state, as long as everything is the same that the node refers to (C59). -/
theorem C91_cached {env inner : Env} {P : Fns} (Hi : Healthy inner) (C : Computes inner P) (F : BuiltFns P) {n : Node}
    (b : Built n) {s₀ t : St} {e : Option Err} (h : Runs inner n (inBuffer s₀) e t) {f : FnId} (hf : WritesBytes env f t.out)
    (H : Healthy env) {s : St} (he : s.frame.err = none) (R : List Ref) (hr : ∀ d ∈ nodeRefs s₀.dl n, d ∈ R)
    (hu : HeedsOnly P R s₀.dl n) (S : SameUnder R s₀.toCtx s.toCtx) :
    Renders P s.toCtx n t.out ∧ Writes env (component f) s t.out := by
  obtain ⟨fuel, h3⟩ := h
  obtain ⟨rfl, h4, w, h5, h6⟩ := render_refines ⟨Hi, C⟩ F.wf b.wf rfl h3
  have h7 : t.out = w := by rw [h6]; rfl
  rw [h7] at hf ⊢
  have S' : SameUnder R (inBuffer s₀).toCtx s.toCtx := ⟨S.data, S.maps, S.cargo, S.attributes⟩
  refine ⟨(C59_relevant F b (c := (inBuffer s₀).toCtx) rfl he R hr hu S' w).1 ((b.renders_iff F rfl).2 h5), ?_⟩
  have r := @exec_writeRaw env (renderProg 0) w [] s he
  have e1 : render env 1 (component f) s = exec env (runImp (renderProg 0) (env.imp f s) []) s := rfl
  rw [hf s, r, H] at e1
  refine ⟨_, ⟨1, e1⟩, ?_, ?_⟩
  · simp [St.out, St.setErr, St.wrote, accepted]
  · obtain ⟨⟨⟨err, _, _⟩, _, _, _, _, _⟩, _, _⟩ := s
    cases he
    rfl

/-! ### Cases that meet the hypotheses -/

/-- A component that renders `n` into a buffer exists for every `n` whose rendering ends. -/
theorem buffer_met {inner : Env} (H : Healthy inner) {n : Node} (h : ∀ s, ∃ e t, Runs inner n (inBuffer s) e t) (f : FnId)
    (next : Option Err → Bytes → ImpProg) :
    ∃ env, Healthy env ∧ RendersInBuffer env inner f n next := by
  refine ⟨{ Sample.env with
    imp := fun _ s => .user (fun _ => backFrom s (h s).choose_spec.choose)
      (fun _ => next (h s).choose (h s).choose_spec.choose.out) }, Sample.healthy, H, fun s => ?_⟩
  exact ⟨_, _, (h s).choose_spec.choose_spec, rfl⟩

theorem bufSample_ends (s : St) : ∃ e t, Runs Sample.env dependsSample (inBuffer s) e t := by
  have hf : CallbackFree (inBuffer s).dl dependsSample :=
    ⟨trivial, ⟨trivial, trivial⟩, ⟨trivial, ⟨trivial, trivial⟩, trivial⟩, trivial⟩
  obtain ⟨t, _, h, _⟩ := callbackFree_refines Sample.healthy wfFns_noFns dependsSample_built.wf hf rfl
  exact ⟨_, t, h⟩

theorem sample_ignoresParent : IgnoresParent Sample.fns :=
  ⟨fun _ _ _ => rfl, fun _ _ _ => rfl, fun _ _ _ => rfl, fun _ _ _ => rfl, fun _ _ _ => rfl, fun _ _ _ => rfl⟩

/-- The state of a page in a loop: there is a parent context. -/
def bufState : St := { Sample.st with parents := [Sample.ctx.frame] }

/-- A list with a name and the cargo, buffered, deep in a page. -/
example : ∃ env, ∃ w, Renders Sample.fns bufState.toCtx dependsSample w ∧ Writes env (component 9) bufState w := by
  obtain ⟨env, H, B⟩ := buffer_met Sample.healthy bufSample_ends 9 passOn
  exact ⟨env, C91_output B Sample.computes Sample.built sample_ignoresParent dependsSample_built H rfl⟩

theorem bufSample_runs : ∃ t, Runs Sample.env dependsSample (inBuffer bufState) none t ∧
    t.out = b%"&lt;Bob&gt;a&lt;Bob&gt;b" := ⟨_, ⟨5, rfl⟩, by decide +kernel⟩

/-- A later state, with another outside world. -/
def bufLater : St := { Sample.ctx with world := 5, log := [], tick := 3 }

/-- The same as a value. -/
example : ∃ env, ∃ w, Renders Sample.fns bufState.toCtx dependsSample w ∧
    Writes env (NewAttribute bufState.dl b%"title" [.dynFunc true (some 0)]) bufState (b%" " ++ b%"title" ++ b%"=\"" ++ w ++ b%"\"") := by
  have B : ReturnsBuffer { Sample.env with
      dyn := fun _ s => ((bufSample_ends s).choose_spec.choose.out, backFrom s (bufSample_ends s).choose_spec.choose) }
      Sample.env 0 dependsSample := ⟨Sample.healthy, fun s => ⟨_, _, (bufSample_ends s).choose_spec.choose_spec, rfl⟩⟩
  obtain ⟨w, h1, _, _, h2⟩ := C91_value B Sample.computes Sample.built sample_ignoresParent dependsSample_built
    (fun _ _ => rfl) (s := bufState) rfl b%"title"
  exact ⟨_, w, h1, h2⟩

/-- The bytes of that list, kept and written later. -/
example : ∃ env, Renders Sample.fns bufLater.toCtx dependsSample b%"&lt;Bob&gt;a&lt;Bob&gt;b" ∧
    Writes env (component 9) bufLater b%"&lt;Bob&gt;a&lt;Bob&gt;b" := by
  obtain ⟨t, h, ht⟩ := bufSample_runs
  rw [← ht]
  exact ⟨{ Sample.env with imp := fun _ _ => .call (.writeRaw t.out) fun s => .ret s.frame.err },
    C91_cached Sample.healthy Sample.computes Sample.built dependsSample_built h (fun _ => rfl) (fun _ _ => rfl) rfl _
      (fun _ h => h) (heedsOnly_of_callbackFree dependsSample_free)
      ⟨fun _ _ => rfl, fun _ _ _ => rfl, fun _ => rfl, rfl⟩⟩

/-- A box that fails in the middle: its component number 3 returns an error. -/
def bufBroken : Node := (NewElement b%"div" [.str b%"begun", .node (component 3)] .empty).1

/-- The sample's functions, and a component number 3 that returns error 5. -/
def bufInner : Env := { Sample.env with imp := fun f s => if f = 3 then .ret (some 5) else Sample.env.imp f s }

theorem bufBroken_fails (s : St) : ∃ t, Runs bufInner bufBroken (inBuffer s) (some 5) t := ⟨_, ⟨4, rfl⟩⟩

/-- Rendered directly, the box leaves its beginning on the page; buffered, nothing. -/
example : ∃ env, (∃ s', Runs bufInner bufBroken Sample.st (some 5) s' ∧ s'.out = b%"<div>begun") ∧
    ∃ s', Runs env (component 9) Sample.st (some 5) s' ∧ s'.log = [] := by
  obtain ⟨env, _, B⟩ := buffer_met (inner := bufInner) (n := bufBroken) (fun _ _ => rfl)
    (fun s => ⟨_, bufBroken_fails s⟩) 9 passOn
  obtain ⟨t, ht⟩ := bufBroken_fails Sample.st
  obtain ⟨s', h1, h2, _⟩ := C91_nothing B ht
  exact ⟨env, ⟨_, ⟨4, rfl⟩, by decide⟩, s', h1, h2⟩

/-- With a text to fall back on, that text appears instead. -/
example : ∃ env, ∃ s', Runs env (component 9) Sample.st none s' ∧ s'.out = b%"no data" := by
  obtain ⟨env, H, B⟩ := buffer_met (inner := bufInner) (n := bufBroken) (fun _ _ => rfl)
    (fun s => ⟨_, bufBroken_fails s⟩) 9 (orElse (Text (fun _ => []) [.str b%"no data"]))
  obtain ⟨t, ht⟩ := bufBroken_fails Sample.st
  have hw : Writes env (Text (fun _ => []) [.str b%"no data"]) (backFrom Sample.st t) b%"no data" :=
    writes_of_out H (n := Text (fun _ => []) [.str b%"no data"]) (Built.text _ _).wf ⟨trivial, trivial⟩ rfl fun w' h' => by cases h'; rfl
  obtain ⟨s', h1, h2, _⟩ := hw
  exact ⟨env, s', ((C91_fallback B (t := t)).2 5 ht none s').2 h1, h2⟩

/-- Functions that look at the parent: `dyn` writes whether there is one. -/
def bufParent : Env := { Sample.env with dyn := fun _ s => (if s.parents = [] then b%"top" else b%"nested", s) }

/-- A text of that function. -/
def bufText : Node := Text (fun _ => []) [.dynFunc true (some 0)]

/-- The condition on functions in `C91_output` is needed: the inner context has no parent. -/
theorem C91_parent : ∃ env, Healthy env ∧ RendersInBuffer env bufParent 9 bufText passOn ∧
    Writes bufParent bufText bufState b%"nested" ∧ Writes env (component 9) bufState b%"top" := by
  obtain ⟨env, H, B⟩ := buffer_met (inner := bufParent) (n := bufText) (fun _ _ => rfl)
    (fun s => ⟨none, _, ⟨2, rfl⟩⟩) 9 passOn
  refine ⟨env, H, B, by refine ⟨_, ⟨2, rfl⟩, ?_, ?_⟩ <;> rfl, ?_⟩
  obtain ⟨e, t, h1, h2⟩ := B.2 bufState
  have h : Runs bufParent bufText (inBuffer bufState) none _ := ⟨2, rfl⟩
  obtain ⟨rfl, rfl⟩ := runs_unique h h1
  have r := (exec_inBuffer 0 h2).trans (exec_writeRaw rfl)
  rw [H] at r
  refine ⟨_, ⟨1, r⟩, ?_, ?_⟩ <;> rfl

end Aitch.Props
