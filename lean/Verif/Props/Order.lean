import Verif.Proofs.OrderPure
import Verif.Proofs.OrderComplete
import Verif.Props.Termination
import Verif.Props.Escaping
/-
C68: functions with side effects run in document order.
-/
namespace Aitch.Props
open Spec

/-! ### C68 — functions with side effects run in document order, once at each place where they stand -/

/-- A render under a healthy writer, with user functions that may change memory but report no error, returns nil,
and what it writes and leaves in memory is the template played from start to end. -/
theorem C68_order {env : Env} {E : Effects} (H : Healthy env) (A : Acts env E) (K : Calm E) {n : Node} (b : Built n)
    {s s' : St} {e : Option Err} (he : s.frame.err = none) (hr : Runs env n s e s') :
    e = none ∧ ∃ w, s'.out = s.out ++ w ∧ Plays E n s.toCtx w s'.toCtx := by
  obtain ⟨fuel, hr⟩ := hr
  obtain ⟨w, ho, h1, -, h3⟩ := recPlays ⟨H, A, K⟩ fuel n s.toCtx b.wf he s e s' rfl hr
  exact ⟨h1, w, ho, h3⟩

/-- And nothing more than that is meant by playing: what the playing of a template may write and leave in memory is what
some render with these functions writes and leaves. -/
theorem C68_exact {E : Effects} (K : Calm E) {n : Node} (b : Built n) {c c' : Ctx} (he : c.frame.err = none) {w : Bytes} :
    Plays E n c w c' ↔ ∃ env, Healthy env ∧ Acts env E ∧ ∃ s s', s.toCtx = c ∧ Runs env n s none s' ∧
      s'.out = s.out ++ w ∧ s'.toCtx = c' := by
  constructor
  · intro h
    obtain ⟨env, L, fuel, s, s', hs, hr, ho, hc⟩ := run_of_plays K b.wf he h
    exact ⟨env, L.healthy, L.acts, s, s', hs, ⟨fuel, hr⟩, ho, hc⟩
  · rintro ⟨env, H, A, s, s', rfl, hr, ho, rfl⟩
    obtain ⟨-, w', ho', hp⟩ := C68_order H A K b he hr
    rw [ho'] at ho
    rwa [← List.append_cancel_left ho]

/-- Such a render ends when the template's parts are fixed (C52), so there is always something written. -/
theorem C68_fixed {env : Env} {E : Effects} (H : Healthy env) (A : Acts env E) (K : Calm E) {n : Node} (b : Built n)
    (hf : Fixed n) {s : St} (he : s.frame.err = none) :
    ∃ w s', Runs env n s none s' ∧ s'.out = s.out ++ w ∧ Plays E n s.toCtx w s'.toCtx := by
  obtain ⟨e, s', hr⟩ := C52_fixed env hf s
  obtain ⟨rfl, w, ho, hp⟩ := C68_order H A K b he hr
  exact ⟨w, s', hr, ho, hp⟩

/-- For functions that only compute, nothing else is meant by playing a template than what its renders can write. -/
theorem C68_computing {P : Fns} (F : BuiltFns P) {c c' : Ctx} (he : c.frame.err = none) {n : Node} (b : Built n)
    {w : Bytes} : Plays P.effects n c w c' ↔ c' = c ∧ Renders P c n w := by
  rw [b.renders_iff F he]
  refine ⟨out_of_plays, ?_⟩
  rintro ⟨rfl, h⟩
  exact plays_of_out h

/-- In a template without conditions, iterations and functions that supply nodes, rendering calls exactly the functions
that stand in it, in document order: if the functions note down their calls, the notes afterwards are the notes before
followed by the functions in the template. -/
theorem C68_calls {env : Env} {E : Effects} (H : Healthy env) (A : Acts env E) (K : Calm E) {t : Ctx → List FnId}
    (N : NotesCalls E t) {n : Node} (b : Built n) (hn : Straight n) {s s' : St} {e : Option Err}
    (he : s.frame.err = none) (hr : Runs env n s e s') : t s'.toCtx = t s.toCtx ++ nodeCalls s.dl n := by
  obtain ⟨-, w, -, hp⟩ := C68_order H A K b he hr
  exact (noted_node N hn hp).1

/-- A function that counts: in contexts satisfying `I` it returns the next number, formatted by `g`, and leaves the number
`n` one higher. -/
structure Counting (E : Effects) (f : FnId) (I : Ctx → Prop) (n : Ctx → Int) (g : Int → Bytes) : Prop where
  gives : ∀ c, I c → (E.dyn f c).1 = g (n c + 1)
  counts : ∀ c, I c → n (within c (E.dyn f c).2) = n c + 1
  stays : ∀ c, I c → I (within c (E.dyn f c).2)

/-- Paragraphs with texts `ts` and ids counting up from `k + 1`. -/
def numbered (g : Int → Bytes) : Int → List Bytes → Bytes
  | _, [] => []
  | k, t :: ts => b%"<p id=\"" ++ g (k + 1) ++ b%"\">" ++ escaped t ++ b%"</p>" ++ numbered g (k + 1) ts

/-- `html.P(t, html.Id(f))`. -/
def paragraph (h : Heap) (f : FnId) (t : Bytes) : Node :=
  (NewElement b%"p" [.str t, .node (NewAttribute h.dl b%"id" [.dynFunc true (some f)])] h).1

theorem paragraph_eq (h : Heap) (f : FnId) (t : Bytes) : paragraph h f t =
    .element ⟨b%"p", [.plain b%"id" [.mk [] (some (.user f)) []]], [(b%"id", 0)], []⟩
      [.text [.mk (htmlEscapeString t) none []]] := rfl

theorem built_paragraph (h : Heap) (f : FnId) (t : Bytes) : Built (paragraph h f t) := by
  refine Built.newElement _ _ _ ?_
  intro n hn
  have : n = NewAttribute h.dl b%"id" [.dynFunc true (some f)] := by simpa [nodesIn] using hn
  subst this
  exact Built.newAttribute _ _ _

theorem plays_numbered {E : Effects} {f : FnId} {I : Ctx → Prop} {n : Ctx → Int} {g : Int → Bytes}
    (C : Counting E f I n g) (h : Heap) (ts : List Bytes) {c c' : Ctx} {w : Bytes} (hI : I c)
    (hp : PlaysAll E (ts.map (paragraph h f)) c w c') : w = numbered g (n c) ts := by
  induction ts generalizing c w with
  | nil => cases hp; rfl
  | cons t ts ih =>
    rw [List.map_cons] at hp
    cases hp with
    | cons h1 h2 =>
      rw [paragraph_eq] at h1
      cases h1 with
      | element ht hc =>
        cases hc with
        | cons hc hn =>
          cases hn
          cases hc
          simp only [PlaysTag, playActive, if_true, playList, playAttr, Spec.valued, playValues, playValue, playDyn] at ht
          obtain ⟨rfl, rfl⟩ := ht
          have := ih (c := within c (E.dyn f c).2) (C.stays c hI) (by simpa [playValues, playValue] using h2)
          rw [this, C.counts c hI]
          simp [numbered, playValues, playValue, C.gives c hI, Shown.bytes, endBytes, escaped_eq]

/-- The example of the documentation (README, "Dynamic values"): paragraphs whose ids come from a counting function are
numbered in the order in which they stand, however many there are. -/
theorem C68_numbered {env : Env} {E : Effects} (H : Healthy env) (A : Acts env E) (K : Calm E) {f : FnId}
    {I : Ctx → Prop} {n : Ctx → Int} {g : Int → Bytes} (C : Counting E f I n g) (h : Heap) (ts : List Bytes)
    {s : St} (he : s.frame.err = none) (hI : I s.toCtx) :
    ∃ s', Runs env (Collection (ts.map fun t => some (paragraph h f t))) s none s' ∧
      s'.out = s.out ++ numbered g (n s.toCtx) ts := by
  have hc : Collection (ts.map fun t => some (paragraph h f t)) = .collection (ts.map (paragraph h f)) := by
    simp [Collection, List.filterMap_map, Function.comp_def]
  have b : Built (Collection (ts.map fun t => some (paragraph h f t))) := by
    refine Built.collection _ ?_
    intro m hm
    obtain ⟨t, -, ht⟩ := List.mem_map.1 hm
    cases ht
    exact built_paragraph h f t
  have hfix : Fixed (Collection (ts.map fun t => some (paragraph h f t))) := by
    rw [hc]
    simp only [Fixed]
    induction ts with
    | nil => simp [FixedAll]
    | cons t ts ih =>
      simp only [List.map_cons, FixedAll]
      exact ⟨by rw [paragraph_eq]; simp [Fixed, FixedAll], ih (by simp [Collection, List.filterMap_map, Function.comp_def])
        (Built.collection _ (by
          intro m hm
          obtain ⟨t, -, ht⟩ := List.mem_map.1 hm
          cases ht
          exact built_paragraph h f t))⟩
  obtain ⟨w, s', hr, ho, hp⟩ := C68_fixed H A K b hfix he
  refine ⟨s', hr, ?_⟩
  rw [ho]
  congr 1
  rw [hc] at hp
  cases hp with
  | collection hp =>
    rw [List.filter_eq_self.2 (by
      intro m hm
      obtain ⟨t, -, rfl⟩ := List.mem_map.1 hm
      rfl)] at hp
    exact plays_numbered C h ts hI hp

/-! The function of that example. -/

/-- `ctx.Data["id"].(int)`, when it is there. -/
def currentId (c : Ctx) : Int :=
  match c.lookup b%"id" with
  | some (.int .int i) => i
  | _ => 0

/-- `ctx.Data["id"] = i`. -/
def setId (c : Ctx) (i : Int) : Ctx :=
  match c.frame.data with
  | some m => { c with maps := fun k => if k = m then (b%"id", .int .int i) :: c.maps m else c.maps k }
  | none => c

/-- Functions of which each is `idIncrement` of the example. -/
def incrementing : Effects where
  dyn _ c := (valueToBytes (.int .int (currentId c + 1)), setId c (currentId c + 1))
  cond _ c := (true, c)
  collect _ c := ([], c)
  items _ c := ([], c)
  yields _ _ := .done
  imp _ _ := .done

/-- A healthy writer with these functions. -/
def Spec.Effects.env (E : Effects) : Env where
  write _ d := (d.length, none)
  dyn f s := ((E.dyn f s.toCtx).1, { s with toCtx := (E.dyn f s.toCtx).2 })
  cond f s := ((E.cond f s.toCtx).1, { s with toCtx := (E.cond f s.toCtx).2 })
  collect f s := ((E.collect f s.toCtx).1, { s with toCtx := (E.collect f s.toCtx).2 })
  items f s := ((E.items f s.toCtx).1, { s with toCtx := (E.items f s.toCtx).2 })
  yields f s := (E.yields f s.toCtx).prog
  imp f s := (E.imp f s.toCtx).prog
  order _ ks := ks
  order_perm _ ks := List.Perm.refl ks

theorem acts_env (E : Effects) : Healthy (Spec.Effects.env E) ∧ Acts (Spec.Effects.env E) E :=
  ⟨fun _ _ => rfl, ⟨fun _ _ => rfl, fun _ _ => rfl, fun _ _ => rfl, fun _ _ => rfl, fun _ _ => offers_prog _,
    fun _ _ => performs_prog _⟩⟩

theorem calm_incrementing : Calm incrementing where
  dyn f c h := by simp only [incrementing, setId]; split <;> exact h
  cond f c h := h
  collect f c h := h
  items f c h := h
  yields f c := trivial
  imp f c := trivial
  collected f c n h := by simp [incrementing] at h

/-- `idIncrement` counts, where there is a data map. -/
theorem counting_incrementing (f : FnId) : Counting incrementing f (fun c => c.frame.data ≠ none) currentId
    (fun i => valueToBytes (.int .int i)) where
  gives c _ := rfl
  counts c h := by
    obtain ⟨m, hm⟩ := Option.ne_none_iff_exists'.1 h
    simp [incrementing, setId, hm, within, currentId, Ctx.lookup]
  stays c h := by
    obtain ⟨m, hm⟩ := Option.ne_none_iff_exists'.1 h
    simp [incrementing, setId, hm, within]

/-- So the example of the documentation writes what the documentation says, for any texts. -/
theorem C68_readme (h : Heap) (f : FnId) (ts : List Bytes) {s : St} (he : s.frame.err = none)
    (hd : s.frame.data ≠ none) (h0 : currentId s.toCtx = 0) :
    ∃ s', Runs (Spec.Effects.env incrementing) (Collection (ts.map fun t => some (paragraph h f t))) s none s' ∧
      s'.out = s.out ++ numbered (fun i => valueToBytes (.int .int i)) 0 ts := by
  have := C68_numbered (acts_env _).1 (acts_env _).2 calm_incrementing (counting_incrementing f) h ts he hd
  rwa [h0] at this

/-- The first two ids of that example. -/
example (g : Int → Bytes) : numbered g 0 [b%"First", b%"Second"] =
    b%"<p id=\"" ++ g 1 ++ b%"\">First</p><p id=\"" ++ g 2 ++ b%"\">Second</p>" := by
  have h1 : escaped b%"First" = b%"First" := by rw [← escaped_eq]; rfl
  have h2 : escaped b%"Second" = b%"Second" := by rw [← escaped_eq]; rfl
  simp [numbered, h1, h2]

/-- Functions that note down their numbers in map 0. -/
def noting : Effects :=
  { incrementing with
    dyn := fun f c =>
      (b%"f", { c with maps := fun k => if k = 0 then c.maps 0 ++ [([], .int .int f)] else c.maps k }) }

/-- Reads the notes. -/
def notes (c : Ctx) : List FnId := (c.maps 0).map fun p =>
  match p.2 with
  | .int .int i => i.toNat
  | _ => 0

theorem notes_noting : Calm noting ∧ NotesCalls noting notes := by
  refine ⟨⟨fun _ _ h => h, fun _ _ h => h, fun _ _ h => h, fun _ _ h => h, fun _ _ => trivial, fun _ _ => trivial,
    fun _ _ _ h => by simp [noting, incrementing] at h⟩, ⟨fun f c => ?_, fun _ _ => rfl⟩⟩
  simp [noting, notes, within]

/-- Attributes before content, content in order. -/
example (s s' : St) (e : Option Err) (he : s.frame.err = none) (h0 : s.maps 0 = [])
    (hr : Runs (Spec.Effects.env noting) (NewElement b%"div" [.dynFunc true (some 3),
      .node (paragraph .empty 5 b%"t"), .node (NewAttribute (fun _ => []) b%"id" [.dynFunc true (some 4)])] .empty).1
      s e s') : notes s'.toCtx = [4, 3, 5] := by
  have b : Built (NewElement b%"div" [.dynFunc true (some 3),
      .node (paragraph .empty 5 b%"t"), .node (NewAttribute (fun _ => []) b%"id" [.dynFunc true (some 4)])] .empty).1 := by
    refine Built.newElement _ _ _ ?_
    intro n hn
    have : n = paragraph .empty 5 b%"t" ∨ n = NewAttribute (fun _ => []) b%"id" [.dynFunc true (some 4)] := by
      simpa [nodesIn] using hn
    rcases this with rfl | rfl
    · exact built_paragraph _ _ _
    · exact Built.newAttribute _ _ _
  have h := C68_calls (acts_env _).1 (acts_env _).2 notes_noting.1 notes_noting.2 b (by
    exact ⟨rfl, trivial, ⟨rfl, trivial, trivial⟩, trivial⟩) he hr
  rw [h]
  simp only [notes, h0]
  rfl

/-- The counting function in a paragraph, for the other theorems. -/
example {e : Option Err} {s' : St} (hr : Runs (Spec.Effects.env incrementing) (paragraph .empty 5 b%"t") Sample.st e s') :=
  C68_order (acts_env _).1 (acts_env _).2 calm_incrementing (built_paragraph .empty 5 b%"t") (s := Sample.st) rfl hr

example {w : Bytes} {c' : Ctx} := C68_exact calm_incrementing (built_paragraph .empty 5 b%"t") (c := Sample.ctx) (c' := c') rfl (w := w)

example := C68_fixed (acts_env _).1 (acts_env _).2 calm_incrementing (built_paragraph .empty 5 b%"t")
  (by rw [paragraph_eq]; simp [Fixed, FixedAll]) (s := Sample.st) rfl

example {w : Bytes} {c' : Ctx} := C68_computing Sample.built (c := Sample.ctx) (c' := c') rfl (built_paragraph .empty 0 b%"t") (w := w)

example := C68_readme .empty 5 [b%"First", b%"Second"] (s := Sample.st) rfl (by decide) rfl

/-! A function given to `IterateYield` that writes a separator between its items. -/

/-- Yields texts, and calls `ctx.Write(sep)` between them. -/
def separating (sep : Bytes) : List Bytes → Yielding
  | [] => .done
  | [t] => .yield (.str t) fun _ => .done
  | t :: ts => .yield (.str t) fun _ => .write sep fun _ => separating sep ts

/-- Texts with a separator between them. -/
def joined (sep : Bytes) : List Bytes → Bytes
  | [] => []
  | [t] => t
  | t :: ts => t ++ sep ++ joined sep ts

theorem plays_separating {E : Effects} {sep : Bytes} (ts : List Bytes) {c c' : Ctx} {fr : Frame} {w : Bytes}
    (h : PlaysYields E [.text [.mk [] (some .cargo) []]] (separating sep ts) c fr w c') :
    w = joined sep (ts.map escaped) ∧ c' = c := by
  have one : ∀ {t : Bytes} {c c1 : Ctx} {fr : Frame} {w : Bytes},
      PlaysAll E [.text [.mk [] (some .cargo) []]] (itemCtx c fr (.str t) (itemData fr.data (.str t))) w c1 →
      w = escaped t ∧ backTo c c1 = c := by
    intro t c c1 fr w h
    cases h with
    | cons h1 h2 =>
      cases h1
      cases h2
      simp [playValues, playValue, playDyn, itemCtx, valueToBytes, escaped_eq, backTo]
  induction ts generalizing c fr w with
  | nil => cases h; exact ⟨rfl, rfl⟩
  | cons t ts ih =>
    cases ts with
    | nil =>
      cases h with
      | yield h1 h2 =>
        obtain ⟨rfl, hb⟩ := one h1
        cases h2
        exact ⟨by simp [joined], hb⟩
    | cons t' ts =>
      cases h with
      | yield h1 h2 =>
        obtain ⟨rfl, hb⟩ := one h1
        cases h2 with
        | write h3 =>
          rw [hb] at h3
          obtain ⟨rfl, rfl⟩ := ih h3
          exact ⟨by simp [joined], rfl⟩

/-- What a function given to `IterateYield` writes itself stands where it writes it: a function that yields texts and
writes a separator between them makes the list of the texts, escaped, with the separator as it is. -/
theorem C68_separated {env : Env} {E : Effects} (H : Healthy env) (A : Acts env E) (K : Calm E) {f : FnId} {sep : Bytes}
    {ts : List Bytes} {s : St} (hf : E.yields f s.toCtx = separating sep ts) (h : Heap) (he : s.frame.err = none) :
    ∃ n s', IterateYield (some f) [some (Text h.dl [.dynKey b%"."])] = .val n ∧ Runs env n s none s' ∧
      s'.out = s.out ++ joined sep (ts.map escaped) ∧ s'.toCtx = s.toCtx := by
  have hn : IterateYield (some f) [some (Text h.dl [.dynKey b%"."])] =
      .val (.yieldIterator [.text [.mk [] (some .cargo) []]] f) := rfl
  rw [hn]
  refine ⟨.yieldIterator [.text [.mk [] (some .cargo) []]] f, ?_⟩
  obtain ⟨w, s', hr, ho, hp⟩ := C68_fixed H A K (Built.iterateYield _ _ _ (by
    intro n hn
    simp only [List.mem_singleton, Option.some.injEq] at hn
    subst hn
    exact Built.text _ _) hn) (by simp [Fixed, FixedAll]) he
  refine ⟨s', rfl, hr, ?_⟩
  cases hp with
  | yieldIterator hp =>
    rw [hf] at hp
    obtain ⟨rfl, hc⟩ := plays_separating ts hp
    exact ⟨ho, hc⟩

/-- Functions of which those given to `IterateYield` make a list of three. -/
def listing : Effects := { incrementing with yields := fun _ _ => separating b%", " [b%"a", b%"b<", b%"c"] }

theorem calm_listing : Calm listing where
  dyn := calm_incrementing.dyn
  cond f c h := h
  collect f c h := h
  items f c h := h
  yields f c := fun _ _ _ _ _ => trivial
  imp f c := trivial
  collected f c n h := by simp [listing, incrementing] at h

example {s : St} (he : s.frame.err = none) : ∃ n s', IterateYield (some 0) [some (Text (fun _ => []) [.dynKey b%"."])] = .val n ∧
    Runs (Spec.Effects.env listing) n s none s' ∧ s'.out = s.out ++ b%"a, b&lt;, c" := by
  obtain ⟨n, s', h1, h2, h3, -⟩ := C68_separated (acts_env _).1 (acts_env _).2 calm_listing (f := 0) rfl .empty he
  refine ⟨n, s', h1, h2, ?_⟩
  rw [h3]
  have h1 : escaped b%"a" = b%"a" := by rw [← escaped_eq]; rfl
  have h2 : escaped b%"b<" = b%"b&lt;" := by rw [← escaped_eq]; rfl
  have h3 : escaped b%"c" = b%"c" := by rw [← escaped_eq]; rfl
  simp [joined, h1, h2, h3]

end Aitch.Props
