import Verif.Props.HeadersRead
import Verif.Props.Lines
import Verif.Proofs.Json
/-
C92: JSON in attributes, in scripts, and in header maps.
-/
namespace Aitch.Props
open Spec Markup Json

/-! ### C92 — JSON reaches the browser as JSON -/

/-- An attribute is read under the same name, and what was JSON is JSON that says the same. -/
def SameJson (a b : Bytes × Bytes) : Prop := a.1 = b.1 ∧ ∀ v, Says v a.2 → Says v b.2

/-- **C92**, attributes: in every tree, every start tag is read (by a browser, that is after it has normalised the line
ends of the page) with its attributes, and each value that is a JSON text is read as a JSON text that says the same,
whatever characters are in it. -/
theorem C92_attributes (R : CharRefs) {env : Env} (H : Healthy env) (h : Heap) (t : Src) {s : St}
    (he : s.frame.err = none) (hs : Strings s.toCtx t) (hp : Proper (treeOf s.toCtx t)) :
    ∃ w, Writes env (build h t) s w ∧
      ∀ n as sc, .start n as sc ∈ items (meant (treeOf s.toCtx t)) →
        ∃ bs, .start n bs sc ∈ readPage R w ∧ Each SameJson as bs := by
  obtain ⟨w, h1, h2⟩ := C85_reads_partial R H h t he hs hp
  refine ⟨w, h1, fun n as sc ha => ⟨as.map fun a => (a.1, newlines a.2), ?_, ?_⟩⟩
  · rw [h2, mem_dropFirst (by simp), List.mem_map]
    rw [start_items, ← start_meant false, ← start_items] at ha
    exact ⟨_, ha, rfl⟩
  · clear ha
    induction as with
    | nil => exact .nil
    | cons a as ih => exact .cons ⟨rfl, fun v hv => hv.lines⟩ ih

/-- A string that is JSON is not changed before it is written: it has no NUL bytes.  So `C92_attributes` is about the
very strings given to the attributes. -/
theorem C92_strings {v : Json} {t : Bytes} (h : Says v t) : seen t = t := seen_of h.noNul

/-- A tag with `hx-vals`, the JSON of which has a key from the data, quotes, tags and line ends in it. -/
def jsonSource : Src :=
  .void b%"input" [(b%"hx-vals", some [.lit b%"{\"<b>\":\r\n \"it's &amp; ", .key b%"name", .lit b%"\",\r \"n\" : [-1.5e3, null]}"])]

theorem jsonSource_proper : Strings Sample.st.toCtx jsonSource ∧ Proper (treeOf Sample.st.toCtx jsonSource) := by
  refine ⟨?_, (htmlTagMatch_iff _).1 (by decide), by decide, ⟨?_, by decide⟩, by decide⟩
  · simp [jsonSource, Strings, AttrStrings, Part.HasString, keyValue, Sample.st, Sample.ctx, Sample.maps, Ctx.lookup, List.lookup]
  · intro a ha
    simp only [List.map_cons, List.map_nil, List.mem_cons, List.not_mem_nil, or_false] at ha
    subst ha
    exact (htmlTagMatch_iff _).1 (by decide)

/-- A text with nothing but simple characters in it. -/
theorem chars_of {s : Bytes} (h : s.all fun c => 0x20 ≤ c && c != c%'"' && c != c%'\\') : Chars s := by
  induction s with
  | nil => exact .nil
  | cons c s ih =>
    simp only [List.all_cons, Bool.and_eq_true, decide_eq_true_eq, bne_iff_ne] at h
    exact .char h.1.1.1 h.1.1.2 h.1.2 (ih h.2)

example := C92_attributes fiveRefs Sample.healthy .empty jsonSource (s := Sample.st) rfl jsonSource_proper.1 jsonSource_proper.2

example : ∃ v, Says v b%"{\"<b>\":\r\n \"it's &amp; <Bob>\",\r \"n\" : [-1.5e3, null]}" ∧
    .start b%"input" [(b%"hx-vals", b%"{\"<b>\":\r\n \"it's &amp; <Bob>\",\r \"n\" : [-1.5e3, null]}")] false ∈
      items (meant (treeOf Sample.st.toCtx jsonSource)) := by
  refine ⟨.object [(b%"<b>", .string b%"it's &amp; <Bob>"), (b%"n", .array [.number b%"-1.5e3", .null])],
    ⟨[], _, [], ?_, by simp [Blank], .object (.more (a := []) (b := []) (c := b%"\r\n ") (d := []) (by simp [Blank])
      (chars_of (by decide)) (by simp [Blank]) (by simp [Blank]) (.string (chars_of (by decide))) (by simp [Blank])
      (.one (a := b%"\r ") (b := b%" ") (c := b%" ") (d := []) (by simp [Blank]) (chars_of (by decide)) (by simp [Blank])
        (by simp [Blank]) (.array (.more (a := []) (b := []) (by simp [Blank]) (.number ⟨b%"-", b%"1", b%".5", b%"e3", rfl,
          .inr rfl, ⟨⟨by decide, by decide⟩, .inr (by decide)⟩, .inr ⟨b%"5", ⟨by decide, by decide⟩, rfl⟩,
          .inr ⟨c%'e', [], b%"3", by decide, .inl rfl, ⟨by decide, by decide⟩, rfl⟩⟩) (by simp [Blank])
          (.one (a := b%" ") (b := []) (by simp [Blank]) .null (by simp [Blank])))) (by simp [Blank]))),
      by simp [Blank]⟩, ?_⟩
  · decide
  · decide

/-! Header maps. -/

/-- The claim for header maps, that they are written "as a JSON object" (the documentation of `Headers`): even if their
keys and values are harmless for HTML and their values are JSON. -/
def C92_headers_claim : Prop :=
  ∀ (P : Fns) (_ : BuiltFns P) (c : Ctx) (_ : c.frame.err = none) (name : Bytes) (_ : ValidName name)
    (_ : Markup.lower name ≠ b%"plaintext") (_ : Markup.lower name ∉ textNames) (h : Heap)
    (ord : Nat → GoMap → GoMap) (_ : Visits ord) (maps : List GoMap) (_ : maps ≠ []) (_ : ∀ m ∈ maps, IsMap m)
    (_ : ∀ m ∈ maps, ∀ k ∈ keysOf m, Chars k ∧ Simple k) (text : Bytes → Bytes)
    (_ : ∀ m ∈ maps, ∀ k ∈ keysOf m, headerBytes P c h.dl maps k = escaped (text k) ∧ IsJson (text k)),
    ∃ n, Headers ord h.dl (maps.map (.strMap headersMapType true)) = .val n ∧
      ∀ w, Renders P c (NewVoidElement name [.node n] h).1 w → ∀ R : CharRefs,
        ∃ t, readHtml R w = [.start (Markup.lower name) [(b%"hx-headers", t)] false] ∧ IsJson t

/-- **C92**, header maps: what a browser reads as the value of `hx-headers` is JSON just if the maps are all empty,
because the keys are written in single quotes. -/
theorem C92_headers_partial {P : Fns} (F : BuiltFns P) (c : Ctx) (he : c.frame.err = none) (name : Bytes)
    (hn : ValidName name) (hpl : Markup.lower name ≠ b%"plaintext") (ht : Markup.lower name ∉ textNames) (h : Heap)
    {ord : Nat → GoMap → GoMap} (ho : Visits ord) (maps : List GoMap) (h1 : maps ≠ []) (hm : ∀ m ∈ maps, IsMap m)
    (hk : ∀ m ∈ maps, ∀ k ∈ keysOf m, ∀ b ∈ k, b ∉ b%"\x00&") (text : Bytes → Bytes)
    (hv : ∀ m ∈ maps, ∀ k ∈ keysOf m, headerBytes P c h.dl maps k = escaped (text k)) :
    ∃ n, Headers ord h.dl (maps.map (.strMap headersMapType true)) = .val n ∧
      ∀ w, Renders P c (NewVoidElement name [.node n] h).1 w → ∀ R : CharRefs,
        ∃ t, readHtml R w = [.start (Markup.lower name) [(b%"hx-headers", t)] false] ∧
          (IsJson t ↔ ∀ m ∈ maps, m = []) := by
  obtain ⟨args, h2, ks, h3, h4, h5⟩ := headers_plain P c h.dl ho maps h1 hm
  have hk' : ∀ k ∈ ks, ∀ b ∈ k, b ∉ b%"\x00&" := fun k hk' => by
    obtain ⟨m, hm1, hm2⟩ := (h4 k).1 hk'
    exact hk m hm1 k hm2
  have hv' : ∀ k ∈ ks, headerBytes P c h.dl maps k = escaped (text k) := fun k hk' => by
    obtain ⟨m, hm1, hm2⟩ := (h4 k).1 hk'
    exact hv m hm1 k hm2
  refine ⟨_, h2, fun w hw R => ⟨c%'{' :: membersText (fun k => seen (text k)) ks, ?_, ?_⟩⟩
  · rw [(renders_onePlain F c he name b%"hx-headers" h.dl args h w).1 hw, h5]
    refine read_oneAttr R name b%"hx-headers" _ _ hn ((htmlTagMatch_iff _).1 (by decide)) hpl ht fun t n rest => ?_
    have e : objectText (headerBytes P c h.dl maps) ks ++ rest =
        b%"{" ++ (List.intercalate b%", " (ks.map fun k => b%"'" ++ safeKey k ++ b%"': " ++ escaped (text k)) ++
          (b%"}" ++ rest)) := by
      unfold objectText
      rw [List.map_congr_left (g := fun k => b%"'" ++ safeKey k ++ b%"': " ++ escaped (text k))
        fun k hk => by rw [hv' k hk]]
      simp
    rw [e, run_quotedBytes R t n _ b%"{" _ (by decide), run_quotedMembers R t n _ text ks fun k hk b hb => ?_]
    · simp
    · have := hk' k hk b hb
      simp only [List.mem_cons, List.not_mem_nil, or_false, not_or] at this
      exact this
  · cases hks : ks with
    | nil =>
      refine ⟨fun _ m hm => ?_, fun _ => ⟨.object [], [], _, [], ?_, by simp [Blank], .noMembers (s := []) (by simp [Blank]),
        by simp [Blank]⟩⟩
      · cases m with
        | nil => rfl
        | cons e m =>
          have := (h4 e.1).2 ⟨_, hm, by simp [keysOf]⟩
          simp [hks] at this
      · simp [membersText, List.intercalate]
    | cons k ks' =>
      constructor
      · rintro ⟨v, hv⟩
        have e : ∃ r, membersText (fun k => seen (text k)) (k :: ks') = c%'\'' :: r := by
          cases ks' with
          | nil => exact ⟨_, by simp [membersText, List.intercalate]; rfl⟩
          | cons k' ks' => rw [membersText_cons]; exact ⟨_, by simp; rfl⟩
        obtain ⟨r, hr⟩ := e
        rw [hr] at hv
        exact absurd hv.afterBrace (by decide)
      · intro hall
        obtain ⟨m, hm1, hm2⟩ := (h4 k).1 (by simp [hks])
        rw [hall m hm1] at hm2
        simp [keysOf] at hm2

/-- The map `{"n": true}`. -/
def jsonMaps : List GoMap := [[(b%"n", .bool true)]]

theorem jsonMaps_met : (∀ m ∈ jsonMaps, IsMap m) ∧ (∀ m ∈ jsonMaps, ∀ k ∈ keysOf m, ∀ b ∈ k, b ∉ b%"\x00&") ∧
    ∀ m ∈ jsonMaps, ∀ k ∈ keysOf m, headerBytes Sample.fns Sample.ctx (fun _ => []) jsonMaps k = escaped b%"true" := by
  refine ⟨by simp only [IsMap]; decide, by decide, ?_⟩
  simp only [jsonMaps, keysOf, List.mem_cons, List.not_mem_nil, or_false, forall_eq, List.map_cons, List.map_nil]
  rfl

example := C92_headers_partial Sample.built Sample.ctx rfl b%"div" ((htmlTagMatch_iff _).1 (by decide)) (by decide) (by decide)
  .empty visits_reverse jsonMaps (by decide) jsonMaps_met.1 jsonMaps_met.2.1 _ jsonMaps_met.2.2

theorem C92_headers_false : ¬ C92_headers_claim := by
  intro hc
  obtain ⟨h1, h2, h3⟩ := jsonMaps_met
  have hd : ValidName b%"div" := (htmlTagMatch_iff _).1 (by decide)
  have ho : Visits (fun _ m => m) := fun _ m => .refl m
  obtain ⟨n, hn, hr⟩ := hc Sample.fns Sample.built Sample.ctx rfl b%"div" hd (by decide) (by decide) .empty _ ho jsonMaps
    (by decide) h1 (by
      simp only [jsonMaps, keysOf, List.mem_cons, List.not_mem_nil, or_false, forall_eq, List.map_cons, List.map_nil]
      exact ⟨chars_of (by decide), by unfold Simple; decide⟩) (fun _ => b%"true")
    fun m hm k hk => ⟨h3 m hm k hk, .bool true, [], _, [], rfl, by simp [Blank], .true, by simp [Blank]⟩
  obtain ⟨n', hn', hr'⟩ := C92_headers_partial Sample.built Sample.ctx rfl b%"div" hd (by decide) (by decide) .empty ho
    jsonMaps (by decide) h1 h2 (fun _ => b%"true") h3
  cases hn
  cases hn'
  obtain ⟨w, hw⟩ : ∃ w, Renders Sample.fns Sample.ctx (NewVoidElement b%"div"
      [.node (NewAttribute (fun _ => []) b%"hx-headers" [.value (NewConcatValue (fun _ => []) (serialize (fun m => m)
        [(b%"n", .bool true)] []))])] .empty).1 w :=
    ⟨_, Sample.env, Sample.healthy, Sample.computes, Sample.st, _, rfl, ⟨5, rfl⟩, rfl⟩
  obtain ⟨t, ht1, ht2⟩ := hr w hw fiveRefs
  obtain ⟨t', ht1', ht2'⟩ := hr' w hw fiveRefs
  have e : t' = t := by
    have := ht1'.symm.trans ht1
    simpa using this
  subst e
  exact absurd (ht2'.1 ht2) (by decide)

/-- What is written. -/
example : ∃ n, Headers (fun _ m => m) (fun _ => []) (jsonMaps.map (.strMap headersMapType true)) = .val n ∧
    Writes Sample.env (NewVoidElement b%"div" [.node n] .empty).1 Sample.st b%"<div hx-headers=\"{'n': true}\">" :=
  ⟨_, rfl, by refine ⟨_, ⟨1, rfl⟩, ?_, ?_⟩ <;> rfl⟩

/-! Scripts. -/

/-- The claim for scripts: a JSON text in a `script` element (or another one of raw text) is read as such. -/
def C92_scripts_claim : Prop :=
  ∀ (R : CharRefs) (env : Env) (_ : Healthy env) (h : Heap) (name : Bytes) (_ : ValidName name)
    (_ : Markup.lower name ∈ rawtextNames) (ps : List Part) (s : St) (_ : s.frame.err = none)
    (_ : ∀ p ∈ ps, p.HasString s.toCtx) (_ : IsJson (stringOf s.toCtx ps)),
    ∃ w t, Writes env (build h (.element name [] [.text ps])) s w ∧
      readHtml R w = .start (Markup.lower name) [] false :: addText t [.close (Markup.lower name)] ∧ IsJson t

/-- **C92**, scripts: what is read from them is the escaped text, and this is JSON just if the text is and has no
strings in it (in fact, none of `<>&"'`). -/
theorem C92_scripts_partial (R : CharRefs) {env : Env} (H : Healthy env) (h : Heap) (name : Bytes) (hn : ValidName name)
    (hr : Markup.lower name ∈ rawtextNames) (ps : List Part) {s : St} (he : s.frame.err = none)
    (hs : ∀ p ∈ ps, p.HasString s.toCtx) :
    ∃ w t, Writes env (build h (.element name [] [.text ps])) s w ∧
      readHtml R w = .start (Markup.lower name) [] false :: addText t [.close (Markup.lower name)] ∧
      ∀ v, Says v t ↔ Says v (seen (stringOf s.toCtx ps)) ∧ ∀ c ∈ stringOf s.toCtx ps, c ∉ b%"<>&\"'" := by
  have hpl : Markup.lower name ≠ b%"plaintext" := by
    intro e; rw [e] at hr; exact absurd hr (by decide)
  obtain ⟨w, h1, h2⟩ := C37_reads_back_partial R H h (.element name [] [.text ps]) he
    ⟨by simp [AttrStrings], hs, trivial⟩
    ⟨hn, hpl, ⟨by simp, by simp⟩, .inl ⟨List.mem_append_right _ hr, by simp [treesOf, treeOf, Tree.IsText]⟩⟩
  refine ⟨w, escaped (stringOf s.toCtx ps), h1, ?_, fun v => ?_⟩
  · rw [h2]
    simp only [treeOf, treesOf, toks, toksAll, hr, decide_true, if_true, List.append_nil, List.map_nil, startTok, items,
      List.cons_append, items_chars]
  · rw [says_escaped]
    exact And.comm

theorem C92_scripts_false : ¬ C92_scripts_claim := by
  intro hc
  have hn : ValidName b%"script" := (htmlTagMatch_iff _).1 (by decide)
  have hj : Says (.string b%"a") b%"\"a\"" :=
    ⟨[], _, [], rfl, by simp [Blank], .string (chars_of (by decide)), by simp [Blank]⟩
  obtain ⟨w, t, h1, h2, v, h3⟩ := hc fiveRefs Sample.env Sample.healthy .empty b%"script" hn (by decide) [.lit b%"\"a\""]
    Sample.st rfl (by simp [Part.HasString]) ⟨_, hj⟩
  obtain ⟨w', t', h1', h2', h3'⟩ := C92_scripts_partial fiveRefs Sample.healthy .empty b%"script" hn (by decide)
    [.lit b%"\"a\""] (s := Sample.st) rfl (by simp [Part.HasString])
  obtain rfl := writes_unique h1 h1'
  have e := h2'.symm.trans h2
  have e : t' = t := by
    rw [List.cons.injEq] at e
    have e := e.2
    cases t' <;> cases t <;> simp [addText] at e ⊢
    exact e
  subst e
  exact absurd ((h3' v).1 h3).2 (by decide)

/-- A script with JSON that is read as it is, and one with JSON that is not. -/
example : Writes Sample.env (build .empty (.element b%"script" [] [.text [.lit b%"[true, null]"]])) Sample.st
      b%"<script>[true, null]</script>" ∧
    Writes Sample.env (build .empty (.element b%"script" [] [.text [.lit b%"{\"a\": null}"]])) Sample.st
      b%"<script>{&quot;a&quot;: null}</script>" :=
  ⟨by refine ⟨_, ⟨9, rfl⟩, ?_, ?_⟩ <;> rfl, by refine ⟨_, ⟨9, rfl⟩, ?_, ?_⟩ <;> rfl⟩

example := C92_scripts_partial fiveRefs Sample.healthy .empty b%"Script" ((htmlTagMatch_iff _).1 (by decide)) (by decide)
  [.lit b%"[", .key b%"name", .lit b%"]"] (s := Sample.st) rfl
  (by simp [Part.HasString, keyValue, Sample.st, Sample.ctx, Sample.maps, Ctx.lookup, List.lookup])

end Aitch.Props
