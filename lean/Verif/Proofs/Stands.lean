import Verif.Proofs.Clean
import Verif.Proofs.Received
import Verif.Spec.Stands
/-
The DOM of a page made with any template.
-/
namespace Aitch.Spec.Markup

theorem fitsAll_iff {path : List Bytes} {ts : List Tree} : fitsAll path ts = true ↔ ∀ t ∈ ts, fits path t = true := by
  induction ts with
  | nil => simp [fitsAll]
  | cons t ts ih => simp [fitsAll, ih]

/-- The bytes are those of proper trees that fit in the place. -/
def Grown (A B : List Bytes) (p : Place) (text : Bool) (w : Bytes) : Prop :=
  ∃ ts, w = writeAll ts ∧ WithinAll A B ts ∧ ProperAll ts ∧ (text = true → ∀ t ∈ ts, t.IsText) ∧ ∀ t ∈ ts, p.fits t = true

section
variable {A B : List Bytes} {p : Place} {text : Bool}

theorem Grown.nil : Grown A B p text [] := ⟨[], rfl, trivial, trivial, by simp, by simp⟩

theorem Grown.append {a b : Bytes} : Grown A B p text a → Grown A B p text b → Grown A B p text (a ++ b)
  | ⟨s, h1, h2, h3, h4, h5⟩, ⟨t, g1, g2, g3, g4, g5⟩ =>
    ⟨s ++ t, by rw [writeAll_append, h1, g1], withinAll_append h2 g2, properAll_append h3 g3, fun e x hx => by
      rcases List.mem_append.1 hx with hx | hx
      · exact h4 e x hx
      · exact g4 e x hx, fun x hx => by
      rcases List.mem_append.1 hx with hx | hx
      · exact h5 x hx
      · exact g5 x hx⟩

theorem Grown.ofText {w : Bytes} (h : p.Text) : Esc w → Grown A B p text w
  | ⟨s, hs⟩ => ⟨[.text s], by simp [writeAll, write, hs], ⟨trivial, trivial⟩, ⟨trivial, trivial⟩, by simp [Tree.IsText],
      by simpa using h s⟩

theorem Grown.one {t : Tree} (h1 : Within A B t) (h2 : Proper t) (h3 : p.fits t = true) : Grown A B p false (write t) :=
  ⟨[t], by simp [writeAll], ⟨h1, trivial⟩, ⟨h2, trivial⟩, by simp, by simpa using h3⟩

theorem element_fits {name : Bytes} (h : p.Element name) (attrs : List (Bytes × Option Bytes)) {ts : List Tree}
    (ht : ∀ t ∈ ts, (p.into name).fits t = true) : p.fits (.element name attrs ts) = true := by
  cases p with
  | head => exact h
  | inside path =>
    have h : fits path (.element name [] []) = true := h
    rw [fits, Bool.and_eq_true] at h
    show fits path (.element name attrs ts) = true
    rw [fits, Bool.and_eq_true]
    exact ⟨h.1, fitsAll_iff.2 ht⟩

theorem void_fits {name : Bytes} (h : p.Void name) (attrs : List (Bytes × Option Bytes)) :
    p.fits (.void name attrs) = true := by
  cases p with
  | head => exact h
  | inside path =>
    have h : fits path (.void name []) = true := h
    rw [fits] at h
    show fits path (.void name attrs) = true
    rw [fits]
    exact h

theorem comment_fits (s : Bytes) : p.fits (.comment s) = true := by
  cases p <;> rfl

theorem Grown.element {P : Fns} {ρ : Rule P} (N : GoodNames A B) {name : Bytes} {l : List Shown} {w : Bytes}
    (hn : name ∈ A) (hl : ∀ x ∈ l, ShownClean B .html ρ x) (hd : (l.map (·.1)).Nodup)
    (ht : text = true ↔ lower name ∈ textNames) (hp : p.Element name) (hw : Grown A B (p.into name) text w) :
    Grown A B p false (tagBytes name l ++ w ++ endBytes name) := by
  obtain ⟨attrs, h1, h2, h3, h4, h5⟩ := shown_attrs N hl hd
  obtain ⟨ts, rfl, g1, g2, g3, g4⟩ := hw
  have e : tagBytes name l ++ writeAll ts ++ endBytes name = write (.element name attrs ts) := by
    simp [write, h3, endBytes]
  rw [e]
  refine .one ⟨hn, h2, g1⟩ ⟨(N.elements _ hn).1, (N.elements _ hn).2, h1, ?_⟩ (element_fits hp attrs g4)
  by_cases h : lower name ∈ textNames
  · exact .inl ⟨h, g3 (ht.2 h)⟩
  · exact .inr ⟨h, g2⟩

theorem Grown.void {P : Fns} {ρ : Rule P} (N : GoodNames A B) {name : Bytes} {l : List Shown}
    (hn : name ∈ A) (hl : ∀ x ∈ l, ShownClean B .html ρ x) (hd : (l.map (·.1)).Nodup)
    (ht : lower name ∉ textNames) (hp : p.Void name) : Grown A B p false (tagBytes name l) := by
  obtain ⟨attrs, h1, h2, h3, _, h5⟩ := shown_attrs N hl hd
  have : tagBytes name l = write (.void name attrs) := by simp [write, h3]
  rw [this]
  exact .one ⟨hn, h2⟩ ⟨(N.elements _ hn).1, (N.elements _ hn).2, h1, ht⟩ (void_fits hp attrs)

end

/-- The bytes end the open elements `stack`, with trees after each end tag. -/
inductive EndsIn (A B : List Bytes) (p : Place) : (stack : List Bytes) → Bytes → Prop
  | nil : EndsIn A B p [] []
  | cons {n st w w'} : Grown A B (p.under st) false w → EndsIn A B p st w' → EndsIn A B p (n :: st) (endBytes n ++ w ++ w')

/-- The calls `ops` are allowed in the place `p`, when `st` are open. -/
structure OpsStand (P : Fns) (p : Place) (ops : List ImpOp) (st : List Bytes) : Prop where
  str : ∀ before d after, ops = before ++ .writeString d :: after → (p.under (openAfter before st)).Text
  raw : ∀ before d after, ops = before ++ .writeRaw d :: after → (p.under (openAfter before st)).Text
  void : ∀ before name attrs after, ops = before ++ .start name true attrs :: after →
    (p.under (openAfter before st)).Void name
  start : ∀ before name attrs after, ops = before ++ .start name false attrs :: after →
    (p.under (openAfter before st)).Element name
  nodes : ∀ before ns after n, ops = before ++ .writeNodes ns :: after → some n ∈ ns →
    Stands P (p.under (openAfter before st)) n

theorem OpsStand.tail {P : Fns} {p : Place} {op : ImpOp} {ops : List ImpOp} {st : List Bytes}
    (h : OpsStand P p (op :: ops) st) : OpsStand P p ops (openAfter [op] st) := by
  have e : ∀ before, openAfter (op :: before) st = openAfter before (openAfter [op] st) := by
    intro before
    cases op with
    | start n v as => cases v <;> rfl
    | _ => rfl
  constructor
  · intro before d after ho
    have := h.str (op :: before) d after (by rw [ho]; rfl)
    rwa [e] at this
  · intro before d after ho
    have := h.raw (op :: before) d after (by rw [ho]; rfl)
    rwa [e] at this
  · intro before name attrs after ho
    have := h.void (op :: before) name attrs after (by rw [ho]; rfl)
    rwa [e] at this
  · intro before name attrs after ho
    have := h.start (op :: before) name attrs after (by rw [ho]; rfl)
    rwa [e] at this
  · intro before ns after n ho hn
    have := h.nodes (op :: before) ns after n (by rw [ho]; rfl) hn
    rwa [e] at this

section
variable {P : Fns} {A B : List Bytes} {ρ : Rule P} (N : GoodNames A B) (S : SafeFns P)
include N S

set_option linter.unusedSectionVars false in
mutual
theorem out_grown : {c : Ctx} → {n : Node} → {w : Bytes} → Out P c n w → SafeCtx c → n.isAttr = false →
    ∀ {text} {p : Place}, Clean P A B .html ρ text n → Stands P p n → Grown A B p text w
  | _, _, _, .element ht ha, hc, _, _, _, hn, hs => by
    cases hs with
    | element _ _ hp hk =>
    cases hn with
    | element text hh hx h1 h2 =>
      have ih := outAll_grown ha hc h1 h2 hk
      exact .element N hh.name (tagShows_clean S hc hh ht) (tagShows_names hh.wf ht).1 hx hp ih
  | _, _, _, .voidElement ht, hc, _, _, _, hn, hs => by
    cases hs with
    | voidElement _ hp =>
    cases hn with
    | voidElement hL hh hx => exact .void N hh.name (tagShows_clean S hc hh ht) (tagShows_names hh.wf ht).1 hx hp
  | _, _, _, .attr, _, h, _, _, _, _ => by simp [Node.isAttr, Node.type] at h
  | _, _, _, .text, hc, _, _, _, hn, hs => by
    cases hs with
    | text _ hp => cases hn with | text h => exact .ofText hp (esc_values S hc _ h)
  | _, _, _, .fragment, hc, _, _, _, hn, hs => by
    cases hs with
    | fragment _ hp => cases hn with | fragment h => exact .ofText hp (esc_values S hc _ h)
  | _, _, _, .comment, hc, _, _, _, hn, _ => by
    cases hn with
    | comment hL h =>
      obtain ⟨s, hs⟩ := esc_values S hc _ h
      rw [hs]
      exact .one (t := .comment s) trivial trivial (comment_fits s)
  | _, _, _, .pi, hc, _, _, _, hn, hs => by cases hs
  | _, _, _, .collection (ns := ns) ha, hc, _, _, _, hn, hs => by
    cases hs with
    | collection _ hk =>
    cases hn with
    | collection h =>
      exact outAll_grown ha hc (fun n hn => by simpa using (List.mem_filter.1 hn).2)
        (fun n hn => h n (List.mem_filter.1 hn).1) (fun n hn => hk n (List.mem_filter.1 hn).1)
  | _, _, _, .conditionalOn h1 ha, hc, _, _, _, hn, hs => by
    cases hs with
    | conditional _ _ _ hk =>
    cases hn with
    | conditional h1 h2 _ => exact outAll_grown ha hc h1 h2 hk
  | _, _, _, .conditionalOff h1, _, _, _, _, _, _ => .nil
  | c, _, _, .collector (f := f) ha, hc, _, _, _, hn, hs => by
    cases hs with
    | collector _ hk =>
    cases hn with
    | collector h =>
      exact outAll_grown ha hc (fun n hn => by simpa using (List.mem_filter.1 hn).2)
        (fun n hn => h c n (by simpa using (List.mem_filter.1 hn).1))
        (fun n hn => hk c n (by simpa using (List.mem_filter.1 hn).1))
  | _, _, _, .imperativeNil, _, _, _, _, _, _ => .nil
  | c, _, _, .imperative (f := f) ho, hc, _, _, _, hn, hs => by
    cases hs with
    | imperative _ k1 k2 k3 k4 k5 =>
    cases hn with
    | imperative h1 h2 h3 h4 h5 =>
      obtain ⟨a, b, rfl, ha, hb⟩ := outOps_grown ho hc (h1 c) (h2 c) (h3 c) (h4 c) (h5 c)
        ⟨k1 c, k2 c, k3 c, k4 c, k5 c⟩
      cases hb
      rw [List.append_nil]
      exact ha
  | _, _, _, .iterator (fn := fn) hi, hc, _, _, _, hn, hs => by
    cases hs with
    | iterator _ _ hk =>
    cases hn with
    | iterator h1 h2 =>
      exact outItems_grown hi hc (safe_items S hc fn) h1 h2 hk
  | c, _, _, .yieldIterator (f := f) hi, hc, _, _, _, hn, hs => by
    cases hs with
    | yieldIterator _ _ hk =>
    cases hn with
    | yieldIterator h1 h2 => exact outYields_grown hi hc (S.yields f c) h1 h2 hk
  | _, _, _, .document (prologue := p) ha, hc, _, _, _, hn, hs => by cases hs
theorem outAll_grown : {c : Ctx} → {ns : List Node} → {w : Bytes} → OutAll P c ns w → SafeCtx c →
    (∀ n ∈ ns, n.isAttr = false) → ∀ {text} {p : Place}, (∀ n ∈ ns, Clean P A B .html ρ text n) →
    (∀ n ∈ ns, Stands P p n) → Grown A B p text w
  | _, _, _, .nil, _, _, _, _, _, _ => .nil
  | _, _, _, .cons h hs, hc, h1, _, _, h2, h3 =>
    (out_grown h hc (h1 _ (.head _)) (h2 _ (.head _)) (h3 _ (.head _))).append
      (outAll_grown hs hc (fun n hn => h1 n (.tail _ hn)) (fun n hn => h2 n (.tail _ hn)) fun n hn => h3 n (.tail _ hn))
theorem outItems_grown : {c : Ctx} → {ns : List Node} → {its : List Any} → {w : Bytes} → OutItems P c ns its w →
    SafeCtx c → (∀ v ∈ its, SafeData v) → (∀ n ∈ ns, n.isAttr = false) → ∀ {text} {p : Place},
    (∀ n ∈ ns, Clean P A B .html ρ text n) → (∀ n ∈ ns, Stands P p n) → Grown A B p text w
  | _, _, _, _, .nil, _, _, _, _, _, _, _ => .nil
  | _, _, _, _, .cons h hs, hc, hi, h1, _, _, h2, h3 =>
    (outAll_grown h (safe_child hc (hi _ (.head _)) _) h1 h2 h3).append
      (outItems_grown hs hc (fun v hv => hi v (.tail _ hv)) h1 h2 h3)
theorem outYields_grown : {c : Ctx} → {ns : List Node} → {d : Option MapId} → {its : List Any} → {w : Bytes} →
    OutYields P c ns d its w → SafeCtx c → (∀ v ∈ its, SafeData v) → (∀ n ∈ ns, n.isAttr = false) →
    ∀ {text} {p : Place}, (∀ n ∈ ns, Clean P A B .html ρ text n) → (∀ n ∈ ns, Stands P p n) → Grown A B p text w
  | _, _, _, _, _, .nil, _, _, _, _, _, _, _ => .nil
  | _, _, _, _, _, .cons h hs, hc, hi, h1, _, _, h2, h3 =>
    (outAll_grown h (safe_child hc (hi _ (.head _)) _) h1 h2 h3).append
      (outYields_grown hs hc (fun v hv => hi v (.tail _ hv)) h1 h2 h3)
theorem outOps_grown : {c : Ctx} → {ops : List ImpOp} → {st : List Bytes} → {w : Bytes} → OutOps P c ops st w →
    SafeCtx c → (∀ d, .writeRaw d ∈ ops → MarkupSafe d) →
    (∀ ns n, .writeNodes ns ∈ ops → some n ∈ ns → Clean P A B .html ρ false n) →
    (∀ name v attrs, .start name v attrs ∈ ops → name ∈ A ∧ lower name ∉ textNames ∧ (v = true → Syntax.html = .html)) →
    (∀ name v attrs n, .start name v attrs ∈ ops → some n ∈ attrs → Clean P A B .html ρ false n) →
    openAfter ops st = [] → ∀ {p : Place}, OpsStand P p ops st →
    ∃ a b, w = a ++ b ∧ Grown A B (p.under st) false a ∧ EndsIn A B p st b
  | _, _, _, _, .nil, _, _, _, _, _, ho, _, _ => ⟨[], [], rfl, .nil, by cases ho; exact .nil⟩
  | _, _, _, _, .writeString (d := d) h, hc, h1, h2, h3, h4, ho, _, k => by
    obtain ⟨a, b, rfl, ha, hb⟩ := outOps_grown h hc (fun d hd => h1 d (.tail _ hd)) (fun a b hd => h2 a b (.tail _ hd))
      (fun a b c hd => h3 a b c (.tail _ hd)) (fun a b c d hd => h4 a b c d (.tail _ hd)) ho k.tail
    exact ⟨_, b, (List.append_assoc ..).symm, (Grown.ofText (k.str [] d _ rfl) ⟨d, escaped_eq d⟩).append ha, hb⟩
  | _, _, _, _, .writeRaw (d := d) h, hc, h1, h2, h3, h4, ho, _, k => by
    obtain ⟨a, b, rfl, ha, hb⟩ := outOps_grown h hc (fun d hd => h1 d (.tail _ hd)) (fun a b hd => h2 a b (.tail _ hd))
      (fun a b c hd => h3 a b c (.tail _ hd)) (fun a b c d hd => h4 a b c d (.tail _ hd)) ho k.tail
    exact ⟨_, b, (List.append_assoc ..).symm,
      (Grown.ofText (k.raw [] d _ rfl) (esc_of_markupSafe d (h1 d (.head _)))).append ha, hb⟩
  | _, _, _, _, .writeNodes (ns := ms) h' h, hc, h1, h2, h3, h4, ho, _, k => by
    obtain ⟨a, b, rfl, ha, hb⟩ := outOps_grown h hc (fun d hd => h1 d (.tail _ hd)) (fun a b hd => h2 a b (.tail _ hd))
      (fun a b c hd => h3 a b c (.tail _ hd)) (fun a b c d hd => h4 a b c d (.tail _ hd)) ho k.tail
    have := outAll_grown h' hc (fun n hn => by simpa using (List.mem_filter.1 hn).2)
      (fun n hn => h2 ms n (.head _) (by simpa using (List.mem_filter.1 hn).1))
      (fun n hn => k.nodes [] ms _ n rfl (by simpa using (List.mem_filter.1 hn).1))
    exact ⟨_, b, (List.append_assoc ..).symm, this.append ha, hb⟩
  | c, _, _, _, .startVoid (n := nm) (attrs := attrs) h, hc, h1, h2, h3, h4, ho, _, k => by
    obtain ⟨a, b, rfl, ha, hb⟩ := outOps_grown h hc (fun d hd => h1 d (.tail _ hd)) (fun a b hd => h2 a b (.tail _ hd))
      (fun a b c hd => h3 a b c (.tail _ hd)) (fun a b c d hd => h4 a b c d (.tail _ hd)) ho k.tail
    rw [startCollect_shows]
    have hs := start_clean (c := c) S hc (fun n hn => h4 nm true attrs n (.head _) hn)
    have hA := h3 nm true attrs (.head _)
    exact ⟨_, b, (List.append_assoc ..).symm,
      (Grown.void N hA.1 hs.1 hs.2 hA.2.1 (k.void [] nm attrs _ rfl)).append ha, hb⟩
  | c, _, _, _, .start (n := nm) (attrs := attrs) h, hc, h1, h2, h3, h4, ho, _, k => by
    obtain ⟨a, b, rfl, ha, hb⟩ := outOps_grown h hc (fun d hd => h1 d (.tail _ hd)) (fun a b hd => h2 a b (.tail _ hd))
      (fun a b c hd => h3 a b c (.tail _ hd)) (fun a b c d hd => h4 a b c d (.tail _ hd)) ho k.tail
    rw [startCollect_shows]
    have hs := start_clean (c := c) S hc (fun n hn => h4 nm false attrs n (.head _) hn)
    have hA := h3 nm false attrs (.head _)
    cases hb with
    | cons hw hst =>
      have he := Grown.element (text := false) N hA.1 hs.1 hs.2 ⟨by simp, fun h => (hA.2.1 h).elim⟩
        (k.start [] nm attrs _ rfl) ha
      exact ⟨_, _, by simp only [List.append_assoc], he.append hw, hst⟩
  | _, _, _, _, .endNone h, hc, h1, h2, h3, h4, ho, _, k =>
    outOps_grown h hc (fun d hd => h1 d (.tail _ hd)) (fun a b hd => h2 a b (.tail _ hd))
      (fun a b c hd => h3 a b c (.tail _ hd)) (fun a b c d hd => h4 a b c d (.tail _ hd)) ho k.tail
  | _, _, _, _, .endSome h, hc, h1, h2, h3, h4, ho, _, k => by
    obtain ⟨a, b, rfl, ha, hb⟩ := outOps_grown h hc (fun d hd => h1 d (.tail _ hd)) (fun a b hd => h2 a b (.tail _ hd))
      (fun a b c hd => h3 a b c (.tail _ hd)) (fun a b c d hd => h4 a b c d (.tail _ hd)) ho k.tail
    exact ⟨[], _, (List.append_assoc ..).symm, .nil, .cons ha hb⟩
  | _, _, st, _, .endAll h, hc, h1, h2, h3, h4, ho, p, k => by
    obtain ⟨a, b, rfl, ha, hb⟩ := outOps_grown h hc (fun d hd => h1 d (.tail _ hd)) (fun a b hd => h2 a b (.tail _ hd))
      (fun a b c hd => h3 a b c (.tail _ hd)) (fun a b c d hd => h4 a b c d (.tail _ hd)) ho k.tail
    cases hb
    rw [List.append_nil]
    clear ho k
    induction st with
    | nil => exact ⟨a, [], by simp, ha, .nil⟩
    | cons n st ih =>
      obtain ⟨x, y, e, hx, hy⟩ := ih
      refine ⟨[], endBytes n ++ x ++ y, ?_, .nil, .cons hx hy⟩
      rw [List.flatMap_cons, List.append_assoc, e]; simp
end
end

/-! ### Elements -/

/-- What an element made of clean arguments writes. -/
theorem newElement_out {P : Fns} {A B : List Bytes} {ρ : Rule P} (N : GoodNames A B) (S : SafeFns P) {c : Ctx}
    (hc : SafeCtx c) {name : Bytes} {args : List Any} {h : Heap} {w : Bytes}
    (ho : Out P c (NewElement name args h).1 w) (hk : Clean P A B .html ρ false (NewElement name args h).1) :
    ∃ attrs w', AttrsOK attrs ∧ (∀ a ∈ attrs, a.1 ∈ B) ∧ OutAll P c (nonAttrs (args.map (asNode h.dl))) w' ∧
      ∀ ts, w' = writeAll ts → w = write (.element name attrs ts) := by
  obtain ⟨e, dl, e1, e2⟩ := newElement_eq name args h
  have hm := (addAttributes_merged (staticAttrs (args.map (asNode h.dl))) name
    (attributesAndContents (args.map (asNode h.dl))).2.1 h.dl).2.1
  rw [e2] at hm
  rw [e1] at ho hk
  cases ho with
  | element ht ha =>
  cases hk with
  | element text hh hx h1 h2 =>
    obtain ⟨attrs, g1, g2, g3, -⟩ := shown_attrs N (tagShows_clean S hc hh ht) (tagShows_names hh.wf ht).1
    have hm : e.name = name := hm
    refine ⟨attrs, _, g1, g2, ha, fun ts hts => ?_⟩
    rw [hts, hm, g3]
    simp [write, endBytes]

/-- The arguments of a function that makes an element, in their place. -/
theorem stands_args {P : Fns} {p : Place} {args : List Any} (dl : Nat → List Value)
    (h1 : ∀ v ∈ args, p.Text ∨ ∃ n, v = .node n) (h2 : ∀ v ∈ args, SafeArg v ∨ ∃ n, v = .node n)
    (h3 : ∀ n ∈ nodesIn args, Stands P p n) : ∀ n ∈ args.map (asNode dl), Stands P p n := by
  intro n hn
  obtain ⟨v, hv, rfl⟩ := List.mem_map.1 hn
  rcases h2 v hv with h | ⟨m, rfl⟩
  · rcases h1 v hv with ht | ⟨m, rfl⟩
    · have : asNode dl v = .text (newValues dl [v]) := by
        cases v <;> first | rfl | exact h.elim
      rw [this]
      exact .text _ ht
    · exact h.elim
  · exact h3 m (List.mem_filterMap.2 ⟨_, hv, rfl⟩)

/-- `NewElement`, where elements of that name may be. -/
theorem stands_newElement {P : Fns} {p : Place} {name : Bytes} {args : List Any} {h : Heap} (hp : p.Element name)
    (h1 : ∀ v ∈ args, (p.into name).Text ∨ ∃ n, v = .node n) (h2 : ∀ v ∈ args, SafeArg v ∨ ∃ n, v = .node n)
    (h3 : ∀ n ∈ nodesIn args, Stands P (p.into name) n) : Stands P p (NewElement name args h).1 := by
  obtain ⟨e, dl, e1, e2⟩ := newElement_eq name args h
  have hm := (addAttributes_merged (staticAttrs (args.map (asNode h.dl))) name
    (attributesAndContents (args.map (asNode h.dl))).2.1 h.dl).2.1
  rw [e2] at hm
  have hm : e.name = name := hm
  rw [e1]
  refine .element _ _ (by rw [hm]; exact hp) fun n hn => ?_
  rw [hm]
  exact stands_args h.dl h1 h2 h3 n (List.mem_filter.1 hn).1

/-- `NewVoidElement`, where elements of that name may be. -/
theorem stands_newVoidElement {P : Fns} {p : Place} {name : Bytes} {args : List Any} {h : Heap} (hp : p.Void name) :
    Stands P p (NewVoidElement name args h).1 := by
  obtain ⟨e, dl, e1, e2⟩ := newVoidElement_eq name args h
  have hm := (addAttributes_merged (staticAttrs (args.map (asNode h.dl))) name
    (attributesAndContents (args.map (asNode h.dl))).2.1 h.dl).2.1
  rw [e2] at hm
  have hm : e.name = name := hm
  rw [e1]
  exact .voidElement _ (by rw [hm]; exact hp)

/-! ### Names -/

theorem madeOf_joined {A B : List Bytes} : (ds : List Dom) → MadeOfAll A B ds → MadeOfAll A B (joined ds)
  | [], _ => trivial
  | .text s :: rest, h => by
    have ih := madeOf_joined rest h.2
    unfold joined
    split
    · rename_i e
      rw [e] at ih
      exact ⟨trivial, ih.2⟩
    · split
      · exact ih
      · exact ⟨trivial, ih⟩
  | .element .. :: rest, h => ⟨h.1, madeOf_joined rest h.2⟩
  | .comment _ :: rest, h => ⟨trivial, madeOf_joined rest h.2⟩
  | .doctype _ :: rest, h => ⟨trivial, madeOf_joined rest h.2⟩

theorem madeOf_lined {A B : List Bytes} : (ds : List Dom) → MadeOfAll A B ds → MadeOfAll A B (lined ds)
  | [], _ => trivial
  | .text _ :: rest, h => ⟨trivial, madeOf_lined rest h.2⟩
  | .element .. :: rest, h => ⟨h.1, madeOf_lined rest h.2⟩
  | .comment _ :: rest, h => ⟨trivial, madeOf_lined rest h.2⟩
  | .doctype _ :: rest, h => ⟨trivial, madeOf_lined rest h.2⟩

theorem madeOf_firstLine {A B : List Bytes} (n : Bytes) {ds : List Dom} (h : MadeOfAll A B ds) :
    MadeOfAll A B (firstLine n ds) := by
  unfold firstLine
  split
  · split
    · split
      · exact h.2
      · exact ⟨trivial, h.2⟩
    · exact h
  · exact h

theorem linedAttrs_names {B : List Bytes} {attrs : List (Bytes × Option Bytes)} (h : ∀ a ∈ attrs, a.1 ∈ B) :
    ∀ a ∈ linedAttrs attrs, a.1 ∈ B.map lower := by
  intro a ha
  obtain ⟨b, hb, rfl⟩ := List.mem_map.1 ha
  obtain ⟨d, hd, rfl⟩ := List.mem_map.1 hb
  exact List.mem_map.2 ⟨_, h d hd, rfl⟩

mutual
theorem madeOf_received {A B : List Bytes} (raw : Bool) : (t : Tree) → Within A B t →
    MadeOf (A.map lower) (B.map lower) (received raw t)
  | .element name attrs children, ⟨h1, h2, h3⟩ => by
    rw [received]
    exact ⟨List.mem_map.2 ⟨_, h1, rfl⟩, linedAttrs_names h2,
      madeOf_firstLine _ (madeOf_lined _ (madeOf_joined _ (madeOf_receivedAll _ children h3)))⟩
  | .void name attrs, ⟨h1, h2⟩ => by
    rw [received]
    exact ⟨List.mem_map.2 ⟨_, h1, rfl⟩, linedAttrs_names h2, trivial⟩
  | .text _, _ => trivial
  | .comment _, _ => trivial
  | .doctype _, _ => trivial
theorem madeOf_receivedAll {A B : List Bytes} (raw : Bool) : (ts : List Tree) → WithinAll A B ts →
    MadeOfAll (A.map lower) (B.map lower) (receivedAll raw ts)
  | [], _ => trivial
  | t :: ts, ⟨h1, h2⟩ => ⟨madeOf_received raw t h1, madeOf_receivedAll raw ts h2⟩
end

theorem madeOfAll_append {A B : List Bytes} : {ds es : List Dom} → MadeOfAll A B ds → MadeOfAll A B es →
    MadeOfAll A B (ds ++ es)
  | [], _, _, h => h
  | _ :: _, _, h, h' => ⟨h.1, madeOfAll_append h.2 h'⟩

theorem madeOf_contents {A B : List Bytes} {ts : List Tree} (h : WithinAll A B ts) :
    MadeOfAll (A.map lower) (B.map lower) (contents ts) :=
  madeOf_lined _ (madeOf_joined _ (madeOf_receivedAll false ts h))

/-! ### Pages -/

/-- More names are allowed. -/
theorem tidy_names {P : Fns} {A B A' B' : List Bytes} {L : Syntax} (hA : ∀ a ∈ A, a ∈ A') (hB : ∀ b ∈ B, b ∈ B')
    {text : Bool} {n : Node} (h : Tidy P A B L text n) : Tidy P A' B' L text n := by
  induction h with
  | newElement name contents h h1 h2 h3 _ ih => exact .newElement name contents h (hA _ h1) h2 h3 ih
  | newTextElement name contents h h1 h2 h3 _ ih => exact .newTextElement name contents h (hA _ h1) h2 h3 ih
  | newVoidElement name contents h hL h1 h2 _ ih => exact .newVoidElement name contents h hL (hA _ h1) h2 ih
  | newAttribute text dl name values h1 hk h2 => exact .newAttribute text dl name values (hB _ h1) hk h2
  | newBooleanAttribute text name hL h1 hk => exact .newBooleanAttribute text name hL (hB _ h1) hk
  | newDelimitedAttribute text name d values h h1 hk h2 h3 =>
    exact .newDelimitedAttribute text name d values h (hB _ h1) hk h2 h3
  | text text dl contents h => exact .text text dl contents h
  | fragment text dl contents h => exact .fragment text dl contents h
  | comment dl contents hL h => exact .comment dl contents hL h
  | docType dl hL => exact .docType dl hL
  | collection text nodes _ ih => exact .collection text nodes ih
  | contentCollect text f _ ih => exact .contentCollect text f ih
  | conditional text fn nodes n _ e ih => exact .conditional text fn nodes n ih e
  | when text key nodes n _ e ih => exact .when text key nodes n ih e
  | iterate text fn nodes n _ e ih => exact .iterate text fn nodes n ih e
  | iterateKey text key nodes n _ e ih => exact .iterateKey text key nodes n ih e
  | iterateYield text fn nodes n _ e ih => exact .iterateYield text fn nodes n ih e
  | imperative f h1 _ h3 _ h5 ih2 ih4 =>
    exact .imperative f h1 ih2 (fun c name v attrs h => ⟨hA _ (h3 c name v attrs h).1, (h3 c name v attrs h).2⟩) ih4 h5
  | document lang head body h hL h1 h2 h3 h4 hk h5 h6 _ _ ih1 ih2 =>
    exact .document lang head body h hL (hA _ h1) (hA _ h2) (hA _ h3) (hB _ h4) hk h5 h6 ih1 ih2

theorem TidyPage.tidy {P : Fns} {A B : List Bytes} {lang : Any} {head body : List Any}
    (t : TidyPage P A B lang head body) (h : Heap) : Tidy P A B .html false (Document lang head body h).1 :=
  .document lang head body h rfl t.names.1 t.names.2.1 t.names.2.2.1 t.names.2.2.2 trivial t.lang t.args t.head t.body

/-- An element of the page, with the trees in it. -/
theorem part_out {P : Fns} {A B : List Bytes} (N : GoodNames A B) (S : SafeFns P) {c : Ctx} (hc : SafeCtx c)
    {name : Bytes} {args : List Any} {h : Heap} {w : Bytes} {p : Place} (ho : Out P c (NewElement name args h).1 w)
    (hn : name ∈ A) (hx : lower name ∉ textNames) (h1 : ∀ v ∈ args, SafeArg v ∨ ∃ n, v = .node n)
    (h2 : ∀ n ∈ nodesIn args, Tidy P A B .html false n) (h3 : ∀ v ∈ args, p.Text ∨ ∃ n, v = .node n)
    (h4 : ∀ n ∈ nodesIn args, Stands P p n) :
    ∃ attrs ts, w = write (.element name attrs ts) ∧ Within A B (.element name attrs ts) ∧
      Proper (.element name attrs ts) ∧ ProperAll ts ∧ ∀ t ∈ ts, p.fits t = true := by
  have hk : ∀ n ∈ nodesIn args, Clean P A B .html (Rule.any P) false n := fun n hn => tidy_clean (h2 n hn)
  obtain ⟨attrs, w', g1, g2, g3, g4⟩ := newElement_out N S hc ho
    (clean_newElement false hn ⟨by simp, fun h => (hx h).elim⟩ h1 hk)
  obtain ⟨ts, k1, k2, k3, -, k5⟩ := outAll_grown N S g3 hc (fun n hn => by simpa using (List.mem_filter.1 hn).2)
    (text := false) (p := p) (fun n hn => clean_args h.dl h1 hk n (List.mem_filter.1 hn).1)
    (fun n hn => stands_args h.dl h3 h1 h4 n (List.mem_filter.1 hn).1)
  exact ⟨attrs, ts, g4 ts k1, ⟨hn, g2, k2⟩, ⟨(N.elements _ hn).1, (N.elements _ hn).2, g1, .inr ⟨hx, k3⟩⟩, k3, k5⟩

theorem langArg_cases (lang : Any) {dl : Nat → List Value} :
    langArg dl lang = .nil ∨ ∃ n, langArg dl lang = .node n ∧ n.isAttr = true := by
  cases lang <;> first | exact .inl rfl | exact .inr ⟨_, rfl, rfl⟩

theorem nil_out {P : Fns} {c : Ctx} {dl : Nat → List Value} {w : Bytes} (h : Out P c (asNode dl .nil) w) : w = [] := by
  cases h
  rfl

theorem body_isAttr {args : List Any} {h : Heap} : (Body args h).1.isAttr = false := by
  obtain ⟨e, dl, e1, -⟩ := newElement_eq b%"body" args h
  unfold Body
  rw [e1]; rfl

/-- The contents of the `html` element: those of its head, if there is one, and those of its body. -/
theorem html_out {P : Fns} {c : Ctx} {lang : Any} {head : List Any} {h : Heap} {b : Node} {dl : Nat → List Value}
    {w : Bytes} (hl : lang = .nil ∨ ∃ n, lang = .node n ∧ n.isAttr = true) (hb : b.isAttr = false)
    (ho : OutAll P c (nonAttrs ([lang, (headArg head h).1, .node b].map (asNode dl))) w) :
    ∃ wh wb, w = wh ++ wb ∧ Out P c b wb ∧ ((head = [] ∧ wh = []) ∨ (head ≠ [] ∧ Out P c (Head head h).1 wh)) := by
  have key : ∃ wh, ∃ wb, w = wh ++ wb ∧ Out P c b wb ∧ Out P c (asNode dl (headArg head h).1) wh := by
    have hh : (asNode dl (headArg head h).1).isAttr = false := by
      cases head with
      | nil => rfl
      | cons v vs =>
        obtain ⟨e, dl', e1, -⟩ := newElement_eq b%"head" (v :: vs) h
        show (NewElement b%"head" (v :: vs) h).1.isAttr = false
        rw [e1]; rfl
    have hb' : (asNode dl (.node b)).isAttr = false := hb
    have two : ∀ {w}, OutAll P c [asNode dl (headArg head h).1, asNode dl (.node b)] w →
        ∃ wh wb, w = wh ++ wb ∧ Out P c b wb ∧ Out P c (asNode dl (headArg head h).1) wh := by
      intro w ho
      cases ho with
      | cons h1 ho =>
      cases ho with
      | cons h2 ho =>
      cases ho
      exact ⟨_, _, by rw [List.append_nil], h2, h1⟩
    rcases hl with rfl | ⟨n, rfl, hn⟩
    · have h0 : (asNode dl .nil).isAttr = false := rfl
      simp only [nonAttrs, List.map_cons, List.map_nil, List.filter_cons, List.filter_nil, h0, hh, hb', Bool.not_false,
        if_true] at ho
      cases ho with
      | cons h1 ho =>
      rw [nil_out h1]
      exact two ho
    · have h0 : (asNode dl (.node n)).isAttr = true := hn
      simp only [nonAttrs, List.map_cons, List.map_nil, List.filter_cons, List.filter_nil, h0, hh, hb', Bool.not_false,
        Bool.not_true, if_true, if_false, Bool.false_eq_true] at ho
      exact two ho
  obtain ⟨wh, wb, e, h1, h2⟩ := key
  refine ⟨wh, wb, e, h1, ?_⟩
  cases head with
  | nil => exact .inl ⟨rfl, nil_out h2⟩
  | cons v vs => exact .inr ⟨nofun, h2⟩

/-- What a page writes. -/
theorem page_out {P : Fns} {A B : List Bytes} (N : GoodNames A B) (S : SafeFns P) {c : Ctx} (hc : SafeCtx c)
    {lang : Any} {head body : List Any} (t : TidyPage P A B lang head body) (s : PageStands P head body) {h : Heap}
    {w : Bytes} (ho : Out P c (Document lang head body h).1 w) :
    ∃ attrs headAttrs heads bodyAttrs bodies,
      let ts := [.doctype b%"html", .element b%"html" attrs
        ((if head.isEmpty then [] else [.element b%"head" headAttrs heads]) ++ [.element b%"body" bodyAttrs bodies])]
      w = writeAll ts ∧ WithinAll A B ts ∧ ProperAll ts ∧ (head = [] → headAttrs = [] ∧ heads = []) ∧
      ProperAll heads ∧ ProperAll bodies ∧ heads.all fitsHead = true ∧ fitsAll [b%"body", b%"html"] bodies = true ∧
      MadeOf (A.map lower) (B.map lower) (.element b%"html" (linedAttrs attrs)
        [.element b%"head" (linedAttrs headAttrs) (contents heads),
         .element b%"body" (linedAttrs bodyAttrs) (contents bodies)]) := by
  have hclean := tidy_clean (t.tidy h)
  unfold Document at ho hclean
  simp only at ho hclean
  cases hclean with
  | document c1 c2 =>
  have hhtml := c2 _ (List.mem_append_right _ (List.mem_singleton.2 rfl))
  cases ho with
  | document ho =>
  cases ho with
  | cons hdoc ho =>
  cases ho with
  | cons ho hnil =>
  cases hnil
  have hd : ∀ {w dl}, Out P c (DocType dl) w → w = write (.doctype b%"html") := by
    intro w dl h
    cases h
    rfl
  rw [hd hdoc]
  obtain ⟨attrs, w', g1, g2, g3, g4⟩ := newElement_out N S hc ho hhtml
  obtain ⟨wh, wb, rfl, hb, hh⟩ := html_out (langArg_cases lang) body_isAttr g3
  obtain ⟨bodyAttrs, bodies, rfl, b2, b3, b4, b5⟩ := part_out (p := .inside [b%"body", b%"html"]) N S hc hb
    t.names.2.2.1 (by decide) (fun v hv => t.args v (List.mem_append_right _ hv)) t.body (fun v hv => .inl fun s => rfl)
    s.body
  have mb : MadeOf (A.map lower) (B.map lower) (.element b%"body" (linedAttrs bodyAttrs) (contents bodies)) :=
    ⟨List.mem_map.2 ⟨_, b2.1, rfl⟩, linedAttrs_names b2.2.1, madeOf_contents b2.2.2⟩
  have hA := N.elements _ t.names.1
  rcases hh with ⟨rfl, rfl⟩ | ⟨hne, hh⟩
  · refine ⟨attrs, [], [], bodyAttrs, bodies, ?_, ⟨trivial, ⟨t.names.1, g2, b2, trivial⟩, trivial⟩,
      ⟨trivial, ⟨hA.1, hA.2, g1, .inr ⟨by decide, b3, trivial⟩⟩, trivial⟩, fun _ => ⟨rfl, rfl⟩, trivial, b4, rfl,
      fitsAll_iff.2 b5, List.mem_map.2 ⟨_, t.names.1, rfl⟩, linedAttrs_names g2,
      ⟨List.mem_map.2 ⟨_, t.names.2.1, rfl⟩, nofun, trivial⟩, mb, trivial⟩
    rw [g4 [.element b%"body" bodyAttrs bodies] (by simp [writeAll])]
    simp [writeAll]
  · obtain ⟨headAttrs, heads, rfl, d2, d3, d4, d5⟩ := part_out (p := .head) N S hc hh
      t.names.2.1 (by decide) (fun v hv => t.args v (List.mem_append_left _ hv)) t.head (fun v hv => .inr (s.nodes v hv))
      s.head
    have he : head.isEmpty = false := by cases head <;> first | rfl | exact (hne rfl).elim
    refine ⟨attrs, headAttrs, heads, bodyAttrs, bodies, ?_⟩
    rw [he]
    refine ⟨?_, ⟨trivial, ⟨t.names.1, g2, d2, b2, trivial⟩, trivial⟩,
      ⟨trivial, ⟨hA.1, hA.2, g1, .inr ⟨by decide, d3, b3, trivial⟩⟩, trivial⟩, fun h => (hne h).elim, d4, b4,
      List.all_eq_true.2 d5, fitsAll_iff.2 b5, List.mem_map.2 ⟨_, t.names.1, rfl⟩, linedAttrs_names g2,
      ⟨List.mem_map.2 ⟨_, d2.1, rfl⟩, linedAttrs_names d2.2.1, madeOf_contents d2.2.2⟩, mb, trivial⟩
    rw [g4 [.element b%"head" headAttrs heads, .element b%"body" bodyAttrs bodies] (by simp [writeAll])]
    simp [writeAll]

end Aitch.Spec.Markup
