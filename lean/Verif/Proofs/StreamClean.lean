import Verif.Spec.StreamClean
import Verif.Proofs.Clean
import Verif.Proofs.Start
/-
Templates and functions that keep to the rules write trees.
-/
namespace Aitch.Stream
open Spec Spec.Stream Markup

variable {Q : Rules}

/-! ### Bytes -/

theorem fits_nil : (p : Spot) → Q.Fits p []
  | .content => ⟨[], rfl, trivial, trivial⟩
  | .text => ⟨[], rfl⟩
  | .tag => rfl

theorem fits_append : {p : Spot} → {a b : Bytes} → Q.Fits p a → Q.Fits p b → Q.Fits p (a ++ b)
  | .content, _, _, ⟨s, h1, h2, h3⟩, ⟨t, g1, g2, g3⟩ =>
    ⟨s ++ t, by rw [writeAll_append, h1, g1], properAll_append h2 g2, withinAll_append h3 g3⟩
  | .text, _, _, ha, hb => Esc.append ha hb
  | .tag, _, _, ha, hb => by
    have ha : _ = [] := ha
    have hb : _ = [] := hb
    rw [ha, hb]; rfl

theorem fits_tree {t : Tree} (h1 : Proper t) (h2 : Within Q.elements Q.attributes t) : Q.Fits .content (write t) :=
  ⟨[t], by simp [writeAll], ⟨h1, trivial⟩, ⟨h2, trivial⟩⟩

theorem fits_esc : {p : Spot} → p ≠ .tag → {w : Bytes} → Esc w → Q.Fits p w
  | .content, _, _, ⟨s, hs⟩ => by rw [hs]; exact fits_tree (t := .text s) trivial trivial
  | .text, _, _, h => h
  | .tag, h, _, _ => (h rfl).elim

theorem fits_element (N : GoodNames Q.elements Q.attributes) {name : Bytes} {attrs : List (Bytes × Option Bytes)} {w : Bytes}
    (hn : name ∈ Q.elements) (ht : lower name ∉ textNames) (ha : AttrsOK attrs) (hb : ∀ a ∈ attrs, a.1 ∈ Q.attributes)
    (hw : Q.Fits .content w) : Q.Fits .content (writeTag name attrs ++ w ++ endBytes name) := by
  obtain ⟨ts, rfl, h1, h2⟩ := hw
  have : writeTag name attrs ++ writeAll ts ++ endBytes name = write (.element name attrs ts) := by simp [write, endBytes]
  rw [this]
  exact fits_tree ⟨(N.elements _ hn).1, (N.elements _ hn).2, ha, .inr ⟨ht, h1⟩⟩ ⟨hn, hb, h2⟩

theorem fits_textElement (N : GoodNames Q.elements Q.attributes) {name : Bytes} {attrs : List (Bytes × Option Bytes)} {w : Bytes}
    (hn : name ∈ Q.elements) (ht : lower name ∈ textNames) (ha : AttrsOK attrs) (hb : ∀ a ∈ attrs, a.1 ∈ Q.attributes)
    (hw : Q.Fits .text w) : Q.Fits .content (writeTag name attrs ++ w ++ endBytes name) := by
  obtain ⟨s, rfl⟩ := hw
  have : writeTag name attrs ++ escaped s ++ endBytes name = write (.element name attrs [.text s]) := by
    simp [write, writeAll, endBytes]
  rw [this]
  exact fits_tree ⟨(N.elements _ hn).1, (N.elements _ hn).2, ha, .inl ⟨ht, by simp [Tree.IsText]⟩⟩
    ⟨hn, hb, trivial, trivial⟩

theorem fits_void (N : GoodNames Q.elements Q.attributes) {name : Bytes} {attrs : List (Bytes × Option Bytes)}
    (hn : name ∈ Q.elements) (ht : lower name ∉ textNames) (ha : AttrsOK attrs) (hb : ∀ a ∈ attrs, a.1 ∈ Q.attributes) :
    Q.Fits .content (writeTag name attrs) :=
  fits_tree (t := .void name attrs) ⟨(N.elements _ hn).1, (N.elements _ hn).2, ha, ht⟩ ⟨hn, hb⟩

/-- The bytes end the open elements `st`, with what fits after each end tag. -/
inductive Shuts (Q : Rules) (p : Spot) : List Bytes → Bytes → Prop
  | nil : Shuts Q p [] []
  | cons {n st w w'} : Q.Fits p w → Shuts Q p st w' → Shuts Q p (n :: st) (endBytes n ++ w ++ w')

/-- What fits, and then the ends of the open elements. -/
def Left (Q : Rules) (p : Spot) (st : List Bytes) (w : Bytes) : Prop :=
  ∃ x y, w = x ++ y ∧ Q.Fits p x ∧ Shuts Q p st y

theorem Left.nil {p : Spot} : Left Q p [] [] := ⟨[], [], rfl, fits_nil p, .nil⟩

theorem Left.fits {p : Spot} {w : Bytes} : Left Q p [] w → Q.Fits p w
  | ⟨x, _, e, h, .nil⟩ => by rw [e, List.append_nil]; exact h

theorem Left.pre {p : Spot} {st : List Bytes} {a b : Bytes} (ha : Q.Fits p a) : Left Q p st b → Left Q p st (a ++ b)
  | ⟨x, y, e, h, hy⟩ => ⟨a ++ x, y, by rw [e, List.append_assoc], fits_append ha h, hy⟩

theorem Left.close {p : Spot} {n : Bytes} {st : List Bytes} {b : Bytes} : Left Q p st b → Left Q p (n :: st) (endBytes n ++ b)
  | ⟨x, y, e, h, hy⟩ => ⟨[], endBytes n ++ x ++ y, by simp [e], fits_nil p, .cons h hy⟩

theorem Left.closeAll {p : Spot} {b : Bytes} (h : Left Q p [] b) : (st : List Bytes) → Left Q p st (st.flatMap endBytes ++ b)
  | [] => h
  | n :: st => by
    rw [List.flatMap_cons, List.append_assoc]
    exact (Left.closeAll h st).close

theorem Left.start (N : GoodNames Q.elements Q.attributes) {name : Bytes} {attrs : List (Bytes × Option Bytes)}
    {st : List Bytes} {b : Bytes} (hn : name ∈ Q.elements) (ht : lower name ∉ textNames) (ha : AttrsOK attrs)
    (hb : ∀ a ∈ attrs, a.1 ∈ Q.attributes) (h : Left Q .content (name :: st) b) :
    Left Q .content st (writeTag name attrs ++ b) := by
  obtain ⟨x, y, rfl, hx, hy⟩ := h
  cases hy with
  | @cons _ _ w w' hw hy =>
    exact ⟨writeTag name attrs ++ x ++ endBytes name ++ w, w', by simp [List.append_assoc],
      fits_append (fits_element N hn ht ha hb hx) hw, hy⟩

/-- Attributes of these names. -/
def Atts (ns : List Bytes) (w : Bytes) : Prop :=
  ∃ l : List (Bytes × Option Bytes), l.map (·.1) = ns ∧ w = l.flatMap writeAttr

theorem Atts.append {ns ms : List Bytes} {a b : Bytes} : Atts ns a → Atts ms b → Atts (ns ++ ms) (a ++ b)
  | ⟨l, h1, h2⟩, ⟨m, g1, g2⟩ => ⟨l ++ m, by simp [h1, g1], by simp [h2, g2]⟩

theorem Atts.valued {n w : Bytes} : Q.Fits .text w → Atts [n] (b%" " ++ n ++ b%"=\"" ++ w ++ b%"\"")
  | ⟨s, hs⟩ => ⟨[(n, some s)], rfl, by simp [writeAttr, hs]⟩

theorem Atts.bool {n : Bytes} : Atts [n] (b%" " ++ n) := ⟨[(n, none)], rfl, by simp [writeAttr]⟩

theorem attrsOK_of (N : GoodNames Q.elements Q.attributes) {attrs : List (Bytes × Option Bytes)}
    (hB : ∀ a ∈ attrs, a.1 ∈ Q.attributes) (hn : (attrs.map (·.1)).Nodup) : AttrsOK attrs := by
  refine ⟨fun a ha => N.attributes _ (hB a ha), ?_⟩
  induction attrs with
  | nil => exact .nil
  | cons a attrs ih =>
    rw [List.map_cons, List.nodup_cons] at hn ⊢
    refine ⟨fun hm => hn.1 ?_, ih (fun b hb => hB b (.tail _ hb)) hn.2⟩
    obtain ⟨b, hb, e⟩ := List.mem_map.1 hm
    have := N.distinct _ (hB b (.tail _ hb)) _ (hB a (.head _)) e
    exact this ▸ List.mem_map_of_mem hb

theorem Atts.tag (N : GoodNames Q.elements Q.attributes) {ns : List Bytes} {w name : Bytes} (h : Atts ns w) (hn : ns.Nodup)
    (hB : ∀ n ∈ ns, n ∈ Q.attributes) : ∃ attrs, b%"<" ++ name ++ w ++ b%">" = writeTag name attrs ∧ AttrsOK attrs ∧
      ∀ a ∈ attrs, a.1 ∈ Q.attributes := by
  obtain ⟨l, rfl, rfl⟩ := h
  have hB : ∀ a ∈ l, a.1 ∈ Q.attributes := fun a ha => hB _ (List.mem_map_of_mem ha)
  exact ⟨l, rfl, attrsOK_of N hB hn, hB⟩

/-! ### Memory and values -/

theorem safe_forget {c : Ctx} (hc : SafeMemory Q c) : SafeCtx { c with dl := fun _ => [] } :=
  ⟨hc.cargo, hc.maps, fun _ => trivial⟩

theorem esc_own {c : Ctx} (hc : SafeMemory Q c) : (d : Dyn) → Esc (ownBytes c d)
  | .user _ => .nil
  | .cargo => esc_data _ hc.cargo
  | .key k => by
    simp only [ownBytes]
    split
    · rename_i v hv
      exact esc_data v (safe_lookup (safe_forget hc) (k := k) hv)
    · exact .nil

theorem neatValues_iff {p : Spot} (vs : List Value) : NeatValues Q p vs ↔ ∀ v ∈ vs, NeatValue Q p v := by
  induction vs with
  | nil => simp [NeatValues]
  | cons v vs ih => simp [NeatValues, ih]

theorem neat_values {c : Ctx} (hc : SafeMemory Q c) {a : Attr} (ha : NeatAttr Q a) : NeatValues Q .text (a.values c.dl) := by
  cases a with
  | plain n vs => exact ha.2
  | bool n => trivial
  | delim n d r => exact hc.delimited r

theorem safe_keyItems {c : Ctx} (hc : SafeMemory Q c) (k : Bytes) : ∀ v ∈ keyItems k c, SafeData v := by
  have S : SafeFns noFns := ⟨fun _ _ => markupSafe_nil, fun _ _ v h => (List.not_mem_nil h).elim,
    fun _ _ v h => (List.not_mem_nil h).elim⟩
  exact safe_items S (safe_forget hc) (.key k)

/-- The memory stays safe and what is written satisfies `F`. -/
def Adds (Q : Rules) (t t' : Tape) (F : Bytes → Prop) : Prop := SafeMemory Q t'.toCtx ∧ ∃ w, t'.out = t.out ++ w ∧ F w

theorem Adds.put {t : Tape} {w : Bytes} {F : Bytes → Prop} (ht : SafeMemory Q t.toCtx) (h : F w) : Adds Q t (t.put w) F :=
  ⟨ht, w, rfl, h⟩

theorem Adds.same {t : Tape} {F : Bytes → Prop} (ht : SafeMemory Q t.toCtx) (h : F []) : Adds Q t t F :=
  ⟨ht, [], (List.append_nil _).symm, h⟩

theorem Adds.seq {t t1 t2 : Tape} {F G H : Bytes → Prop} (h1 : Adds Q t t1 F) (h2 : Adds Q t1 t2 G)
    (h : ∀ a b, F a → G b → H (a ++ b)) : Adds Q t t2 H := by
  obtain ⟨_, a, e1, ha⟩ := h1
  obtain ⟨s2, b, e2, hb⟩ := h2
  exact ⟨s2, a ++ b, by rw [e2, e1, List.append_assoc], h a b ha hb⟩

theorem Adds.mono {t t1 : Tape} {F G : Bytes → Prop} (h1 : Adds Q t t1 F) (h : ∀ a, F a → G a) : Adds Q t t1 G :=
  let ⟨s, a, e, ha⟩ := h1
  ⟨s, a, e, h a ha⟩

theorem Adds.around {t t1 : Tape} {F G : Bytes → Prop} {a b : Bytes} (h1 : Adds Q (t.put a) t1 F)
    (h : ∀ w, F w → G (a ++ w ++ b)) : Adds Q t (t1.put b) G := by
  obtain ⟨s, w, e, hw⟩ := h1
  exact ⟨s, a ++ w ++ b, by simp [Tape.put, e], h w hw⟩

/-- The attributes that `Start` collects. -/
def NeatStarted (Q : Rules) (l : List (Bytes × Option (List Value))) : Prop :=
  (∀ x ∈ l, x.1 ∈ Q.attributes ∧ ∀ vs, x.2 = some vs → NeatValues Q .text vs) ∧ (l.map (·.1)).Nodup

theorem neat_startDelim {d : Bytes} (hd : Q.Fits .text d) : (vs : List Value) → NeatValues Q .text vs →
    (avs : Option (List Value)) → (∀ ws, avs = some ws → NeatValues Q .text ws) →
    ∀ ws, startDelim d vs avs = some ws → NeatValues Q .text ws
  | [], _, avs, ha => ha
  | v :: vs, hv, avs, ha => by
    unfold startDelim
    refine neat_startDelim hd vs hv.2 _ fun ws hw => ?_
    cases hw
    have hl : NeatValues Q .text (avs.getD []) := by
      cases avs with
      | none => trivial
      | some l => exact ha l rfl
    rw [neatValues_iff] at hl ⊢
    intro x hx
    rcases List.mem_append.1 hx with hx | hx
    · split at hx
      · rcases List.mem_append.1 hx with hx | hx
        · exact hl x hx
        · simp at hx; subst hx; exact hd
      · exact hl x hx
    · simp at hx; subst hx; exact hv.1

theorem neat_startCollect {c : Ctx} (hc : SafeMemory Q c) {attrs : List (Option Node)}
    (h : ∀ a, some (.attr a) ∈ attrs → NeatAttr Q a) : NeatStarted Q (startCollect c.dl attrs []) := by
  have has : ∀ a ∈ startAttrs attrs, NeatAttr Q a := by
    intro a ha
    obtain ⟨n, hn, e⟩ := List.mem_filterMap.1 ha
    split at e
    · cases e
      exact h a (by simpa using hn)
    · simp at e
  rw [startCollect_eq, startCollect_names]
  generalize startAttrs attrs = as at has
  constructor
  · intro x hx
    obtain ⟨n, hn, rfl⟩ := List.mem_map.1 hx
    rw [mem_distinct] at hn
    obtain ⟨a, ha, rfl⟩ := List.mem_map.1 hn
    refine ⟨(has a ha).1, ?_⟩
    have hm : ∀ b ∈ named a.name as, NeatAttr Q b := fun b hb => has b (List.mem_filter.1 hb).1
    generalize named a.name as = bs at hm
    have : ∀ (acc : Option (List Value)), (∀ vs, acc = some vs → NeatValues Q .text vs) →
        ∀ vs, bs.foldl (startOne c.dl) acc = some vs → NeatValues Q .text vs := by
      induction bs with
      | nil => exact fun _ h => h
      | cons b bs ih =>
        intro acc hacc
        refine ih (fun b hb => hm b (.tail _ hb)) _ ?_
        have hb := hm b (.head _)
        cases b with
        | plain n vs => rintro ws ⟨⟩; exact hb.2
        | bool n => rintro ws ⟨⟩
        | delim n d r => exact neat_startDelim hb.2 _ (hc.delimited r) _ hacc
    exact this _ (by rintro vs ⟨⟩; trivial)
  · rw [List.map_map]
    have : ((fun x : Bytes × Option (List Value) => x.1) ∘ fun n => (n, (named n as).foldl (startOne c.dl) (some []))) = id := rfl
    rw [this, List.map_id]
    exact nodup_distinct _

/-! ### Names in a tag -/

theorem extra_names (statics act : List Attr) : (extraDeclarations statics act).map (·.1.name) =
    distinct ((act.map Attr.name).filter fun n => n ∉ statics.map Attr.name) := by
  unfold extraDeclarations
  have : ∀ n ∈ distinct ((act.map Attr.name).filter fun n => n ∉ statics.map Attr.name), n ∈ act.map Attr.name := fun n hn =>
    (List.mem_filter.1 ((mem_distinct _ _).1 hn)).1
  generalize distinct ((act.map Attr.name).filter fun n => n ∉ statics.map Attr.name) = l at this
  induction l with
  | nil => rfl
  | cons n l ih =>
    rw [List.filterMap_cons]
    have hn := named_self (this n (.head _))
    cases hm : named n act with
    | nil => exact (hn hm).elim
    | cons e es =>
      have he : e ∈ named n act := by rw [hm]; exact .head _
      have : e.name = n := by simpa using (List.mem_filter.1 he).2
      simp only [List.map_cons, this]
      rw [ih fun m hm => ‹∀ m ∈ n :: l, _› m (.tail _ hm)]

theorem tag_names {statics act : List Attr} (hd : (statics.map Attr.name).Nodup) {l₁ l₂ : List (Attr × List Attr)}
    (p1 : l₁.Perm (statics.map fun a => (a, named a.name act))) (p2 : l₂.Perm (extraDeclarations statics act)) :
    ((l₁ ++ l₂).map (·.1.name)).Nodup := by
  have q1 := p1.map (·.1.name)
  have q2 := p2.map (·.1.name)
  rw [List.map_map] at q1
  have e : statics.map ((fun x : Attr × List Attr => x.1.name) ∘ fun a => (a, named a.name act)) = statics.map Attr.name := rfl
  rw [e] at q1
  rw [extra_names] at q2
  rw [List.map_append, List.nodup_append]
  refine ⟨q1.nodup_iff.2 hd, q2.nodup_iff.2 (nodup_distinct _), ?_⟩
  rintro n h1 m h2 rfl
  rw [q1.mem_iff] at h1
  rw [q2.mem_iff, mem_distinct, List.mem_filter] at h2
  exact absurd h1 (by simpa using h2.2)

theorem tag_neat {statics act : List Attr} (hs : ∀ a ∈ statics, NeatAttr Q a) (ha : ∀ a ∈ act, NeatAttr Q a)
    {l₁ l₂ : List (Attr × List Attr)} (p1 : l₁.Perm (statics.map fun a => (a, named a.name act)))
    (p2 : l₂.Perm (extraDeclarations statics act)) :
    ∀ x ∈ l₁ ++ l₂, NeatAttr Q x.1 ∧ ∀ e ∈ x.2, NeatAttr Q e ∧ e.name = x.1.name := by
  intro x hx
  rcases List.mem_append.1 hx with hx | hx
  · obtain ⟨a, h1, rfl⟩ := List.mem_map.1 (p1.mem_iff.1 hx)
    exact ⟨hs a h1, fun e he => ⟨ha e (List.mem_filter.1 he).1, by simpa using (List.mem_filter.1 he).2⟩⟩
  · have hx := p2.mem_iff.1 hx
    unfold extraDeclarations at hx
    obtain ⟨n, _, hx⟩ := List.mem_filterMap.1 hx
    split at hx
    · simp at hx
    · rename_i e es he
      simp only [Option.some.injEq] at hx
      subst hx
      have hm : ∀ b ∈ e :: es, b ∈ named n act := fun b hb => by rw [he]; exact hb
      have hname : ∀ b ∈ e :: es, b.name = n := fun b hb => by simpa using (List.mem_filter.1 (hm b hb)).2
      exact ⟨ha _ (List.mem_filter.1 (hm _ (.head _))).1, fun b hb =>
        ⟨ha _ (List.mem_filter.1 (hm b (.tail _ hb))).1, (hname b (.tail _ hb)).trans (hname e (.head _)).symm⟩⟩

/-! ### Everything that is written -/

section
variable {E : Tellers} (N : GoodNames Q.elements Q.attributes) (F : Spec.Stream.Follows Q E)
include N F

set_option linter.unusedSectionVars false in
mutual
theorem neat_tells : {α : Type} → {x : Telling α} → {t : Tape} → {a : α} → {t' : Tape} → Tells E x t a t' →
    SafeMemory Q t.toCtx → ∀ {p : Spot} {P : α → Prop} {st : List Bytes}, NeatTelling Q p P st x →
    P a ∧ Adds Q t t' (Left Q p st)
  | _, _, _, _, _, .ret, hs, _, _, _, hx => by
    cases hx with
    | ret h => exact ⟨h, .same hs .nil⟩
  | _, _, t, _, _, .act h, hs, _, _, _, hx => by
    cases hx with
    | act hu hk =>
      have hs' := hu t hs
      exact neat_tells h ⟨hs'.1, hs'.2, hs'.3⟩ (hk _ ⟨hs'.1, hs'.2, hs'.3⟩)
  | _, _, t, _, _, .write (d := d) h, hs, p, P, _, hx => by
    have ih := fun st hx => neat_tells h (p := p) (P := P) (st := st) (show SafeMemory Q (t.put d).toCtx from hs) hx
    clear h
    cases hx with
    | write hd hk =>
      obtain ⟨h1, h2⟩ := ih _ (hk _ hs)
      exact ⟨h1, (Adds.put (F := Q.Fits _) hs hd).seq h2 fun _ _ => Left.pre⟩
    | @start _ name attrs _ hp h1 h2 h3 h4 hk =>
      obtain ⟨g1, g2⟩ := ih _ (hk _ hs)
      subst hp
      exact ⟨g1, (Adds.put (F := fun w => w = writeTag name attrs) hs rfl).seq g2 fun _ _ e hb => by
        rw [e]; exact Left.start N h1 h2 h3 h4 hb⟩
    | @close _ name _ hk =>
      obtain ⟨g1, g2⟩ := ih _ (hk _ hs)
      exact ⟨g1, (Adds.put (F := fun w => w = endBytes name) hs rfl).seq g2 fun _ _ e hb => by
        rw [e]; exact Left.close hb⟩
  | _, _, _, _, _, .render hn h, hs, _, _, _, hx => by
    cases hx with
    | render hd ha hk =>
      have g := neat_node hn hs ha hd
      obtain ⟨h1, h2⟩ := neat_tells h g.1 (hk _ g.1)
      exact ⟨h1, g.seq h2 fun _ _ => Left.pre⟩
theorem neat_value : {v : Value} → {t : Tape} → {b : Bool} → {t' : Tape} → StreamsValue E v t b t' →
    SafeMemory Q t.toCtx → ∀ {p : Spot}, NeatValue Q p v → Adds Q t t' (Q.Fits p)
  | _, t, _, _, .fn (f := f) h, hs, p, hv => by
    obtain ⟨h1, h2⟩ := neat_tells h hs (F.dyn p f hv t hs)
    exact (h2.mono fun _ => Left.fits).seq (.put h2.1 h1) fun _ _ => fits_append
  | _, t, _, _, .own (d := d) hd, hs, p, hv => by
    have : p ≠ .tag := by
      cases d with
      | user f => exact (hd f rfl).elim
      | key k => exact hv
      | cargo => exact hv
    exact .put hs (fits_esc this (esc_own hs d))
  | _, _, _, _, .static, hs, _, hv => .put hs hv
  | _, _, _, _, .parts h, hs, _, hv => neat_valuesAll h hs hv
theorem neat_valuesAll : {vs : List Value} → {t : Tape} → {b : Bool} → {t' : Tape} → StreamsValues E vs t b t' →
    SafeMemory Q t.toCtx → ∀ {p : Spot}, NeatValues Q p vs → Adds Q t t' (Q.Fits p)
  | _, _, _, _, .nil, hs, p, _ => .same hs (fits_nil p)
  | _, _, _, _, .cons h hr, hs, _, hv =>
    have h1 := neat_value h hs hv.1
    h1.seq (neat_valuesAll hr h1.1 hv.2) fun _ _ => fits_append
theorem neat_delim : {d : Bytes} → {vs : List Value} → {t t' : Tape} → StreamsDelim E d vs t t' →
    SafeMemory Q t.toCtx → Q.Fits .text d → NeatValues Q .text vs → Adds Q t t' (Q.Fits .text)
  | _, _, _, _, .nil, hs, _, _ => .same hs (fits_nil _)
  | _, _, _, _, .last h, hs, _, hv => neat_value h hs hv.1
  | d, _, _, _, .cons (b := b) (t1 := t1) h hr, hs, hd, hv => by
    have h1 := neat_value h hs hv.1
    have hm : SafeMemory Q (if b then t1.put d else t1).toCtx := by
      cases b
      · exact h1.1
      · exact h1.1
    have h2 := neat_delim hr hm hd hv.2
    clear hr h hm
    cases b with
    | true => exact h1.seq ((Adds.put h1.1 hd).seq h2 fun _ _ => fits_append) fun _ _ => fits_append
    | false => exact h1.seq h2 fun _ _ => fits_append
theorem neat_attr : {a : Attr} → {t t' : Tape} → StreamsAttr E a t t' → SafeMemory Q t.toCtx → NeatAttr Q a →
    Adds Q t t' (Atts [a.name])
  | _, _, _, .plain h, hs, ha => (neat_valuesAll h hs ha.2).around fun _ => Atts.valued
  | _, _, _, .bool, hs, _ => .put hs .bool
  | _, t, _, .delim (r := r) h, hs, ha => (neat_delim h hs ha.2 (hs.delimited r)).around fun _ => Atts.valued
theorem neat_attrs : {as : List Attr} → {t t' : Tape} → StreamsAttrs E as t t' → SafeMemory Q t.toCtx →
    (∀ a ∈ as, NeatAttr Q a) → Adds Q t t' (Atts (as.map Attr.name))
  | _, _, _, .nil, hs, _ => .same hs ⟨[], rfl, rfl⟩
  | _, _, _, .cons h hr, hs, ha =>
    have h1 := neat_attr h hs (ha _ (.head _))
    h1.seq (neat_attrs hr h1.1 fun a h => ha a (.tail _ h)) fun _ _ => Atts.append
theorem neat_merged : {l : List (Attr × List Attr)} → {t t' : Tape} → StreamsMerged E l t t' → SafeMemory Q t.toCtx →
    (∀ x ∈ l, NeatAttr Q x.1 ∧ ∀ e ∈ x.2, NeatAttr Q e ∧ e.name = x.1.name) → Adds Q t t' (Atts (l.map (·.1.name)))
  | _, _, _, .nil, hs, _ => .same hs ⟨[], rfl, rfl⟩
  | _, _, _, .alone h hr, hs, ha =>
    have h1 := neat_attr h hs (ha _ (.head _)).1
    h1.seq (neat_merged hr h1.1 fun a h => ha a (.tail _ h)) fun _ _ => Atts.append
  | _, t, _, .joined (n := n) (d := d) (r := r) (e := e) (es := es) h hr, hs, ha => by
    obtain ⟨g1, g2⟩ := ha _ (.head _)
    have hv : NeatValues Q .text (t.dl r ++ (e :: es).flatMap (Attr.values t.dl)) := by
      rw [neatValues_iff]
      intro v hv
      rcases List.mem_append.1 hv with hv | hv
      · exact (neatValues_iff _).1 (hs.delimited r) v hv
      · obtain ⟨a, h1, h2⟩ := List.mem_flatMap.1 hv
        exact (neatValues_iff _).1 (neat_values hs (g2 a h1).1) v h2
    have h1 := neat_delim h hs g1.2 hv
    have h2 : Adds Q t _ (Atts [n]) := h1.around fun _ => Atts.valued
    exact h2.seq (neat_merged hr h2.1 fun a h => ha a (.tail _ h)) fun _ _ => Atts.append
  | _, t, _, .replaced (a := a) (e := e) (es := es) hd h hr, hs, ha => by
    obtain ⟨g1, g2⟩ := ha _ (.head _)
    have hl := g2 _ (List.getLast_mem (l := e :: es) (by simp))
    have h1 := neat_attr h hs hl.1
    rw [hl.2] at h1
    exact h1.seq (neat_merged hr h1.1 fun a h => ha a (.tail _ h)) fun _ _ => Atts.append
theorem neat_cond : {k : Cond} → {t : Tape} → {b : Bool} → {t' : Tape} → StreamsCond E k t b t' → SafeMemory Q t.toCtx →
    ∀ {p : Spot}, NeatCond Q p k → Adds Q t t' (Q.Fits p)
  | _, t, _, _, .fn (f := f) h, hs, p, hk => (neat_tells h hs (F.cond p f hk t hs)).2.mono fun _ => Left.fits
  | _, _, _, _, .own _, hs, p, _ => .same hs (fits_nil p)
theorem neat_conds : {ks : List Cond} → {t : Tape} → {b : Bool} → {t' : Tape} → StreamsConds E ks t b t' →
    SafeMemory Q t.toCtx → ∀ {p : Spot}, (∀ k ∈ ks, NeatCond Q p k) → Adds Q t t' (Q.Fits p)
  | _, _, _, _, .nil, hs, p, _ => .same hs (fits_nil p)
  | _, _, _, _, .no h, hs, _, hk => neat_cond h hs (hk _ (.head _))
  | _, _, _, _, .yes h hr, hs, _, hk =>
    have h1 := neat_cond h hs (hk _ (.head _))
    h1.seq (neat_conds hr h1.1 fun k h => hk k (.tail _ h)) fun _ _ => fits_append
theorem neat_active : {cas : List CondAttr} → {t : Tape} → {act : List Attr} → {t' : Tape} → StreamsActive E cas t act t' →
    SafeMemory Q t.toCtx → (∀ ca ∈ cas, NeatAttr Q ca.att ∧ ∀ k ∈ ca.conditions, NeatCond Q .tag k) →
    (∀ a ∈ act, NeatAttr Q a) ∧ Adds Q t t' (Q.Fits .tag)
  | _, _, _, _, .nil, hs, _ => ⟨fun _ h => (List.not_mem_nil h).elim, .same hs (fits_nil _)⟩
  | _, _, _, _, .cons (b := b) h hr, hs, hk => by
    have h1 := neat_conds h hs (hk _ (.head _)).2
    obtain ⟨g1, g2⟩ := neat_active hr h1.1 fun k h => hk k (.tail _ h)
    refine ⟨fun a ha => ?_, h1.seq g2 fun _ _ => fits_append⟩
    split at ha
    · rcases List.mem_cons.1 ha with rfl | ha
      · exact (hk _ (.head _)).1
      · exact g1 a ha
    · exact g1 a ha
theorem neat_tag : {h : ElemHead} → {t t' : Tape} → StreamsTag E h t t' → SafeMemory Q t.toCtx → NeatHead Q h →
    Adds Q t t' fun w => ∃ attrs, w = writeTag h.name attrs ∧ AttrsOK attrs ∧ ∀ a ∈ attrs, a.1 ∈ Q.attributes
  | h, t, _, .fixed hc ha, hs, hh => by
    obtain ⟨-, g1⟩ := neat_active hc hs hh.conds
    have g2 := neat_attrs ha g1.1 hh.statics
    refine Adds.around (F := Atts (h.attributes.map Attr.name)) (g1.seq g2 fun a b ea hb => ?_) fun w hw => ?_
    · have ea : a = [] := ea
      rw [ea]; exact hb
    · refine hw.tag N hh.distinct fun n hn => ?_
      obtain ⟨a, h1, rfl⟩ := List.mem_map.1 hn
      exact (hh.statics a h1).1
  | h, t, _, .some (l₁ := l₁) (l₂ := l₂) hc _ p1 p2 hm, hs, hh => by
    obtain ⟨g0, g1⟩ := neat_active hc hs hh.conds
    have hn := tag_neat hh.statics g0 p1 p2
    have g2 := neat_merged hm g1.1 hn
    refine Adds.around (g1.seq (H := Atts (List.map (fun x => x.1.name) (l₁ ++ l₂))) g2 fun a b ea hb => ?_) fun w hw => ?_
    · have ea : a = [] := ea
      rw [ea]; exact hb
    · refine hw.tag N (tag_names hh.distinct p1 p2) fun n h => ?_
      obtain ⟨a, h1, rfl⟩ := List.mem_map.1 h
      exact (hn a h1).1.1
theorem neat_started : {l : List (Bytes × Option (List Value))} → {t t' : Tape} → StreamsStarted E l t t' →
    SafeMemory Q t.toCtx → (∀ x ∈ l, ∀ vs, x.2 = some vs → NeatValues Q .text vs) → Adds Q t t' (Atts (l.map (·.1)))
  | _, _, _, .nil, hs, _ => .same hs ⟨[], rfl, rfl⟩
  | _, t, _, .bool (n := n) h, hs, hl =>
    (Adds.put (F := Atts [n]) hs .bool).seq (neat_started h hs fun x hx => hl x (.tail _ hx)) fun _ _ => Atts.append
  | _, t, _, .valued (n := n) h hr, hs, hl =>
    have h1 : Adds Q t _ (Atts [n]) := (neat_valuesAll h hs (hl _ (.head _) _ rfl)).around fun _ => Atts.valued
    h1.seq (neat_started hr h1.1 fun x hx => hl x (.tail _ hx)) fun _ _ => Atts.append
theorem neat_node : {n : Node} → {t t' : Tape} → Streams E n t t' → SafeMemory Q t.toCtx → n.isAttr = false →
    ∀ {p : Spot}, Neat Q p n → Adds Q t t' (Q.Fits p)
  | _, _, _, .element (h := h) ht ha, hs, _, _, hn => by
    have g := neat_tag ht hs
    cases hn with
    | element hh hx h1 h2 =>
      have g := g hh
      have g' := g.seq (H := fun w => ∃ attrs v, w = writeTag h.name attrs ++ v ∧ AttrsOK attrs ∧
        (∀ a ∈ attrs, a.1 ∈ Q.attributes) ∧ Q.Fits .content v) (neat_nodes ha g.1 h1 h2) (by
          rintro _ b ⟨attrs, rfl, e2, e3⟩ hb
          exact ⟨attrs, b, rfl, e2, e3, hb⟩)
      refine g'.seq (G := fun w => w = endBytes h.name) (H := Q.Fits .content) (.put g'.1 rfl) ?_
      · rintro _ _ ⟨attrs, v, rfl, e2, e3, hv⟩ rfl
        exact fits_element N hh.name hx e2 e3 hv
    | textElement hh hx h1 h2 =>
      have g := g hh
      have g' := g.seq (H := fun w => ∃ attrs v, w = writeTag h.name attrs ++ v ∧ AttrsOK attrs ∧
        (∀ a ∈ attrs, a.1 ∈ Q.attributes) ∧ Q.Fits .text v) (neat_nodes ha g.1 h1 h2) (by
          rintro _ b ⟨attrs, rfl, e2, e3⟩ hb
          exact ⟨attrs, b, rfl, e2, e3, hb⟩)
      refine g'.seq (G := fun w => w = endBytes h.name) (H := Q.Fits .content) (.put g'.1 rfl) ?_
      · rintro _ _ ⟨attrs, v, rfl, e2, e3, hv⟩ rfl
        exact fits_textElement N hh.name hx e2 e3 hv
  | _, _, _, .voidElement ht, hs, _, _, hn => by
    cases hn with
    | voidElement hh hx =>
      refine (neat_tag ht hs hh).mono ?_
      rintro _ ⟨attrs, rfl, e2, e3⟩
      exact fits_void N hh.name hx e2 e3
  | _, _, _, .attr _, _, h, _, _ => by simp [Node.isAttr, Node.type] at h
  | _, _, _, .text h, hs, _, _, hn => by cases hn with | text hv => exact neat_valuesAll h hs hv
  | _, _, _, .fragment h, hs, _, _, hn => by cases hn with | fragment hv => exact neat_valuesAll h hs hv
  | _, _, _, .comment h, hs, _, _, hn => by
    cases hn with
    | comment hv =>
      refine (neat_valuesAll h hs hv).around ?_
      rintro _ ⟨s, rfl⟩
      exact fits_tree (t := .comment s) trivial trivial
  | _, _, _, .pi h, hs, _, _, hn => by
    have ih := fun p => neat_valuesAll h hs (p := p)
    clear h
    cases hn with
    | docType hv =>
      refine (ih _ hv).around ?_
      rintro _ ⟨s, rfl⟩
      exact fits_tree (t := .doctype s) trivial trivial
  | _, _, _, .collection h, hs, _, _, hn => by
    cases hn with
    | collection hv =>
      exact neat_nodes h hs (fun n hn => by simpa using (List.mem_filter.1 hn).2) fun n hn => hv n (List.mem_filter.1 hn).1
  | _, _, _, .conditionalOn h hr, hs, _, _, hn => by
    cases hn with
    | conditional h1 h2 h3 =>
      have g := neat_cond h hs h1
      exact g.seq (neat_nodes hr g.1 h2 h3) fun _ _ => fits_append
  | _, _, _, .conditionalOff h, hs, _, _, hn => by
    cases hn with
    | conditional h1 _ _ => exact neat_cond h hs h1
  | _, t, _, .collector (f := f) h hr, hs, _, p, hn => by
    cases hn with
    | collector h1 =>
      obtain ⟨g1, g2⟩ := neat_tells h hs (F.collect p f h1 t hs)
      exact g2.seq (neat_nodes hr g2.1 (fun n hn => by simpa using (List.mem_filter.1 hn).2)
        fun n hn => g1 n (by simpa using (List.mem_filter.1 hn).1)) fun _ _ ha => fits_append ha.fits
  | _, _, _, .imperativeNil, hs, _, p, _ => .same hs (fits_nil p)
  | _, t, _, .imperative (f := f) h, hs, _, _, hn => by
    cases hn with
    | imperative h1 => exact (neat_doing h hs (F.imp f h1 t hs)).mono fun _ => Left.fits
  | _, _, _, .iterator h hr, hs, _, _, hn => by
    cases hn with
    | iterator h1 h2 h3 =>
      obtain ⟨g1, g2⟩ := neat_items h hs h1
      exact g2.seq (neat_each hr g2.1 g1 h2 h3) fun _ _ => fits_append
  | _, t, _, .yieldIterator (f := f) h, hs, _, p, hn => by
    cases hn with
    | yieldIterator h1 h2 h3 => exact (neat_yields h hs (F.yields p f h1 t hs) h2 h3).mono fun _ => Left.fits
  | _, _, _, .document h, hs, _, _, hn => by
    cases hn with
    | document h1 h2 => exact neat_nodes h hs h1 h2
theorem neat_nodes : {ns : List Node} → {t t' : Tape} → StreamsAll E ns t t' → SafeMemory Q t.toCtx →
    (∀ n ∈ ns, n.isAttr = false) → ∀ {p : Spot}, (∀ n ∈ ns, Neat Q p n) → Adds Q t t' (Q.Fits p)
  | _, _, _, .nil, hs, _, p, _ => .same hs (fits_nil p)
  | _, _, _, .cons h hr, hs, h1, _, h2 =>
    have g := neat_node h hs (h1 _ (.head _)) (h2 _ (.head _))
    g.seq (neat_nodes hr g.1 (fun n hn => h1 n (.tail _ hn)) fun n hn => h2 n (.tail _ hn)) fun _ _ => fits_append
theorem neat_items : {fn : ItemSrc} → {t : Tape} → {its : List Any} → {t' : Tape} → StreamsItems E fn t its t' →
    SafeMemory Q t.toCtx → ∀ {p : Spot}, NeatItems Q p fn → (∀ v ∈ its, SafeData v) ∧ Adds Q t t' (Q.Fits p)
  | _, t, _, _, .fn (f := f) h, hs, p, hf =>
    have g := neat_tells h hs (F.items p f hf t hs)
    ⟨g.1, g.2.mono fun _ => Left.fits⟩
  | _, _, _, _, .key (k := k), hs, p, _ => ⟨safe_keyItems hs k, .same hs (fits_nil p)⟩
theorem neat_each : {ns : List Node} → {d : Option MapId} → {its : List Any} → {t : Tape} → {fr : Frame} → {t' : Tape} →
    {fr' : Frame} → StreamsEach E ns d its t fr t' fr' → SafeMemory Q t.toCtx → (∀ v ∈ its, SafeData v) →
    (∀ n ∈ ns, n.isAttr = false) → ∀ {p : Spot}, (∀ n ∈ ns, Neat Q p n) → Adds Q t t' (Q.Fits p)
  | _, _, _, _, _, _, _, .nil, hs, _, _, p, _ => .same hs (fits_nil p)
  | _, _, _, t, _, _, _, .cons (t1 := t1) h hr, hs, hi, h1, _, h2 => by
    obtain ⟨g1, w, g2, g3⟩ := neat_nodes h ⟨hi _ (.head _), hs.maps, hs.delimited⟩ h1 h2
    have g : SafeMemory Q (t.back t1).toCtx := ⟨hs.cargo, g1.maps, g1.delimited⟩
    have g' : Adds Q t (t.back t1) (Q.Fits _) := ⟨g, w, g2, g3⟩
    exact g'.seq (neat_each hr g (fun v hv => hi v (.tail _ hv)) h1 h2) fun _ _ => fits_append
theorem neat_yields : {ns : List Node} → {y : Spec.Stream.Yielding} → {t : Tape} → {fr : Frame} → {t' : Tape} →
    StreamsYields E ns y t fr t' → SafeMemory Q t.toCtx → ∀ {p : Spot} {st : List Bytes}, NeatYielding Q p st y →
    (∀ n ∈ ns, n.isAttr = false) → (∀ n ∈ ns, Neat Q p n) → Adds Q t t' (Left Q p st)
  | _, _, _, _, _, .done, hs, _, _, hy, _, _ => by
    cases hy with
    | done => exact .same hs .nil
  | _, _, t, _, _, .yield (t1 := t1) h hr, hs, _, _, hy, h1, h2 => by
    cases hy with
    | yield hi hk =>
      obtain ⟨g1, w, g2, g3⟩ := neat_nodes h ⟨hi, hs.maps, hs.delimited⟩ h1 h2
      have g : SafeMemory Q (t.back t1).toCtx := ⟨hs.cargo, g1.maps, g1.delimited⟩
      have g' : Adds Q t (t.back t1) (Q.Fits _) := ⟨g, w, g2, g3⟩
      exact g'.seq (neat_yields hr g (hk _ g) h1 h2) fun _ _ => Left.pre
  | _, _, t, _, _, .act (upd := upd) h, hs, _, _, hy, h1, h2 => by
    cases hy with
    | act hu hk =>
      have hs' := hu t hs
      have hs' : SafeMemory Q (t.act upd).toCtx := ⟨hs'.1, hs'.2, hs'.3⟩
      exact neat_yields h hs' (hk _ hs') h1 h2
  | _, _, t, _, _, .write (d := d) h, hs, p, _, hy, h1, h2 => by
    have ih := fun st hx => neat_yields h (p := p) (st := st) (show SafeMemory Q (t.put d).toCtx from hs) hx h1 h2
    clear h
    cases hy with
    | write hd hk =>
      exact (Adds.put (F := Q.Fits _) hs hd).seq (ih _ (hk _ hs)) fun _ _ => Left.pre
    | @start _ name attrs _ hp g1 g2 g3 g4 hk =>
      subst hp
      exact (Adds.put (F := fun w => w = writeTag name attrs) hs rfl).seq (ih _ (hk _ hs))
        fun _ _ e hb => by rw [e]; exact Left.start N g1 g2 g3 g4 hb
    | @close _ name _ hk =>
      exact (Adds.put (F := fun w => w = endBytes name) hs rfl).seq (ih _ (hk _ hs))
        fun _ _ e hb => by rw [e]; exact Left.close hb
  | _, _, _, _, _, .render hn h, hs, _, _, hy, h1, h2 => by
    cases hy with
    | render hd ha hk =>
      have g := neat_node hn hs ha hd
      exact g.seq (neat_yields h g.1 (hk _ g.1) h1 h2) fun _ _ => Left.pre
theorem neat_doing : {x : Spec.Stream.Doing} → {stack : List Bytes} → {t t' : Tape} → StreamsDoing E x stack t t' →
    SafeMemory Q t.toCtx → NeatDoing Q stack x → Adds Q t t' (Left Q .content stack)
  | _, _, _, _, .done, hs, hx => by
    cases hx with
    | done => exact .same hs .nil
  | _, _, t, _, .act (upd := upd) h, hs, hx => by
    cases hx with
    | act hu hk =>
      have hs' := hu t hs
      have hs' : SafeMemory Q (t.act upd).toCtx := ⟨hs'.1, hs'.2, hs'.3⟩
      have g := neat_doing h hs' (hk _ hs')
      exact ⟨g.1, g.2⟩
  | _, _, _, _, .write h, hs, hx => by
    cases hx with
    | write hd hk => exact (Adds.put (F := Q.Fits _) hs hd).seq (neat_doing h hs (hk _ hs)) fun _ _ => Left.pre
  | _, _, _, _, .render hn h, hs, hx => by
    cases hx with
    | render hd ha hk =>
      have g := neat_node hn hs ha hd
      exact g.seq (neat_doing h g.1 (hk _ g.1)) fun _ _ => Left.pre
  | _, _, _, _, .writeString (d := d) h, hs, hx => by
    cases hx with
    | writeString hk =>
      exact (Adds.put (F := Q.Fits .content) hs (fits_esc (by simp) ⟨d, escaped_eq d⟩)).seq (neat_doing h hs (hk _ hs))
        fun _ _ => Left.pre
  | _, _, _, _, .writeRaw h, hs, hx => by
    cases hx with
    | writeRaw hd hk => exact (Adds.put (F := Q.Fits _) hs hd).seq (neat_doing h hs (hk _ hs)) fun _ _ => Left.pre
  | _, _, _, _, .writeNodes hn h, hs, hx => by
    cases hx with
    | writeNodes hd hk =>
      have g := neat_nodes hn hs (fun n hn => by simpa using (List.mem_filter.1 hn).2)
        fun n hn => hd n (by simpa using (List.mem_filter.1 hn).1)
      exact g.seq (neat_doing h g.1 (hk _ g.1)) fun _ _ => Left.pre
  | _, stack, t, _, .start (n := name) (isVoid := isVoid) (t1 := t1) ha h, hs, hx => by
    cases hx with
    | start h1 h2 h3 hk =>
      have hc := neat_startCollect hs h3
      have g := neat_started ha hs fun x hx => (hc.1 x hx).2
      have g' : Adds Q t (t1.put b%">") fun w => ∃ attrs, w = writeTag name attrs ∧ AttrsOK attrs ∧
          ∀ a ∈ attrs, a.1 ∈ Q.attributes := g.around fun w hw => hw.tag N hc.2 fun n hn => by
        obtain ⟨x, hx, rfl⟩ := List.mem_map.1 hn
        exact (hc.1 x hx).1
      refine g'.seq (neat_doing h g'.1 (hk _ g'.1)) ?_
      rintro _ b ⟨attrs, rfl, e2, e3⟩ hb
      cases isVoid with
      | true => exact Left.pre (fits_void N h1 h2 e2 e3) hb
      | false => exact Left.start N h1 h2 e2 e3 hb
  | _, _, _, _, .endNone h, hs, hx => by
    cases hx with
    | «end» hk => exact neat_doing h hs (hk _ hs)
  | _, _, _, _, .endSome (n := n) h, hs, hx => by
    cases hx with
    | «end» hk =>
      exact (Adds.put (F := fun w => w = endBytes n) hs rfl).seq (neat_doing h hs (hk _ hs))
        fun _ _ e hb => by rw [e]; exact Left.close hb
  | _, stack, _, _, .endAll h, hs, hx => by
    cases hx with
    | endAll hk =>
      exact (Adds.put (F := fun w => w = stack.flatMap endBytes) hs rfl).seq (neat_doing h hs (hk _ hs))
        fun _ _ e hb => by rw [e]; exact Left.closeAll hb _
end

end

end Aitch.Stream
