import Verif.Proofs.RefineTag
/-
The refinement theorem: `render` writes what `Out` specifies.
-/
namespace Aitch
open Spec

section
variable {env : Env} {P : Fns} {c : Ctx}

/-- What is to be shown of the recursive calls. -/
def RecOK (env : Env) (P : Fns) (rec : Render) : Prop :=
  ∀ n c, WF n → c.frame.err = none →
    Tr env c (rec n) (fun e c' w => e = none ∧ c' = c ∧ Out P c n w)

theorem Tr.contentLoop {rec : Render} (R : RecOK env P rec) (he : c.frame.err = none)
    (ns : List Node) (hw : WFAll ns) :
    Tr env c (contentLoop rec ns) (fun _ c' w => c' = c ∧ OutAll P c ns w) := by
  induction ns with
  | nil => exact Tr.pure ⟨rfl, .nil⟩
  | cons n ns ih =>
    refine Tr.bind (R n c hw.1 he) ?_
    rintro e c1 w ⟨rfl, rfl, ho⟩
    refine E.bindTr (E.setErr he) ?_
    refine Tr.conseq (ih hw.2) ?_
    rintro _ c2 w2 ⟨rfl, hos⟩
    exact ⟨rfl, .cons ho hos⟩

theorem Tr.conditionalLoop {rec : Render} (R : RecOK env P rec) (he : c.frame.err = none)
    (ns : List Node) (hw : WFAll ns) :
    Tr env c (conditionalLoop rec ns) (fun _ c' w => c' = c ∧ OutAll P c ns w) := by
  induction ns with
  | nil => exact Tr.pure ⟨rfl, .nil⟩
  | cons n ns ih =>
    refine Tr.bind (R n c hw.1 he) ?_
    rintro e c1 w ⟨rfl, rfl, ho⟩
    refine E.bindTr (E.setErr he) ?_
    refine Tr.conseq (ih hw.2) ?_
    rintro _ c2 w2 ⟨rfl, hos⟩
    exact ⟨rfl, .cons ho hos⟩

theorem Tr.collectionLoop {rec : Render} (R : RecOK env P rec) (he : c.frame.err = none)
    (ns : List Node) (hw : WFAll ns) :
    Tr env c (collectionLoop rec ns) (fun _ c' w => c' = c ∧ OutAll P c (ns.filter fun n => !n.isAttr) w) := by
  induction ns with
  | nil => exact Tr.pure ⟨rfl, .nil⟩
  | cons n ns ih =>
    unfold Aitch.collectionLoop
    by_cases ha : n.isAttr = true
    · rw [if_pos ha, List.filter_cons_of_neg (by simp [ha])]
      exact ih hw.2
    · rw [if_neg ha, List.filter_cons_of_pos (by simp [ha])]
      refine Tr.bind (R n c hw.1 he) ?_
      rintro e c1 w ⟨rfl, rfl, ho⟩
      refine E.bindTr (E.setErr he) ?_
      refine Tr.conseq (ih hw.2) ?_
      rintro _ c2 w2 ⟨rfl, hos⟩
      exact ⟨rfl, .cons ho hos⟩

theorem Tr.ignoreLoop {rec : Render} (R : RecOK env P rec) (he : c.frame.err = none)
    (ns : List (Option Node)) (hw : ∀ n, some n ∈ ns → WF n) :
    Tr env c (ignoreLoop rec ns) (fun _ c' w => c' = c ∧ OutAll P c (contentNodes ns) w) := by
  induction ns with
  | nil => exact Tr.pure ⟨rfl, .nil⟩
  | cons o ns ih =>
    have ih := ih fun n h => hw n (by simp [h])
    cases o with
    | none => exact ih
    | some n =>
      unfold Aitch.ignoreLoop
      by_cases ha : n.isAttr = true
      · rw [if_pos ha]
        have : contentNodes (some n :: ns) = contentNodes ns := by simp [contentNodes, ha]
        rw [this]
        exact ih
      · rw [if_neg ha]
        have : contentNodes (some n :: ns) = n :: contentNodes ns := by simp [contentNodes, ha]
        rw [this]
        refine Tr.bind (R n c (hw n (by simp)) he) ?_
        rintro e c1 w ⟨rfl, rfl, ho⟩
        refine Tr.conseq ih ?_
        rintro _ c2 w2 ⟨rfl, hos⟩
        exact ⟨rfl, .cons ho hos⟩

theorem Tr.documentLoop {rec : Render} (R : RecOK env P rec) (he : c.frame.err = none)
    (ns : List Node) (hw : WFAll ns) :
    Tr env c (documentLoop rec ns) (fun _ c' w => c' = c ∧ OutAll P c ns w) := by
  induction ns with
  | nil => exact Tr.pure ⟨rfl, .nil⟩
  | cons n ns ih =>
    refine Tr.bind (R n c hw.1 he) ?_
    rintro e c1 w ⟨rfl, rfl, ho⟩
    refine Tr.conseq (ih hw.2) ?_
    rintro _ c2 w2 ⟨rfl, hos⟩
    exact ⟨rfl, .cons ho hos⟩

theorem Tr.iterNodes {rec : Render} (R : RecOK env P rec) (he : c.frame.err = none)
    (ns : List Node) (hw : WFAll ns) :
    Tr env c (iterNodes rec ns) (fun e c' w => e = none ∧ c' = c ∧ OutAll P c ns w) := by
  induction ns with
  | nil => exact Tr.pure ⟨rfl, rfl, .nil⟩
  | cons n ns ih =>
    refine Tr.bind (R n c hw.1 he) ?_
    rintro e c1 w ⟨rfl, rfl, ho⟩
    refine Tr.conseq (ih hw.2) ?_
    rintro e c2 w2 ⟨rfl, rfl, hos⟩
    exact ⟨rfl, rfl, .cons ho hos⟩

/-- The context below `c` with current frame `fr`. -/
def below (c : Ctx) (fr : Frame) : Ctx := { c with frame := fr, parents := c.frame :: c.parents }

theorem Tr.iterItems {rec : Render} (R : RecOK env P rec) (ns : List Node) (hw : WFAll ns) :
    (items : List Any) → (fr : Frame) → fr.err = none →
    Tr env (below c fr) (iterItems rec ns c.frame.data items)
      (fun e c' w => e = none ∧ (∃ fr', c' = below c fr') ∧ OutItems P c ns items w)
  | [], fr, _ => Tr.pure ⟨rfl, ⟨fr, rfl⟩, .nil⟩
  | it :: its, fr, he => by
    unfold Aitch.iterItems
    refine Tr.bind (Tr.setItem _ _) ?_
    rintro _ c1 w1 ⟨hc1, rfl⟩
    have hc : c1 = childCtx c it (itemData c.frame.data it) := by
      rw [hc1]
      unfold below childCtx
      cases it <;> simp [itemData, he]
    subst hc
    refine Tr.bind (Tr.iterNodes R rfl ns hw) ?_
    rintro e c2 w2 ⟨rfl, rfl, ho⟩
    refine Tr.conseq (Tr.iterItems R ns hw its _ rfl) ?_
    rintro e c3 w3 ⟨rfl, hb, hos⟩
    exact ⟨rfl, hb, by simpa using OutItems.cons ho hos⟩

theorem E.runItems (G : Good env P) (fn : ItemSrc) : E env c (runItems fn) (srcItems P c fn) [] := by
  cases fn with
  | user f => exact E.items G f
  | key k => exact E.bind (w1 := []) (w2 := []) E.ctx E.pure

theorem Tr.renderIterator (G : Good env P) {rec : Render} (R : RecOK env P rec) (he : c.frame.err = none)
    (ns : List Node) (hw : WFAll ns) (fn : ItemSrc) :
    Tr env c (renderIterator rec ns fn)
      (fun e c' w => e = none ∧ c' = c ∧ OutItems P c ns (srcItems P c fn) w) := by
  unfold Aitch.renderIterator
  refine E.bindTr E.ctx ?_
  simp only [he]
  refine E.bindTr (E.runItems G fn) ?_
  cases hi : srcItems P c fn with
  | nil => exact Tr.pure ⟨rfl, rfl, .nil⟩
  | cons it its =>
    refine E.bindTr E.ctx ?_
    refine Tr.bind (Tr.enter _) ?_
    rintro _ c1 w1 ⟨rfl, rfl⟩
    refine Tr.bind (Tr.iterItems R ns hw (it :: its) _ ?_) ?_
    · exact he
    rintro e c2 w2 ⟨rfl, ⟨fr', rfl⟩, ho⟩
    refine Tr.bind (Tr.leave rfl) ?_
    rintro fr c3 w3 ⟨rfl, rfl, rfl⟩
    exact Tr.pure ⟨rfl, rfl, by simpa using ho⟩

theorem Tr.runYield {rec : Render} (R : RecOK env P rec) (he : c.frame.err = none) (ns : List Node) (hw : WFAll ns) :
    (items : List Any) → (child : Frame) → child.err = none →
    Tr env c (runYield rec ns (yieldsOf items) child)
      (fun _ c' w => c' = c ∧ OutYields P c ns child.data items w)
  | [], child, _ => Tr.pure ⟨rfl, .nil⟩
  | it :: its, child, hc => by
    unfold yieldsOf
    unfold Aitch.runYield
    refine Tr.bind (Tr.enter _) ?_
    rintro _ c1 w1 ⟨rfl, rfl⟩
    refine Tr.bind (Tr.setItem _ _) ?_
    rintro _ c2 w2 ⟨hc2, rfl⟩
    have h2 : c2 = childCtx c it (itemData child.data it) := by
      rw [hc2]
      unfold childCtx
      cases it <;> simp [itemData, hc]
    subst h2
    refine Tr.bind (Tr.iterNodes R rfl ns hw) ?_
    rintro e c3 w3 ⟨rfl, rfl, ho⟩
    refine Tr.bind (Tr.leave rfl) ?_
    rintro fr c4 w4 ⟨rfl, rfl, rfl⟩
    refine E.bindTr E.pure ?_
    refine Tr.bind Tr.look ?_
    rintro s c5 w5 ⟨_, rfl, rfl⟩
    refine Tr.conseq (Tr.runYield R he ns hw its _ rfl) ?_
    rintro _ c6 w6 ⟨rfl, hos⟩
    exact ⟨rfl, by simpa using OutYields.cons ho hos⟩

theorem Tr.renderYield (G : Good env P) {rec : Render} (R : RecOK env P rec) (he : c.frame.err = none)
    (ns : List Node) (hw : WFAll ns) (f : FnId) :
    Tr env c (renderYield rec ns f)
      (fun e c' w => e = none ∧ c' = c ∧ OutYields P c ns none (P.yields f c) w) := by
  unfold Aitch.renderYield
  refine E.bindTr E.ctx ?_
  simp only [he]
  refine E.bindTr (E.yields G f) ?_
  refine Tr.bind (Tr.runYield R he ns hw (P.yields f c) _ rfl) ?_
  rintro _ c1 w1 ⟨rfl, ho⟩
  refine Tr.conseq E.retErr ?_
  rintro e c2 w2 ⟨rfl, rfl, rfl⟩
  exact ⟨he, rfl, by simpa using ho⟩

/-! Imperative -/

theorem E.startWriteValue (G : Good env P) (he : c.frame.err = none) (vs : Option (List Value)) :
    E env c (startWriteValue vs) ()
      (match vs with
       | none => []
       | some vs => b%"=\"" ++ valuesBytes P c vs ++ b%"\"") := by
  have W := fun d => E.ctxWrite (c := c) G.healthy he d
  cases vs with
  | none => exact E.pure
  | some vs => exact E.of_eq (E.bind (W _) (E.bind (E.renderValues G he vs) (W _))) (by simp)

theorem E.startWrite (G : Good env P) (he : c.frame.err = none) (l : List (Bytes × Option (List Value))) :
    E env c (startWrite l) () ((l.map fun (n, vs) => (n, vs.map (valuesBytes P c))).flatMap Shown.bytes) := by
  have W := fun d => E.ctxWrite (c := c) G.healthy he d
  induction l with
  | nil => exact E.pure
  | cons p l ih =>
    obtain ⟨n, vs⟩ := p
    unfold Aitch.startWrite
    refine E.of_eq (E.bind (W _) (E.bind (W _) (E.bind (E.startWriteValue G he vs) ih))) ?_
    cases vs <;> simp [Shown.bytes]

theorem E.startTag (G : Good env P) (he : c.frame.err = none) (n : Bytes) (attrs : List (Option Node)) :
    E env c (startTag n attrs) ()
      (tagBytes n ((startCollect c.dl attrs []).map fun (n, vs) => (n, vs.map (valuesBytes P c)))) := by
  have W := fun d => E.ctxWrite (c := c) G.healthy he d
  unfold Aitch.startTag
  refine E.of_eq (E.bind (W _) (E.bind (W _) (E.bind E.ctx (E.bind (E.startWrite G he _) (W _))))) ?_
  simp [tagBytes]

theorem E.endAll (G : Good env P) (he : c.frame.err = none) (stack : List Bytes) :
    E env c (endAll stack) () (stack.flatMap endBytes) := by
  induction stack with
  | nil => exact E.pure
  | cons n ns ih => exact E.bind (E.renderEndTag G he n) ih

/-- What an Imperative function does after a step that wrote `w`. -/
theorem Tr.runRest {rec : Render} {k : St → ImpProg} {op : ImpOp} {ops : List ImpOp} {stack stack' : List Bytes} {w : Bytes}
    (hk : ∀ s, Tr env c (runImp rec (k s) stack') (fun e c' w => e = none ∧ c' = c ∧ OutOps P c ops stack' w))
    (hout : ∀ w', OutOps P c ops stack' w' → OutOps P c (op :: ops) stack (w ++ w')) :
    Tr env c (do let s ← Do.look; Aitch.runImp rec (k s) stack')
      (fun e c' w' => e = none ∧ c' = c ∧ OutOps P c (op :: ops) stack (w ++ w')) := by
  refine Tr.bind Tr.look ?_
  rintro s c1 w1 ⟨_, hc, rfl⟩
  obtain rfl : c = c1 := hc.symm
  refine Tr.conseq (hk s) ?_
  rintro e c2 w2 ⟨rfl, hc, ho⟩
  exact ⟨rfl, hc, by simpa using hout _ ho⟩

theorem Tr.runImp (G : Good env P) {rec : Render} (R : RecOK env P rec) (he : c.frame.err = none) {p : ImpProg}
    {ops : List ImpOp} (hf : MakesCalls p ops) (stack : List Bytes)
    (hw : ∀ ns n, .writeNodes ns ∈ ops → some n ∈ ns → WF n) :
    Tr env c (runImp rec p stack) (fun e c' w => e = none ∧ c' = c ∧ OutOps P c ops stack w) := by
  have W := fun d => E.ctxWrite (c := c) G.healthy he d
  induction hf generalizing stack with
  | done => exact Tr.pure ⟨rfl, rfl, .nil⟩
  | @render n k ops hn hk ih =>
    have ih' := fun s => ih s stack fun ns n h => hw ns n (by simp [h])
    unfold Aitch.runImp
    refine Tr.bind (R n c (hw _ n (List.mem_cons_self ..) (by simp)) he) ?_
    rintro e c1 w1 ⟨rfl, rfl, ho⟩
    refine Tr.runRest ih' fun w' h => OutOps.writeNodes ?_ h
    have : contentNodes [some n] = [n] := by simp [contentNodes, hn]
    rw [this]
    simpa using OutAll.cons ho .nil
  | @write d k ops hk ih =>
    unfold Aitch.runImp
    exact E.bindTr (Tr.write G.healthy d) (Tr.runRest (k := k (d.length, none))
      (fun s => ih _ s stack fun ns n h => hw ns n (by simp [h])) fun w' h => OutOps.writeRaw h)
  | @call op k ops hk ih =>
    have rest : ∀ (stack' : List Bytes) (w : Bytes),
        (∀ w', OutOps P c ops stack' w' → OutOps P c (op :: ops) stack (w ++ w')) →
        Tr env c (do let s ← Do.look; Aitch.runImp rec (k s) stack')
          (fun e c' w' => e = none ∧ c' = c ∧ OutOps P c (op :: ops) stack (w ++ w')) := fun stack' w hout =>
      Tr.runRest (fun s => ih s stack' fun ns n h => hw ns n (by simp [h])) hout
    unfold Aitch.runImp
    cases op with
    | writeString d =>
      exact E.bindTr (E.bind (W _) E.pure) (rest _ _ fun w h => by simpa using OutOps.writeString h)
    | writeRaw d =>
      exact E.bindTr (E.bind (W _) E.pure) (rest _ _ fun w h => by simpa using OutOps.writeRaw h)
    | writeNodes ns =>
      refine Tr.bind (Q1 := fun st c' w => st = stack ∧ c' = c ∧ OutAll P c (contentNodes ns) w) ?_ ?_
      · refine Tr.bind (Tr.ignoreLoop R he ns fun n h => hw ns n (by simp) h) ?_
        rintro _ c1 w1 ⟨rfl, ho⟩
        exact Tr.pure ⟨rfl, rfl, by simpa using ho⟩
      · rintro st c1 w1 ⟨rfl, rfl, ho⟩
        exact rest _ _ fun w h => OutOps.writeNodes ho h
    | start n isVoid attrs =>
      cases isVoid
      · exact E.bindTr (E.bind (E.startTag G he n attrs) E.pure) (rest _ _ fun w h => by
          simpa using OutOps.start h)
      · exact E.bindTr (E.bind (E.startTag G he n attrs) E.pure) (rest _ _ fun w h => by
          simpa using OutOps.startVoid h)
    | «end» =>
      cases stack with
      | nil => exact E.bindTr E.pure (rest _ _ fun w h => OutOps.endNone h)
      | cons n st =>
        exact E.bindTr (E.bind (E.renderEndTag G he n) E.pure) (rest _ _ fun w h => by simpa using OutOps.endSome h)
    | endAll =>
      exact E.bindTr (E.bind (E.endAll G he stack) E.pure) (rest _ _ fun w h => by simpa using OutOps.endAll h)

theorem recOK_step (G : Good env P) (F : WFFns P) {rec : Render} (R : RecOK env P rec) :
    RecOK env P (renderStep rec) := by
  intro n c hw he
  have W := fun d => E.ctxWrite (c := c) G.healthy he d
  have ret : ∀ {w : Bytes} {n : Node}, Out P c n w →
      Tr env c retErr (fun e c' w' => e = none ∧ c' = c ∧ Out P c n (w ++ w')) := by
    intro w n ho
    refine Tr.conseq E.retErr ?_
    rintro e c2 w2 ⟨rfl, rfl, rfl⟩
    exact ⟨he, rfl, by simpa using ho⟩
  have ret' : ∀ {m : Prog Unit} {w : Bytes} {n : Node}, E env c m () w → Out P c n w →
      Tr env c (do m; retErr) (fun e c' w' => e = none ∧ c' = c ∧ Out P c n w') := by
    intro m w n hm ho
    exact E.bindTr hm (ret ho)
  cases n with
  | element h contents =>
    refine Tr.bind (Tr.renderStartTag G he hw.1) ?_
    rintro _ c1 w1 ⟨rfl, l, hl, rfl⟩
    refine Tr.bind (Tr.contentLoop R he contents hw.2) ?_
    rintro _ c2 w2 ⟨rfl, ho⟩
    refine E.bindTr (E.renderEndTag G he h.name) ?_
    simpa using ret (Out.element hl ho)
  | voidElement h =>
    refine Tr.bind (Tr.renderStartTag G he hw) ?_
    rintro _ c1 w1 ⟨rfl, l, hl, rfl⟩
    exact ret (.voidElement hl)
  | attr a => exact ret' (E.renderAttr G he a) .attr
  | text vs => exact ret' (E.renderValues G he vs) .text
  | comment vs =>
    refine E.bindTr (W _) (E.bindTr (E.renderValues G he vs) (E.bindTr (W _) ?_))
    simpa using ret (Out.comment (P := P) (c := c) (vs := vs))
  | fragment vs => exact ret' (E.renderValues G he vs) .fragment
  | pi name vs =>
    refine E.bindTr (W _) (E.bindTr (W _) (E.bindTr (W _) (E.bindTr (E.renderValues G he vs) (E.bindTr (W _) ?_))))
    simpa using ret (Out.pi (P := P) (c := c) (name := name) (vs := vs))
  | collection ns =>
    refine Tr.bind (Tr.collectionLoop R he ns hw) ?_
    rintro _ c1 w1 ⟨rfl, ho⟩
    exact ret (.collection ho)
  | conditional ns as fn =>
    refine E.bindTr (E.runCond G fn) ?_
    cases hc : holds P c fn
    · exact ret' E.pure (.conditionalOff hc)
    · refine Tr.bind (Tr.conditionalLoop R he ns hw) ?_
      rintro _ c1 w1 ⟨rfl, ho⟩
      exact ret (.conditionalOn hc ho)
  | collector f =>
    refine E.bindTr (E.collect G f) ?_
    refine Tr.bind (Tr.ignoreLoop R he _ fun n h => F.collect f c n h) ?_
    rintro _ c1 w1 ⟨rfl, ho⟩
    exact ret (.collector ho)
  | imperative f =>
    cases f with
    | none => exact Tr.pure ⟨rfl, rfl, .imperativeNil⟩
    | some f =>
      refine Tr.bind (Tr.imp G f) ?_
      rintro p c0 w0 ⟨hf, rfl, rfl⟩
      refine Tr.conseq (Tr.runImp G R he hf [] fun ns n h1 h2 => F.imp f _ ns n h1 h2) ?_
      rintro e c1 w1 ⟨rfl, rfl, ho⟩
      exact ⟨rfl, rfl, .imperative ho⟩
  | iterator ns fn =>
    refine Tr.conseq (Tr.renderIterator G R he ns hw fn) ?_
    rintro e c1 w1 ⟨rfl, rfl, ho⟩
    exact ⟨rfl, rfl, .iterator ho⟩
  | yieldIterator ns f =>
    refine Tr.conseq (Tr.renderYield G R he ns hw f) ?_
    rintro e c1 w1 ⟨rfl, rfl, ho⟩
    exact ⟨rfl, rfl, .yieldIterator ho⟩
  | document prologue contents =>
    have hw' : WFAll (prologue.toList ++ contents) := by
      cases prologue with
      | none => exact hw
      | some p => exact hw
    refine Tr.bind (Tr.documentLoop R he _ hw') ?_
    rintro _ c1 w1 ⟨rfl, ho⟩
    exact ret (.document ho)

theorem recOK_render (G : Good env P) (F : WFFns P) (fuel : Nat) : RecOK env P (renderProg fuel) := by
  induction fuel with
  | zero => intro n c _ _; exact Tr.stuck
  | succ fuel ih => exact recOK_step G F ih

/-- Refinement: a render that ends returns nil, leaves contexts and memory as they were, and has written bytes
that the specification allows. -/
theorem render_refines (G : Good env P) (F : WFFns P) {n : Node} (hw : WF n) {fuel : Nat} {s s' : St}
    {e : Option Err} (he : s.frame.err = none) (h : render env fuel n s = some (e, s')) :
    e = none ∧ s'.toCtx = s.toCtx ∧ ∃ w, Out P s.toCtx n w ∧ s'.out = s.out ++ w := by
  obtain ⟨w, ho, h1, h2, h3⟩ := recOK_render G F fuel n s.toCtx hw he s e s' rfl h
  exact ⟨h1, h2, w, h3, ho⟩

end

end Aitch
