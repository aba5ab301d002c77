import Verif.Model.Live
/-
What it means that arguments are asked for their values, one after the other.
-/
namespace Aitch.Spec.Live
open Aitch.Live

variable {W : Type}

/-- `Says L a w cs v w'`: asked in state `w`, the argument `a` turns out to be the value `v`; that takes the calls `cs`
and leaves the state `w'`.  A function that returns a function is asked further. -/
inductive Says (L : Code W) : Arg → W → List Call → Any → W → Prop
  | any (v w) : Says L (.any v) w [] v w
  | string {f w out w'} : L.string f w = (out, w') → Says L (.stringer f) w [.string f] (.stringer 0 out .nil) w'
  | func {f w a w₁ cs v w₂} : L.func f w = (a, w₁) → Says L a w₁ cs v w₂ →
      Says L (.func f) w (.func f :: cs) (.thunk v) w₂

/-- The same for arguments, from left to right. -/
inductive SaysAll (L : Code W) : List Arg → W → List Call → List Any → W → Prop
  | nil (w) : SaysAll L [] w [] [] w
  | cons {a as w w₁ w₂ cs cs' v vs} : Says L a w cs v w₁ → SaysAll L as w₁ cs' vs w₂ →
      SaysAll L (a :: as) w (cs ++ cs') (v :: vs) w₂

/-- The constructors that take contents or values. -/
inductive Maker where
  | text
  | comment
  | fragment
  | pi (name : Bytes)
  | «attribute» (name : Bytes)
  | delimited (name delimiter : Bytes)
  | style (name : Bytes)
  | element (name : Bytes)
  | void (name : Bytes)

/-- The constructor applied to values. -/
def Maker.make : Maker → List Any → Heap → Node × Heap
  | .text, vs, h => (Aitch.Text h.dl vs, h)
  | .comment, vs, h => (Aitch.Comment h.dl vs, h)
  | .fragment, vs, h => (Aitch.Fragment h.dl vs, h)
  | .pi n, vs, h => (Aitch.PI h.dl n vs, h)
  | .attribute n, vs, h => (Aitch.NewAttribute h.dl n vs, h)
  | .delimited n d, vs, h => Aitch.NewDelimitedAttribute n d vs h
  | .style n, vs, h => Aitch.styleAttribute n vs h
  | .element n, vs, h => Aitch.NewElement n vs h
  | .void n, vs, h => Aitch.NewVoidElement n vs h

/-- The constructor applied to arguments that call code. -/
def Maker.run (L : Code W) (fuel : Nat) : Maker → List Arg → Heap → Build W (Node × Heap)
  | .text, as, h => do return (← Aitch.Live.Text L fuel h.dl as, h)
  | .comment, as, h => do return (← Aitch.Live.Comment L fuel h.dl as, h)
  | .fragment, as, h => do return (← Aitch.Live.Fragment L fuel h.dl as, h)
  | .pi n, as, h => do return (← Aitch.Live.PI L fuel h.dl n as, h)
  | .attribute n, as, h => do return (← Aitch.Live.NewAttribute L fuel h.dl n as, h)
  | .delimited n d, as, h => Aitch.Live.NewDelimitedAttribute L fuel n d as h
  | .style n, as, h => Aitch.Live.styleAttribute L fuel n as h
  | .element n, as, h => Aitch.Live.NewElement L fuel n as h
  | .void n, as, h => Aitch.Live.NewVoidElement L fuel n as h

/-- A function or `String` method that is given as an argument. -/
def _root_.Aitch.Live.Arg.call : Arg → Option Call
  | .any _ => none
  | .func f => some (.func f)
  | .stringer f => some (.string f)

/-- Functions that return values, not further functions. -/
def Direct (L : Code W) : Prop := ∀ f w, ∃ v, (L.func f w).1 = .any v

end Aitch.Spec.Live
