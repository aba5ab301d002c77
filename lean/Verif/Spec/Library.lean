import Verif.Spec.Tag
import Verif.Spec.Names
import Verif.Model.Library
/-
Names of library functions and what they stand for.
-/
namespace Aitch.Spec

/-- Upper case ASCII letters. -/
def isUpper (c : UInt8) : Bool := c%'A' ≤ c && c ≤ c%'Z'

/-- ASCII lower case (Go's `strings.ToLower` on ASCII strings). -/
def lower (s : Bytes) : Bytes := s.map fun c => if isUpper c then c + 32 else c

/-- `FlexGrow` to `flex-grow`: lower case, with a hyphen before every capital but the first. -/
def kebab : Bytes → Bytes
  | [] => []
  | c :: cs => lower [c] ++ cs.flatMap fun c => if isUpper c then c%'-' :: lower [c] else [c]

/-- The letters and digits of a name: without `-` and `:`, in lower case. -/
def plainLetters (s : Bytes) : Bytes := lower (s.filter fun c => c ≠ c%'-' ∧ c ≠ c%':')

/-- What a list of arguments stands for as content: see C36. -/
def argsBytes (P : Fns) (c : Ctx) (dl : Nat → List Value) (args : List Any) : Bytes :=
  valuesBytes P c (newValues dl args)

/-- A declaration of styles: a css property function with its arguments, or `Style` with its arguments. -/
inductive Styling where
  | property (name : Bytes) (value : List Any)
  | style (value : List Any)

/-- Property functions, given by their rows in the table of properties, with their arguments. -/
def propertyStylings (ps : List ((Bytes × Bytes) × List Any)) : List Styling :=
  ps.map fun p => .property p.1.2 p.2

/-- Making the node of a declaration. -/
def Styling.make (h : Heap) : Styling → Node × Heap
  | .property name value => styleAttribute name value h
  | .style value => NewDelimitedAttribute b%"style" b%"; " value h

/-- The parts of the `style` attribute that a declaration made in memory `h` stands for: one for a property, `name`
followed by its value; one for every value of `Style`. -/
def Styling.parts (P : Fns) (c : Ctx) (h : Heap) : Styling → List Bytes
  | .property name value => [name ++ argsBytes P c h.dl value]
  | .style value => (newValues h.dl value).map (valueBytes P c)

/-- Making the nodes of several declarations, one after the other. -/
def stylings : List Styling → Heap → List Node × Heap
  | [], h => ([], h)
  | s :: ss, h => ((s.make h).1 :: (stylings ss (s.make h).2).1, (stylings ss (s.make h).2).2)

/-- The parts that several declarations, made one after the other, stand for. -/
def stylingParts (P : Fns) (c : Ctx) : List Styling → Heap → List Bytes
  | [], _ => []
  | s :: ss, h => s.parts P c h ++ stylingParts P c ss (s.make h).2

end Aitch.Spec
