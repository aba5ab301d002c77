import Verif.Spec.Source
/-
Names that differ only in case are the same name in HTML.
-/
namespace Aitch.Spec.Markup

/-- The declaration that comes last among those whose names are the same but for case. -/
def lastOf (l : List (Bytes × Option Bytes)) (n : Bytes) : Option (Bytes × Option Bytes) :=
  (l.filter fun a => lower a.1 = lower n).getLast?

/-- The declaration that comes last among those with this very name. -/
def lastSpelled (l : List (Bytes × Option Bytes)) (n : Bytes) : Option (Bytes × Option Bytes) :=
  (l.filter fun a => a.1 = n).getLast?

/-- The name as it is spelled in the first of its declarations. -/
def firstSpelling (l : List (Bytes × Option Bytes)) (n : Bytes) : Option Bytes :=
  (l.find? fun a => lower a.1 = lower n).map (·.1)

/-- The value that is read: a boolean attribute has the empty value. -/
def valueOf (a : Bytes × Option Bytes) : Bytes := seen (a.2.getD [])

/-- No two of the names differ only in case. -/
def OneSpelling (l : List (Bytes × Option Bytes)) : Prop :=
  ∀ a ∈ l, ∀ b ∈ l, lower a.1 = lower b.1 → a.1 = b.1

/-- What is to be read of an element with a name in any case: void elements have neither content nor an end tag. -/
def elementToks (name : Bytes) (attrs : List (Bytes × Option Bytes)) (children : List Tree) : List Tok :=
  if lower name ∈ htmlVoidNames then toks false (.void name attrs) else toks false (.element name attrs children)

end Aitch.Spec.Markup
