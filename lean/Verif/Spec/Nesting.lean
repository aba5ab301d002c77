import Verif.Spec.Built
import Verif.Spec.Each
import Verif.Spec.Build
/-
Markup written piece by piece, and proper nesting.
-/
namespace Aitch.Spec

/-- A piece of markup written by an Imperative function. -/
inductive Piece where
  /-- a start tag, with its bytes; `isVoid` tells whether it needs no end tag -/
  | tag (name : Bytes) (isVoid : Bool) (bytes : Bytes)
  /-- an end tag -/
  | close (name : Bytes)
  /-- anything else -/
  | other (bytes : Bytes)

/-- The bytes of a piece. -/
def Piece.bytes : Piece → Bytes
  | .tag _ _ b => b
  | .close n => b%"</" ++ n ++ b%">"
  | .other b => b

/-- Whether a piece is an end tag. -/
def Piece.isClose : Piece → Bool
  | .close _ => true
  | _ => false

/-- Proper nesting: every start tag (not void) has an end tag of the same name, with properly nested pieces between. -/
inductive Nested : List Piece → Prop
  | nil : Nested []
  | other {b l} : Nested l → Nested (.other b :: l)
  | void {n b l} : Nested l → Nested (.tag n true b :: l)
  | element {n b l l'} : Nested l → Nested l' → Nested (.tag n false b :: l ++ .close n :: l')

/-- What a call (other than `End` and `EndAll`) writes: an escaped string, raw bytes, the renderings of the nodes that
are neither nil nor attributes, or a start tag with some attributes (which ones: see C26). -/
inductive CallWrites (P : Fns) (c : Ctx) : ImpOp → Piece → Prop
  | writeString (d) : CallWrites P c (.writeString d) (.other (htmlEscapeString d))
  | writeRaw (d) : CallWrites P c (.writeRaw d) (.other d)
  | writeNodes (ns w) : RendersAll P c (nonAttrs (ns.filterMap id)) w → CallWrites P c (.writeNodes ns) (.other w)
  | start (n v attrs) (shows : List Shown) :
      CallWrites P c (.start n v attrs) (.tag n v (b%"<" ++ n ++ shows.flatMap Shown.bytes ++ b%">"))

/-- Whether a call is `End` or `EndAll`. -/
def isEnd : ImpOp → Bool
  | .end => true
  | .endAll => true
  | _ => false

/-- The elements open after some calls, last opened first, if `stack` were open before. -/
def openAfter : List ImpOp → (stack : List Bytes) → List Bytes
  | [], stack => stack
  | .start n false _ :: ops, stack => openAfter ops (n :: stack)
  | .end :: ops, stack => openAfter ops stack.tail
  | .endAll :: ops, _ => openAfter ops []
  | _ :: ops, stack => openAfter ops stack

end Aitch.Spec
