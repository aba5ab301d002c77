import Verif.Spec.Clean
/-
Data of the same shape, and pages of the same structure.
-/
namespace Aitch.Spec.Markup

/-- The shape of data: flags, lists of given lengths, maps (by address), something with a String method, and everything
else. -/
inductive Shape where
  | flag (b : Bool)
  | list (items : List Shape)
  | bytes (length : Nat)
  | map (m : MapId)
  | named (s : Shape)
  | leaf

mutual
/-- The shape of a value: texts and numbers are leaves, whatever they are. -/
def shape : Any → Shape
  | .bool b => .flag b
  | .bytes bs => .bytes bs.length
  | .anySlice xs => .list (shapes xs)
  | .slice _ xs => .list (shapes xs)
  | .map m => .map m
  | .stringer _ _ v => .named (shape v)
  | _ => .leaf
/-- The shapes of a list of values. -/
def shapes : List Any → List Shape
  | [] => []
  | x :: xs => shape x :: shapes xs
end

/-- The shape of a `Context`. -/
def frameShape (f : Frame) : Option Err × Option MapId × Shape := (f.err, f.data, shape f.cargo)

/-- Two contexts that differ only in texts and numbers. -/
structure SameShapes (c c' : Ctx) : Prop where
  frame : frameShape c.frame = frameShape c'.frame
  parents : c.parents.map frameShape = c'.parents.map frameShape
  /-- the same keys, with values of the same shape -/
  maps : ∀ m k, ((c.maps m).lookup k).map shape = ((c'.maps m).lookup k).map shape
  dl : c.dl = c'.dl
  dlNext : c.dlNext = c'.dlNext
  world : c.world = c'.world

/-- Two calls of an Imperative function that differ only in the text to be written. -/
def SameCall : ImpOp → ImpOp → Prop
  | .writeString _, .writeString _ => True
  | .writeRaw _, .writeRaw _ => True
  | op, op' => op = op'

/-- The same, for all calls. -/
inductive SameCalls : List ImpOp → List ImpOp → Prop
  | nil : SameCalls [] []
  | cons {op op' ops ops'} : SameCall op op' → SameCalls ops ops' → SameCalls (op :: ops) (op' :: ops')

/-- The user functions do not decide anything by texts and numbers. -/
structure ShapeFns (P : Fns) : Prop where
  cond : ∀ f c c', SameShapes c c' → P.cond f c = P.cond f c'
  collect : ∀ f c c', SameShapes c c' → P.collect f c = P.collect f c'
  items : ∀ f c c', SameShapes c c' → shapes (P.items f c) = shapes (P.items f c')
  yields : ∀ f c c', SameShapes c c' → shapes (P.yields f c) = shapes (P.yields f c')
  imp : ∀ f c c', SameShapes c c' → SameCalls (P.imp f c) (P.imp f c')

/-- Two documents with the same structure: the same start tags, end tags, comments and DOCTYPEs in the same order, start
tags with the same attributes (values apart), texts anywhere. -/
inductive SameTags : List Item → List Item → Prop
  | nil : SameTags [] []
  | textLeft {s l l'} : SameTags l l' → SameTags (.text s :: l) l'
  | textRight {s l l'} : SameTags l l' → SameTags l (.text s :: l')
  | start {n as as' sc l l'} : (as.map (·.1)).Perm (as'.map (·.1)) → SameTags l l' →
      SameTags (.start n as sc :: l) (.start n as' sc :: l')
  | close {n l l'} : SameTags l l' → SameTags (.close n :: l) (.close n :: l')
  | comment {d d' l l'} : SameTags l l' → SameTags (.comment d :: l) (.comment d' :: l')
  | doctype {d d' l l'} : SameTags l l' → SameTags (.doctype d :: l) (.doctype d' :: l')

end Aitch.Spec.Markup
