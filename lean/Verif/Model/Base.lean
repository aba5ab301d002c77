import Verif.Model.Construct
import Verif.Model.Machine
/-
The functions of the packages html and svg that only call the ones of package aitch, and `context.New`.
-/
namespace Aitch

/-- html/base.go:6-8 — `html.Text`. -/
def htmlText (dl : Nat → List Value) (contents : List Any) : Node := Text dl contents

/-- html/base.go:11-13 — `html.Comment`. -/
def htmlComment (dl : Nat → List Value) (contents : List Any) : Node := Comment dl contents

/-- html/base.go:16-18 — `html.PI`. -/
def htmlPI (dl : Nat → List Value) (name : Bytes) (contents : List Any) : Node := PI dl name contents

/-- svg/base.go:6-8 — `svg.Text`. -/
def svgText (dl : Nat → List Value) (contents : List Any) : Node := Text dl contents

/-- svg/base.go:11-13 — `svg.Comment`. -/
def svgComment (dl : Nat → List Value) (contents : List Any) : Node := Comment dl contents

/-- context/context.go:23-29 — `context.New`, and the new context used as the current one: no error, no parent.  (The
writer is part of `Env`.) -/
def contextNew (s : St) (data : Option MapId) (cargo : Any) : St :=
  { s with frame := { err := none, data := data, cargo := cargo }, parents := [] }

end Aitch
