import Verif.Spec.Nesting
import Verif.Spec.Start
import Verif.Spec.Format
/-
What each call on an ImperativeContext says.
-/
namespace Aitch.Spec

/-- `CallSays P c before op w`: the call `op`, made after the calls `before`, may write `w`. -/
def CallSays (P : Fns) (c : Ctx) (before : List ImpOp) : ImpOp → Bytes → Prop
  | .writeString d, w => w = escaped d
  | .writeRaw d, w => w = d
  | .writeNodes ns, w => RendersAll P c (nonAttrs (ns.filterMap id)) w
  | .start n _ attrs, w => w = tagBytes n (startShows P c (startAttrs attrs))
  | .end, w => w = match openAfter before [] with
    | [] => []
    | n :: _ => b%"</" ++ n ++ b%">"
  | .endAll, w => w = (openAfter before []).flatMap fun n => b%"</" ++ n ++ b%">"

end Aitch.Spec
