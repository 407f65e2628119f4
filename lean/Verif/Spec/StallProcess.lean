import Verif.Spec.Stall
import Verif.Spec.Process
/-
When a connection that waits for a thread can still come to its end.
-/
namespace Octane.Spec
variable {W : Type u}

/-- The task holds a thread, and whatever the shared state will be, its handlers do not come to an end any more. -/
noncomputable def LostConn (sv : PServer W) (log : List (PReg W)) (c : PConn W) : Bool :=
  match c.task with
  | .handling req reads =>
    @decide (¬ ((requestProg sv.feat.urlVariables log req).rest reads).MayEnd) (Classical.propDecidable _)
  | _ => false

/-- The task waits for a thread: to go on with reading its request, or to go on with writing its answer. -/
def Awaits : PTask W → Prop
  | .reading _ | .writing _ _ => True
  | _ => False

end Octane.Spec
