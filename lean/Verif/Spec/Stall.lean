import Verif.Spec.Parallel
/-
When a request that waits can still be answered: what the handlers of the others can still do.
-/
namespace Octane
open Spec

/-- It returns or panics for at least one course of what it reads. -/
def Prog.MayEnd {W : Type u} {α : Type v} : Prog W α → Prop
  | .hang => False
  | .act _ next => ∃ w, (next w).MayEnd
  | _ => True

/-- What is left of a program when the shared state was this at its accesses so far. -/
def Prog.rest {W : Type u} {α : Type v} : Prog W α → List W → Prog W α
  | .act _ next, w :: ws => (next w).rest ws
  | p, _ => p

namespace Spec
variable {W : Type u}

/-- The request occupies a thread, and whatever the shared state will be, its handlers do not come to an end any
more. -/
noncomputable def Lost (sv : PServer W) (log : List (PReg W)) : Job W → Bool
  | .running req reads =>
    @decide (¬ ((requestProg sv.feat.urlVariables log req).rest reads).MayEnd) (Classical.propDecidable _)
  | _ => false

end Spec
end Octane
