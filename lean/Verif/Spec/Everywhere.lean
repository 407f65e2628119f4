import Verif.Spec.Stoppers
import Verif.Spec.Parallel
import Verif.Spec.Process
/-
Specification for C165: handlers with visible accesses that ask for variables by name, and such that never hand on.
-/
namespace Octane.Spec
variable {W : Type u}

/-- The program never hands on: wherever it returns, it stops. -/
def NeverOn : Prog W (Response × Flow) → Prop
  | .ret a => a.2 = .stop
  | .act _ next => ∀ w, NeverOn (next w)
  | _ => True

/-- The handler looks at the variables only by asking for them by their names. -/
def PByName (h : PClosure W) : Prop :=
  ∀ mr mr' res, mr.request = mr'.request → (∀ k, mr.vars.get k = mr'.vars.get k) → h mr res = h mr' res

/-- The registrations of the table, the names standing for these handlers. -/
def Table.plog (T : Table) (handlers : Nat → PClosure W) : List (PReg W) := T.map fun e => ⟨e.1, handlers e.2⟩

/-- Two servers that are alike but for their routers. -/
structure ButRouter (sv sv' : PServer W) : Prop where
  feat : sv'.feat = sv.feat
  U : sv'.U = sv.U
  ord : sv'.ord = sv.ord
  clock : sv'.clock = sv.clock

end Octane.Spec
