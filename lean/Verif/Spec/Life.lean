import Verif.Model.Life
import Verif.Spec.Process
/-
Specification of the whole life of an application: which of the events can happen, and who is accepted.
-/
namespace Octane
variable {W : Type u}

/-- what is no step of the start-up -/
def LifeEvent.happening? : LifeEvent W → Option (Happening W)
  | .happens e => some e
  | .boot _ => none

/-- the steps of the start-up -/
def LifeEvent.boot? : LifeEvent W → Option BootEvent
  | .boot e => some e
  | .happens _ => none

namespace Spec

/-- Clients are accepted, and accepting fails, on an open listener only; the program ends after `listen`;
and nothing happens after that. -/
def CanHappen (p : Process W) (e : Happening W) : Prop :=
  p.dead = false ∧
  match e with
  | .connect tls _ | .acceptErr tls => p.listener tls = .listening
  | .exit => p.plain = .ended
  | _ => True

instance (p : Process W) (e : Happening W) : Decidable (CanHappen p e) := by
  cases e <;> unfold CanHappen <;> infer_instance

/-- What has happened in an execution, without what could not. -/
def happened (cfg : BootCfg) (sv : PServer W) (allocOk : Nat → Bool) : Life W → List (LifeEvent W) → List (Happening W)
  | _, [] => []
  | y, .boot e :: es => happened cfg sv allocOk (y.step cfg sv allocOk (.boot e)) es
  | y, .happens e :: es =>
    if CanHappen y.proc e then e :: happened cfg sv allocOk (y.step cfg sv allocOk (.happens e)) es
    else happened cfg sv allocOk (y.step cfg sv allocOk (.happens e)) es

/-- a client and what it will send -/
def Happening.client? : Happening W → Option (Bool × Sock)
  | .connect tls s => some (tls, s)
  | _ => none

end Spec
end Octane
