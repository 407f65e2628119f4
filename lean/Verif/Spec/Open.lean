import Verif.Model.Process
/-
Connections that are open, and what is kept for them.
-/
namespace Octane.Spec
variable {W : Type u}

/-- The task has not come to its end. -/
def isOpen : PTask W → Bool
  | .finished _ => false
  | .broken _ => false
  | .panicked => false
  | .refused => false
  | _ => true

/-- How many connections are open. -/
def openCount (y : Process W) : Nat := y.conns.countP fun c => isOpen c.task

/-- How many bytes of what the client sent a task keeps: of a head or a body that is not complete, or of the body
of the request that is being handled. -/
def kept : PTask W → Nat
  | .reading (.head data) => data.length
  | .reading (.body _ _ got _) => got.length
  | .handling req _ => req.body.length
  | _ => 0

/-- What is kept for all connections. -/
def keptInAll (y : Process W) : Nat := (y.conns.map fun c => kept c.task).sum

/-- The clients that have connected. -/
def clients (evs : List (Happening W)) : List Sock :=
  evs.filterMap fun
    | .connect _ s => some s
    | _ => none

/-- The client will send nothing more and not close either. -/
def Idle (s : Sock) : Prop := s.bytes = [] ∧ s.fin = .silent

end Octane.Spec
