import Verif.Spec.Listen
/-
Infinite executions and fair schedulers.
-/
namespace Octane
open Spec

/-- The first `n` events of an infinite execution. -/
def Spec.upTo {W : Type u} (σ : Nat → Octane.Event W) (n : Nat) : List (Octane.Event W) := (List.range n).map σ

/-- The task has ended, in one way or the other. -/
def Spec.Over : Task → Prop
  | .finished _ | .broken _ | .panicked | .refused => True
  | _ => False

section
variable {W : Type u}

/-- From event `n` on the task of connection `i` is always of this kind. -/
def Spec.Stays (sv : Server W) (y : Sys W) (σ : Nat → Octane.Event W) (i : Nat) (P : Task → Prop)
    (n : Nat) : Prop :=
  ∀ m, n ≤ m → ∃ c, (y.run sv (upTo σ m)).conns[i]? = some c ∧ P c.task

/-- The scheduler (weak fairness): an operation that task `i` waits for without end takes place. Writes
take at least one byte. -/
structure Spec.FairTo (sv : Server W) (y : Sys W) (σ : Nat → Octane.Event W) (i : Nat) : Prop where
  handshake : ∀ n, Stays sv y σ i (· = .handshake) n → ∃ m ok, n ≤ m ∧ σ m = .handshake i ok
  read : ∀ n, Stays sv y σ i Waiting n → ∃ m, n ≤ m ∧ σ m = .poll i
  write : ∀ n, Stays sv y σ i (fun t => ∃ a b, t = .writing a b) n →
    ∃ m, n ≤ m ∧ (σ m = .writeErr i ∨ ∃ k, 1 ≤ k ∧ σ m = .write i k)

end
end Octane
