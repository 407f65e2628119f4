import Verif.Spec.Process
/-
Infinite executions of the process and fair schedulers.
-/
namespace Octane.Spec
variable {W : Type u}

/-- The process after the first `n` events of an infinite execution. -/
def atTime (sv : PServer W) (allocOk : Nat → Bool) (y : Process W) (σ : Nat → Happening W) (n : Nat) : Process W :=
  y.run sv allocOk ((List.range n).map σ)

/-- From event `n` on the task of connection `i` is always of this kind. -/
def Remains (sv : PServer W) (allocOk : Nat → Bool) (y : Process W) (σ : Nat → Happening W) (i : Nat)
    (P : PTask W → Prop) (n : Nat) : Prop :=
  ∀ m, n ≤ m → ∃ c, (atTime sv allocOk y σ m).conns[i]? = some c ∧ P c.task

/-- There is a free thread again and again. -/
def FreeAgain (sv : PServer W) (allocOk : Nat → Bool) (y : Process W) (σ : Nat → Happening W) : Prop :=
  ∀ n, ∃ m, n ≤ m ∧ (atTime sv allocOk y σ m).free = true

/-- The scheduler is fair to task `i`: handlers that hold a thread go on, and a task that waits without end for
an operation while there is a free thread again and again gets one, and the operation takes place. Writes take
at least one byte. -/
structure FairTask (sv : PServer W) (allocOk : Nat → Bool) (y : Process W) (σ : Nat → Happening W) (i : Nat) :
    Prop where
  access : ∀ n req reads upd, Remains sv allocOk y σ i (· = .handling req reads) n →
    sv.stage req reads = .wants upd → ∃ m, n ≤ m ∧ σ m = .access i
  finish : ∀ n req reads, Remains sv allocOk y σ i (· = .handling req reads) n →
    ((∃ r, sv.stage req reads = .replies r) ∨ sv.stage req reads = .panicked) → ∃ m, n ≤ m ∧ σ m = .finish i
  handshake : FreeAgain sv allocOk y σ → ∀ n, Remains sv allocOk y σ i (· = .handshake) n →
    ∃ m, n ≤ m ∧ (atTime sv allocOk y σ m).free = true ∧ ∃ ok, σ m = .handshake i ok
  read : FreeAgain sv allocOk y σ → ∀ n, Remains sv allocOk y σ i (fun t => ∃ r, t = .reading r) n →
    ∃ m, n ≤ m ∧ (atTime sv allocOk y σ m).free = true ∧ σ m = .poll i
  write : FreeAgain sv allocOk y σ → ∀ n, Remains sv allocOk y σ i (fun t => ∃ a b, t = .writing a b) n →
    ∃ m, n ≤ m ∧ (atTime sv allocOk y σ m).free = true ∧ (σ m = .writeErr i ∨ ∃ k, 1 ≤ k ∧ σ m = .write i k)

/-- No handshake and no write of connection `i` fails. -/
def Unharmed (i : Nat) (e : Happening W) : Prop := e ≠ .writeErr i ∧ e ≠ .handshake i false

end Octane.Spec
