import Verif.Spec.Life
import Verif.Spec.ProcessLive
/-
Infinite executions of a whole application and fair schedulers.
-/
namespace Octane.Spec
variable {W : Type u}

/-- The application after the first `n` events of an infinite execution. -/
def lifeAt (cfg : BootCfg) (sv : PServer W) (allocOk : Nat → Bool) (y : Life W) (σ : Nat → LifeEvent W) (n : Nat) :
    Life W :=
  y.run cfg sv allocOk ((List.range n).map σ)

/-- Who has been accepted by then, in order. -/
def clientsAt (cfg : BootCfg) (sv : PServer W) (allocOk : Nat → Bool) (y : Life W) (σ : Nat → LifeEvent W) (n : Nat) :
    List (Bool × Sock) :=
  (happened cfg sv allocOk y ((List.range n).map σ)).filterMap Happening.client?

/-- From event `n` on the task of connection `i` is always of this kind. -/
def LifeRemains (cfg : BootCfg) (sv : PServer W) (allocOk : Nat → Bool) (y : Life W) (σ : Nat → LifeEvent W) (i : Nat)
    (P : PTask W → Prop) (n : Nat) : Prop :=
  ∀ m, n ≤ m → ∃ c, (lifeAt cfg sv allocOk y σ m).proc.conns[i]? = some c ∧ P c.task

/-- There is a free thread again and again. -/
def LifeFree (cfg : BootCfg) (sv : PServer W) (allocOk : Nat → Bool) (y : Life W) (σ : Nat → LifeEvent W) : Prop :=
  ∀ n, ∃ m, n ≤ m ∧ (lifeAt cfg sv allocOk y σ m).proc.free = true

/-- The scheduler is fair to task `i`, as in `FairTask`. -/
structure FairLife (cfg : BootCfg) (sv : PServer W) (allocOk : Nat → Bool) (y : Life W) (σ : Nat → LifeEvent W)
    (i : Nat) : Prop where
  access : ∀ n req reads upd, LifeRemains cfg sv allocOk y σ i (· = .handling req reads) n →
    sv.stage req reads = .wants upd → ∃ m, n ≤ m ∧ σ m = .happens (.access i)
  finish : ∀ n req reads, LifeRemains cfg sv allocOk y σ i (· = .handling req reads) n →
    ((∃ r, sv.stage req reads = .replies r) ∨ sv.stage req reads = .panicked) →
    ∃ m, n ≤ m ∧ σ m = .happens (.finish i)
  handshake : LifeFree cfg sv allocOk y σ → ∀ n, LifeRemains cfg sv allocOk y σ i (· = .handshake) n →
    ∃ m, n ≤ m ∧ (lifeAt cfg sv allocOk y σ m).proc.free = true ∧ ∃ ok, σ m = .happens (.handshake i ok)
  read : LifeFree cfg sv allocOk y σ → ∀ n, LifeRemains cfg sv allocOk y σ i (fun t => ∃ r, t = .reading r) n →
    ∃ m, n ≤ m ∧ (lifeAt cfg sv allocOk y σ m).proc.free = true ∧ σ m = .happens (.poll i)
  write : LifeFree cfg sv allocOk y σ → ∀ n, LifeRemains cfg sv allocOk y σ i (fun t => ∃ a b, t = .writing a b) n →
    ∃ m, n ≤ m ∧ (lifeAt cfg sv allocOk y σ m).proc.free = true ∧
      (σ m = .happens (.writeErr i) ∨ ∃ k, 1 ≤ k ∧ σ m = .happens (.write i k))

/-- The caller's task goes on again and again, its callback returns and no call to the operating system fails. -/
structure CallerGoesOn (σ : Nat → LifeEvent W) : Prop where
  again : ∀ n, ∃ m, n ≤ m ∧ ∃ ok, σ m = .boot (.main ok)
  fine : ∀ m, σ m ≠ .boot (.main false)

/-- The same of the task that opens the TLS listener. -/
structure TlsGoesOn (σ : Nat → LifeEvent W) : Prop where
  again : ∀ n, ∃ m, n ≤ m ∧ ∃ ok, σ m = .boot (.tls ok)
  fine : ∀ m, σ m ≠ .boot (.tls false)

end Octane.Spec
