import Verif.Spec.Parallel
/-
Specification for C84 and C157: which accesses of different requests can change places.
-/
namespace Octane
open Spec

/-- The program makes this access: at once, or after some others and whatever it read at them. -/
inductive Prog.Makes {W : Type u} {α : Type v} : Prog W α → (W → W) → (W → Prog W α) → Prop
  | here (upd next) : Prog.Makes (.act upd next) upd next
  | later (upd next w) {upd' next'} : Prog.Makes (next w) upd' next' → Prog.Makes (.act upd next) upd' next'

/-- Every access of the program, on whatever way through it, satisfies `free`, but for at most `k`. -/
def Prog.AllBut {W : Type u} {α : Type v} (free : (W → W) → (W → Prog W α) → Prop) : Prog W α → Nat → Prop
  | .act upd next, k => (free upd next ∧ ∀ w, (next w).AllBut free k) ∨ (0 < k ∧ ∀ w, (next w).AllBut free (k - 1))
  | _, _ => True

namespace Spec
variable {W : Type u}

/-- Two accesses can change places: the state afterwards is the same, and each goes on in the same way, so
neither reads anything that the other changes. -/
def Commutes (upd : W → W) (next : W → Prog W Reply) (upd' : W → W) (next' : W → Prog W Reply) : Prop :=
  ∀ w, upd' (upd w) = upd (upd' w) ∧ next' (upd w) = next' w ∧ next (upd' w) = next w

/-- An access of request `i` that can change places with every access of every other request (`runs j p`: request
`j` runs the program `p`) and with every other change of the shared state. -/
def Free (runs : Nat → Prog W Reply → Prop) (envs : List (W → W)) (i : Nat) (upd : W → W)
    (next : W → Prog W Reply) : Prop :=
  (∀ j p, j ≠ i → runs j p → ∀ upd' next', p.Makes upd' next' → Commutes upd next upd' next') ∧
  ∀ f ∈ envs, ∀ w, f (upd w) = upd (f w) ∧ next (f w) = next w

/-- The request that is handled, with its program. -/
def Item.run? : Item W → Option (Nat × Prog W Reply)
  | .job i p => some (i, p)
  | _ => none

end Spec
end Octane
