import Verif.Spec.Meet
import Verif.Spec.Wrap
/-
What a program that may write the counter registers, without its handlers: for each registration what it is for and its
number.
-/
namespace Octane.Spec
variable {S : Type u}

/-- what the registrations are for, and their numbers, in a build with overflow checks -/
def places (calls : List (WCall S)) : List (Target × Nat) := (numberedL 0 calls).1.map fun e => (e.1.target, e.2)

/-- the same in a release build -/
def wrappedPlaces (calls : List (WCall S)) : List (Target × Nat) := (wrapped calls).map fun e => (e.1.target, e.2)

/-- The numbers are different and smaller than the largest one, and those of the handlers without a path in the order in
which these were added. -/
def Sortable (T : List (Target × Nat)) : Prop :=
  T.Pairwise (fun a b => a.2 ≠ b.2) ∧ (∀ e ∈ T, e.2 < 2 ^ 64 - 1) ∧
    T.Pairwise fun a b => a.1 = .everywhere → b.1 = .everywhere → a.2 < b.2

/-- registrations that some request reaches both are numbered in the order in which they were made -/
def NumberedInOrder (uv : Bool) (T : List (Target × Nat)) : Prop :=
  T.Pairwise fun a b => a.1.Meets uv b.1 → a.2 < b.2

end Octane.Spec
