import Verif.Spec.Size
/-
Specification for C171: the length of the longest pattern.
-/
namespace Octane.Spec

/-- `d` is the number of segments of the longest of the patterns; 0 if there are none. -/
def Longest (ps : List PathBuf) (d : Nat) : Prop :=
  (∀ p ∈ ps, p.length ≤ d) ∧ ((ps = [] ∧ d = 0) ∨ ∃ p ∈ ps, p.length = d)

end Octane.Spec
