import Verif.Spec.Meet
/-
Specification for C159_behind: the requests that reach two registrations, as a registration of its own.
-/
namespace Octane.Spec

/-- The pattern of the paths that match both patterns, if they overlap: at each place the constant of one of them, and
a variable where both have one. -/
def common : PathBuf → PathBuf → PathBuf
  | a :: p, b :: q => (if IsVar a then b else a) :: common p q
  | _, _ => []

/-- A registration for what the two registrations are both for, if they meet. -/
def Target.common : Target → Target → Target
  | .everywhere, u => u
  | t, .everywhere => t
  | .on m p, .on _ q => .on m (Spec.common p q)
  | .on m p, .anyMethod q => .on m (Spec.common p q)
  | .anyMethod p, .on m q => .on m (Spec.common p q)
  | .anyMethod p, .anyMethod q => .anyMethod (Spec.common p q)

end Octane.Spec
