import Verif.Spec.Dead
/-
Specification for C159: which two registrations some request can reach both, read off the registrations, and which
rearrangements of a list of registrations keep the order of those.
-/
namespace Octane.Spec
variable {S : Type u}

/-- Some path matches both patterns, by comparing them segment by segment: at each place one of them has a variable
or they have the same constant. Without `url_variables` there are no variables. -/
def Overlap (uv : Bool) (p q : PathBuf) : Prop :=
  p.length = q.length ∧ ∀ (i : Nat) (a b : Str), p[i]? = some a → q[i]? = some b →
    (uv = true ∧ (IsVar a ∨ IsVar b)) ∨ a = b

/-- The patterns of the two registrations overlap, or one has none. -/
def Target.Overlaps (uv : Bool) : Target → Target → Prop
  | .everywhere, _ => True
  | _, .everywhere => True
  | .on _ p, .on _ q => Overlap uv p q
  | .on _ p, .anyMethod q => Overlap uv p q
  | .anyMethod p, .on _ q => Overlap uv p q
  | .anyMethod p, .anyMethod q => Overlap uv p q

/-- The two registrations meet: both can be asked for, they are for a common method and their patterns overlap. -/
def Target.Meets (uv : Bool) (t u : Target) : Prop :=
  t.Askable uv ∧ u.Askable uv ∧ (∃ name m, (name, m) ∈ methodTable ∧ t.IsFor m ∧ u.IsFor m) ∧ t.Overlaps uv u

/-- `order` is an order of the registrations in `log` (a list of their numbers) in which those that meet stand as
they stand in `log`. -/
def KeepsOrder (uv : Bool) (log : List (Reg S)) (order : List Nat) : Prop :=
  order.Perm (List.range log.length) ∧
    order.Pairwise fun i j => j < i → ∀ a b, log[i]? = some a → log[j]? = some b → ¬ a.target.Meets uv b.target

end Octane.Spec
