import Verif.Spec.Router
import Verif.Spec.RequestLine
import Verif.Spec.Http
/-
Specification for C155: which registrations can never be called, read off the registrations themselves: no request
and no run of the server is mentioned. A shadowed route is one behind a stopping one that is at least as general.
-/
namespace Octane.Spec
variable {S : Type u}

/-- the segment stands for a variable -/
def IsVar (seg : Str) : Prop := seg.head? = some ':'

instance (seg : Str) : Decidable (IsVar seg) := by unfold IsVar; infer_instance

/-- The handler never hands on: if it returns, it stops. -/
def Stops (h : Closure S) : Prop := ∀ mr s s' fl, h mr s = .ok (s', fl) → fl = .stop

/-- The handler always hands on. -/
def Goes (h : Closure S) : Prop := ∀ mr s, ∃ s', h mr s = .ok (s', .next)

/-- Pattern `p` is at least as general as `q`, by comparing them segment by segment: a variable is as general as
anything, a constant only as general as itself. Without `url_variables` there are no variables. -/
def General (uv : Bool) (p q : PathBuf) : Prop :=
  p.length = q.length ∧ ∀ (i : Nat) (a b : Str), p[i]? = some a → q[i]? = some b →
    (uv = true ∧ IsVar a) ∨ (¬ IsVar a ∧ a = b)

/-- Some path that can stand in a request line matches the pattern: its constants have no blank and no CRLF in
them, and a segment that starts with `:` is a variable only with `url_variables` (otherwise it matches nothing). -/
def Askable (uv : Bool) (p : PathBuf) : Prop :=
  ∀ seg ∈ p, (uv = true ∧ IsVar seg) ∨ (¬ IsVar seg ∧ ' ' ∉ seg ∧ ¬ Occurs seg crlf)

/-- the registration is for this method -/
def Target.IsFor (t : Target) (m : RequestMethod) : Prop :=
  match t with
  | .on m' _ => m' = m
  | _ => True

/-- `t` has a pattern that can be asked for, or none -/
def Target.Askable (uv : Bool) (t : Target) : Prop :=
  match t with
  | .on _ p => Spec.Askable uv p
  | .anyMethod p => Spec.Askable uv p
  | .everywhere => True

/-- `a` is at least as general as `b` -/
def Target.General (uv : Bool) (a b : Target) : Prop :=
  match a, b with
  | .everywhere, _ => True
  | .on _ p, .on _ q => Spec.General uv p q
  | .on _ p, .anyMethod q => Spec.General uv p q
  | .anyMethod p, .on _ q => Spec.General uv p q
  | .anyMethod p, .anyMethod q => Spec.General uv p q
  | _, .everywhere => False

/-- The registration `t`, made after those in `before`, is dead: for each of the nine methods it is for, it cannot
be asked for, or one of the earlier registrations is for that method, at least as general, and stops. -/
def Dead (uv : Bool) (before : List (Reg S)) (t : Target) : Prop :=
  ∀ name m, (name, m) ∈ methodTable → t.IsFor m →
    ¬ t.Askable uv ∨ ∃ e ∈ before, e.target.IsFor m ∧ e.target.General uv t ∧ Stops e.handler

end Octane.Spec
