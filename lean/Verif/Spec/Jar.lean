import Verif.Spec.Wire
/-
Specification of a client that keeps cookies (RFC 6265, 5.2–5.4) and sends them back. Attributes, which
can keep a client from sending a cookie back, are not looked at. Independent of the model.
-/
namespace Octane.Spec

/-- What the client keeps of a `Set-Cookie` value: the name and the value around the first `=` before the
first `;`, without blanks around them; nothing if there is no name. -/
def Keeps (text : Str) (nv : Str × Str) : Prop :=
  ∃ pair rest b1 b2 b3 b4, text = pair ++ rest ∧ ';' ∉ pair ∧ (rest = [] ∨ ∃ r, rest = ';' :: r) ∧
    pair = (b1 ++ nv.1 ++ b2) ++ '=' :: (b3 ++ nv.2 ++ b4) ∧ '=' ∉ nv.1 ∧ nv.1 ≠ [] ∧
    (∀ c ∈ b1 ++ b2 ++ b3 ++ b4, isBlank c) ∧
    ∀ t ∈ [nv.1, nv.2], ∀ c, t.head? = some c ∨ t.getLast? = some c → ¬ isBlank c

/-- `v` is the value kept last under the name `n` -/
def LastKept (kept : List (Str × Str)) (n v : Str) : Prop :=
  ∃ a b, kept = a ++ (n, v) :: b ∧ ∀ x ∈ b, x.1 ≠ n

/-- The client's cookies after it has kept these, one after the other: each name once, with the value
kept last; in any order. -/
def Jar (kept jar : List (Str × Str)) : Prop :=
  (jar.map (·.1)).Nodup ∧ ∀ n v, (n, v) ∈ jar ↔ LastKept kept n v

/-- the `Cookie` header of the next request -/
def cookieHeader (jar : List (Str × Str)) : Str := c!"; ".intercalate (jar.map cookiePair)

end Octane.Spec
