import Verif.Spec.Wire
/-
Specification of what RFC 7230 wants refused: ambiguous lengths (section 3.3.3) and repeated Host
headers (section 5.4); and of targets in absolute form (section 5.3.2). Independent of the model (only
its basic types).
-/
namespace Octane.Spec

/-- the values of the headers with this (lower-case) name, in order -/
def valuesOf (hs : List (Str × Str)) (k : Str) : List Str :=
  (hs.filter fun h => lowered h.1 = k).map (·.2)

/-- `v` is the length `n`: digits only, at least one, below `2^64` -/
def IsLength (v : Str) (n : Nat) : Prop :=
  v ≠ [] ∧ (∀ c ∈ v, '0' ≤ c ∧ c ≤ '9') ∧
    n = v.foldl (fun a c => 10 * a + (c.toNat - 48)) 0 ∧ n < 2 ^ 64

/-- the headers declare at most one length: all Content-Length values are one and the same number -/
def LengthOk (hs : List (Str × Str)) : Prop := ∃ n, ∀ v ∈ valuesOf hs c!"content-length", IsLength v n

/-- the pieces between slashes of `http://authority/a/b`, where `/a/b` has the pieces `[] :: ps` -/
def absoluteForm (authority : Str) (ps : List Str) : List Str := c!"http:" :: [] :: authority :: ps

end Octane.Spec
