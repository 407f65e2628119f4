import Verif.Model.Basic
/-
Specifications of the text operations of the standard library that the properties mention. They use
from the model only the types `Str` and `Bytes`; that the model's operations meet them is proved in
`Verif.Proof.Text`.
-/
namespace Octane.Spec

/-- an ASCII letter -/
def isLetter (c : Char) : Prop := ('a' ≤ c ∧ c ≤ 'z') ∨ ('A' ≤ c ∧ c ≤ 'Z')
def isUpper (c : Char) : Prop := 'A' ≤ c ∧ c ≤ 'Z'
def isLower (c : Char) : Prop := 'a' ≤ c ∧ c ≤ 'z'
instance (c : Char) : Decidable (isLetter c) := by unfold isLetter; infer_instance
instance (c : Char) : Decidable (isUpper c) := by unfold isUpper; infer_instance
instance (c : Char) : Decidable (isLower c) := by unfold isLower; infer_instance

/-- upper-case form of a letter, lower-case form of a letter -/
def capital (c : Char) : Char := if isLower c then Char.ofNat (c.toNat - 32) else c
def small (c : Char) : Char := if isUpper c then Char.ofNat (c.toNat + 32) else c

/-- text with every ASCII letter in lower case, in upper case -/
def lowered (s : Str) : Str := s.map small
def capitals (s : Str) : Str := s.map capital

/-- the characters with the Unicode property White_Space -/
def whiteSpace : List Char :=
  ['\t', '\n', '\x0b', '\x0c', '\r', ' ', '\u0085', '\u00a0', '\u1680',
   '\u2000', '\u2001', '\u2002', '\u2003', '\u2004', '\u2005', '\u2006', '\u2007', '\u2008',
   '\u2009', '\u200a', '\u2028', '\u2029', '\u202f', '\u205f', '\u3000']

/-- `t` is `s` without the white space around it -/
def Trimmed (s t : Str) : Prop :=
  ∃ a b, s = a ++ t ++ b ∧ (∀ c ∈ a ++ b, c ∈ whiteSpace) ∧
    (∀ c, t.head? = some c → c ∉ whiteSpace) ∧ (∀ c, t.getLast? = some c → c ∉ whiteSpace)

/-- `s` is the decimal numeral of `n`: digits, no superfluous zero in front, denoting `n` -/
def Numeral (n : Nat) (s : Str) : Prop :=
  s ≠ [] ∧ (∀ c ∈ s, '0' ≤ c ∧ c ≤ '9') ∧ (s.head? = some '0' → s = ['0']) ∧
    s.foldl (fun a c => 10 * a + (c.toNat - 48)) 0 = n

/-- the same for integers -/
def IntNumeral (n : Int) (s : Str) : Prop :=
  (0 ≤ n ∧ Numeral n.toNat s) ∨ (n < 0 ∧ ∃ t, s = '-' :: t ∧ Numeral n.natAbs t)

end Octane.Spec
