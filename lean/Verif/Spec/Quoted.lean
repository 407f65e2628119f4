import Verif.Spec.Http
/-
Two notations for strings, both between double quotes: the `quoted-string` of HTTP (RFC 7230, 3.2.6) and
the string literal of Rust (Reference, "String literals"). Independent of the model.
-/
namespace Octane.Spec

/-- what stands between the quotes of an HTTP `quoted-string`, and the string it denotes -/
inductive HttpQuoted : Str → Str → Prop
  | nil : HttpQuoted [] []
  | text {c t s} : c ≠ '"' → c ≠ '\\' → (¬ isControl c ∨ c = '\t') → HttpQuoted t s →
      HttpQuoted (c :: t) (c :: s)
  | pair {c t s} : (¬ isControl c ∨ c = '\t') → HttpQuoted t s → HttpQuoted ('\\' :: c :: t) (c :: s)

/-- the value of a hexadecimal digit -/
def HexDigit (c : Char) (n : Nat) : Prop :=
  ('0' ≤ c ∧ c ≤ '9' ∧ n = c.toNat - 48) ∨ ('a' ≤ c ∧ c ≤ 'f' ∧ n = c.toNat - 87) ∨
    ('A' ≤ c ∧ c ≤ 'F' ∧ n = c.toNat - 55)

/-- `ds` is a hexadecimal numeral of value `n`, most significant digit first -/
inductive HexNumeral : Str → Nat → Prop
  | one {c n} : HexDigit c n → HexNumeral [c] n
  | snoc {ds n c m} : HexNumeral ds n → HexDigit c m → HexNumeral (ds ++ [c]) (16 * n + m)

/-- what stands between the quotes of a Rust string literal, and the string it denotes (without the
line continuation and the two-digit `\x` escape, which play no role here) -/
inductive RustQuoted : Str → Str → Prop
  | nil : RustQuoted [] []
  | text {c t s} : c ≠ '"' → c ≠ '\\' → c ≠ '\r' → RustQuoted t s → RustQuoted (c :: t) (c :: s)
  | escape {k c t s} : (k, c) ∈ [('n', '\n'), ('r', '\r'), ('t', '\t'), ('0', '\x00'), ('\\', '\\'),
      ('"', '"'), ('\'', '\'')] → RustQuoted t s → RustQuoted ('\\' :: k :: t) (c :: s)
  | unicode {ds n t s} : HexNumeral ds n → ds.length ≤ 6 → n.isValidChar → RustQuoted t s →
      RustQuoted ('\\' :: 'u' :: '{' :: ds ++ '}' :: t) (Char.ofNat n :: s)

/-- `lit` is the text of a Rust string literal denoting `s` -/
def RustLiteral (lit s : Str) : Prop := ∃ t, lit = '"' :: t ++ ['"'] ∧ RustQuoted t s

end Octane.Spec
