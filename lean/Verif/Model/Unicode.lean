import Verif.Model.Basic
/-
The Unicode-dependent operations of Rust's `str` used by Octane. Their tables are not modelled:
they are arbitrary functions, constrained only by what they do on ASCII.
-/
namespace Octane

/-- ASCII -/
def isAscii (c : Char) : Bool := c.toNat < 128

/-- `str::to_lowercase`, `char::to_uppercase` (`str::to_uppercase` is its concatenation) and the
non-ASCII characters that `{:?}` escapes. -/
structure Unicode where
  lower : Str → Str
  upper : Char → Str
  escaped : Char → Bool
  lower_ascii : ∀ s : Str, s.all isAscii = true → lower s = asciiLower s
  upper_ascii : ∀ c, isAscii c = true → upper c = [asciiUpperC c]

/-- `str::to_uppercase`. -/
def Unicode.upperStr (U : Unicode) (s : Str) : Str := s.flatMap U.upper

/-- the simplest instance: non-ASCII characters are unchanged -/
def Unicode.asciiOnly : Unicode where
  lower := asciiLower
  upper c := [asciiUpperC c]
  escaped _ := false
  lower_ascii _ _ := rfl
  upper_ascii _ _ := rfl

/-- digits of a number in base 16, lower case -/
def hexDigits (n : Nat) : Str :=
  if n < 16 then [c!"0123456789abcdef".getD n '0']
  else hexDigits (n / 16) ++ [c!"0123456789abcdef".getD (n % 16) '0']
termination_by n

/-- one character of `{:?}` on a `str` -/
def Unicode.debugChar (U : Unicode) (c : Char) : Str :=
  if c = '\x00' then c!"\\0"
  else if c = '\t' then c!"\\t"
  else if c = '\r' then c!"\\r"
  else if c = '\n' then c!"\\n"
  else if c = '\\' then c!"\\\\"
  else if c = '"' then c!"\\\""
  else if c.toNat < 32 || c.toNat == 127 || (!isAscii c && U.escaped c) then
    c!"\\u{" ++ hexDigits c.toNat ++ c!"}"
  else [c]

/-- `format!("{:?}", s)` for a string -/
def Unicode.debug (U : Unicode) (s : Str) : Str := '"' :: s.flatMap U.debugChar ++ ['"']

end Octane
