import Verif.Spec.Text
import Verif.Spec.Slice
/-
Specifications for the wire format of requests. Uses from the model only basic types.
-/
namespace Octane.Spec
variable {T : Type u}

/-- `s` is cut at the first occurrence of `sep` into `a` and `b`. -/
def FirstSplit (s sep a b : List T) : Prop :=
  s = a ++ sep ++ b ∧ ∀ j, j < a.length → ¬ OccursAt s sep j

/-- CR LF, as text and as bytes, and the blank line that ends a request head. -/
def crlf : Str := ['\r', '\n']
def crlfB : Bytes := [13, 10]
def blankLine : Bytes := [13, 10, 13, 10]

/-- RFC 7230 token characters -/
def isTchar (c : Char) : Prop :=
  ('0' ≤ c ∧ c ≤ '9') ∨ ('a' ≤ c ∧ c ≤ 'z') ∨ ('A' ≤ c ∧ c ≤ 'Z') ∨
    c ∈ ['!', '#', '$', '%', '&', '\'', '*', '+', '-', '.', '^', '_', '`', '|', '~']

/-- control characters: U+0000 to U+001F and U+007F -/
def isControl (c : Char) : Prop := c.toNat ≤ 0x1F ∨ c.toNat = 0x7F

/-- the control characters the code refuses: all but U+001F (see C28) -/
def isRefusedControl (c : Char) : Prop := isControl c ∧ c.toNat ≠ 0x1F

/-- space or horizontal tab -/
def isBlank (c : Char) : Prop := c = ' ' ∨ c = '\t'

/-- `line` is a header line with this name and value: name, colon, optional blanks, value. In
faithful mode the name is a token and the value has no refused control character. -/
def HeaderLine (faithful : Bool) (line name value : Str) : Prop :=
  ∃ ws, line = name ++ ':' :: ws ++ value ∧ name ≠ [] ∧ ':' ∉ name ∧ (∀ c ∈ ws, isBlank c) ∧
    (∀ c, value.head? = some c → ¬ isBlank c) ∧
    (faithful = true → (∀ c ∈ name, isTchar c) ∧ ∀ c ∈ value, ¬ isRefusedControl c)

end Octane.Spec

namespace Octane.Spec

instance (c : Char) : Decidable (isTchar c) := by unfold isTchar; infer_instance
instance (c : Char) : Decidable (isControl c) := by unfold isControl; infer_instance
instance (c : Char) : Decidable (isRefusedControl c) := by unfold isRefusedControl; infer_instance
instance (c : Char) : Decidable (isBlank c) := by unfold isBlank; infer_instance

/-- what a header map binds a (lower-case) key to, for a list of (name, value) headers: the values
of the headers whose name is the key up to ASCII case, in order, joined by `", "`. -/
def joined (hs : List (Str × Str)) (k : Str) : Option Str :=
  match (hs.filter fun h => lowered h.1 = k).map (·.2) with
  | [] => none
  | vs => some (c!", ".intercalate vs)

/-- the method tokens of HTTP -/
def methodTokens : List Str :=
  [c!"OPTIONS", c!"GET", c!"HEAD", c!"POST", c!"PUT", c!"DELETE", c!"TRACE", c!"CONNECT", c!"PATCH"]

/-- the value of a well-formed decimal `u64` (an optional `+` and digits, below `2^64`) -/
def IsU64 (s : Str) (n : Nat) : Prop :=
  ∃ ds, (s = ds ∨ s = '+' :: ds) ∧ ds ≠ [] ∧ (∀ c ∈ ds, '0' ≤ c ∧ c ≤ '9') ∧
    n = ds.foldl (fun a c => 10 * a + (c.toNat - 48)) 0 ∧ n < 2 ^ 64

/-- one entry of a comma-separated parameter list is, without surrounding white space, `key=n` -/
def IsParam (entry key : Str) (n : Nat) : Prop :=
  ∃ v, Trimmed entry (key ++ '=' :: v) ∧ IsU64 v n

/-- `n` is the value of the last entry that is a well-formed `key` parameter -/
def LastParam (entries : List Str) (key : Str) (n : Nat) : Prop :=
  ∃ pre e post, entries = pre ++ e :: post ∧ IsParam e key n ∧ ∀ e' ∈ post, ∀ m, ¬ IsParam e' key m

end Octane.Spec

namespace Octane.Spec

/-- the body length a header lookup declares: the value of `content-length` if it is a well-formed
number, and 0 otherwise -/
def DeclaredLength (get : Str → Option Str) (n : Nat) : Prop :=
  (∃ v, get c!"content-length" = some v ∧ IsU64 v n) ∨
    (n = 0 ∧ ∀ v m, get c!"content-length" = some v → ¬ IsU64 v m)

end Octane.Spec
