/-
Conventions and models of the Rust standard-library operations the code uses.
Nothing in this file models Octane's own code; it models `str`, `[T]`, `HashMap`,
integer printing and parsing as Octane uses them.
-/
namespace Octane

/-- A Rust computation that may panic. `Option`/`Result` values stay data inside `ok`. -/
inductive Res (α : Type u) where
  | ok (a : α)
  | panic
  deriving DecidableEq, Repr

namespace Res
def bind {α : Type u} {β : Type v} : Res α → (α → Res β) → Res β
  | .ok a, f => f a
  | .panic, _ => .panic

instance : Monad Res where
  pure := .ok
  bind := Res.bind

@[simp] theorem bind_ok {α β : Type u} (a : α) (f : α → Res β) : (Res.ok a >>= f) = f a := rfl
@[simp] theorem bind_panic {α β : Type u} (f : α → Res β) :
    ((Res.panic : Res α) >>= f) = Res.panic := rfl
@[simp] theorem pure_eq {α : Type u} (a : α) : (pure a : Res α) = Res.ok a := rfl
@[simp] theorem bind_ok' {α : Type u} {β : Type v} (a : α) (f : α → Res β) :
    (Res.ok a).bind f = f a := rfl
@[simp] theorem bind_panic' {α : Type u} {β : Type v} (f : α → Res β) :
    (Res.panic : Res α).bind f = Res.panic := rfl

/-- `Option::unwrap`. -/
def unwrap {α : Type u} : Option α → Res α
  | some a => .ok a
  | none => .panic

@[simp] theorem unwrap_some {α : Type u} (a : α) : unwrap (some a) = .ok a := rfl
@[simp] theorem unwrap_none {α : Type u} : unwrap (none : Option α) = .panic := rfl
end Res

/-- `str` / `String`: the sequence of its characters (Unicode scalar values). -/
abbrev Str := List Char
/-- `[u8]` / `Vec<u8>`. -/
abbrev Bytes := List UInt8

open Lean in
/-- `c!"abc"` is the character list `['a','b','c']`. -/
macro:max "c!" s:str : term => do
  let cs := s.getString.toList.map (fun c => Syntax.mkCharLit c)
  `(([$(cs.toArray),*] : List Char))

/-- `str::as_bytes`: UTF-8 encoding (Lean core's encoder of one character, mapped). -/
def utf8 (s : Str) : Bytes := s.flatMap String.utf8EncodeChar

/-- `str::from_utf8(..).ok()`: UTF-8 decoding (Lean core's decoder). -/
def fromUtf8 (b : Bytes) : Option Str := (b.toByteArray.utf8Decode?).map Array.toList

/-- `s.as_bytes()[0]`: panics on the empty string. -/
def firstByte (s : Str) : Res UInt8 :=
  match utf8 s with
  | [] => .panic
  | b :: _ => .ok b

/-- `s.split_at(n)` with a *byte* offset `n`: panics unless `n` is a character boundary. -/
def splitAtByte : Nat → Str → Res (Str × Str)
  | 0, s => .ok ([], s)
  | _ + 1, [] => .panic
  | n + 1, c :: s =>
    if c.utf8Size ≤ n + 1 then
      (splitAtByte (n + 1 - c.utf8Size) s).bind fun r => .ok (c :: r.1, r.2)
    else .panic
termination_by structural _ s => s

/-- `&s[n..]` with a byte offset. -/
def sliceFrom (n : Nat) (s : Str) : Res Str := (splitAtByte n s).bind fun r => .ok r.2

/-- `s.find(c)`: byte offset of the first occurrence of the character. -/
def findChar (c : Char) : Str → Option Nat
  | [] => none
  | d :: s => if d = c then some 0 else (findChar c s).map (· + d.utf8Size)

/-- Does `s` start with `p`?  (`str::starts_with`) -/
def startsWith : Str → Str → Bool
  | _, [] => true
  | [], _ :: _ => false
  | a :: s, b :: p => a == b && startsWith s p

/-- `s.find(pat)` for a string pattern: byte offset of the first occurrence. -/
def findStr (pat : Str) : Str → Option Nat
  | [] => if pat = [] then some 0 else none
  | d :: s => if startsWith (d :: s) pat then some 0 else (findStr pat s).map (· + d.utf8Size)

/-- `s.split(c)` for a character: always at least one piece. -/
def splitChar (c : Char) : Str → List Str
  | [] => [[]]
  | d :: s =>
    if d = c then [] :: splitChar c s
    else match splitChar c s with
      | [] => [[d]]
      | p :: ps => (d :: p) :: ps

/-- `s.split(pat)` for a non-empty string pattern (leftmost, non-overlapping).
`n` is the number of characters still to be skipped as part of a separator. -/
def splitStrAux (pat : Str) : Nat → Str → List Str
  | _, [] => [[]]
  | n + 1, _ :: s => splitStrAux pat n s
  | 0, d :: s =>
    if startsWith (d :: s) pat then [] :: splitStrAux pat (pat.length - 1) s
    else match splitStrAux pat 0 s with
      | [] => [[d]]
      | p :: ps => (d :: p) :: ps

def splitStr (pat : Str) (s : Str) : List Str := splitStrAux pat 0 s

/-- `s.splitn(2, c)`: one piece if `c` does not occur, else the parts around the first `c`. -/
def splitN2 (c : Char) : Str → List Str
  | [] => [[]]
  | d :: s =>
    if d = c then [[], s]
    else match splitN2 c s with
      | [] => [[d]]
      | p :: ps => (d :: p) :: ps

/-- `char::is_whitespace` (Unicode `White_Space`). -/
def isWhitespace (c : Char) : Bool :=
  let n := c.toNat
  (9 ≤ n && n ≤ 13) || n == 0x20 || n == 0x85 || n == 0xA0 || n == 0x1680
    || (0x2000 ≤ n && n ≤ 0x200A) || n == 0x2028 || n == 0x2029 || n == 0x202F
    || n == 0x205F || n == 0x3000

/-- `s.trim()`. -/
def trim (s : Str) : Str :=
  ((s.dropWhile isWhitespace).reverse.dropWhile isWhitespace).reverse

/-- `char::to_ascii_lowercase`. -/
def asciiLowerC (c : Char) : Char :=
  if 'A'.toNat ≤ c.toNat ∧ c.toNat ≤ 'Z'.toNat then Char.ofNat (c.toNat + 32) else c

/-- `char::to_ascii_uppercase`. -/
def asciiUpperC (c : Char) : Char :=
  if 'a'.toNat ≤ c.toNat ∧ c.toNat ≤ 'z'.toNat then Char.ofNat (c.toNat - 32) else c

/-- `str::to_ascii_lowercase`. -/
def asciiLower (s : Str) : Str := s.map asciiLowerC
/-- `str::to_ascii_uppercase`. -/
def asciiUpper (s : Str) : Str := s.map asciiUpperC

/-- `usize::MAX` / `u64::MAX` on a 64-bit target. -/
def u64Max : Nat := 2 ^ 64 - 1
/-- `isize::MAX` / `i64::MAX` on a 64-bit target. -/
def i64Max : Nat := 2 ^ 63 - 1

def isDigit (c : Char) : Bool := '0'.toNat ≤ c.toNat && c.toNat ≤ '9'.toNat

/-- value of a digit string -/
def digitsVal (s : Str) : Nat := s.foldl (fun a c => 10 * a + (c.toNat - '0'.toNat)) 0

/-- `s.parse::<u64>().ok()` / `s.parse::<usize>().ok()`: an optional leading `+`, at least
one digit, only digits, and no overflow. -/
def parseU64 (s : Str) : Option Nat :=
  let ds := match s with
    | '+' :: r => r
    | _ => s
  if ds.isEmpty then none
  else if ds.all isDigit then
    if digitsVal ds ≤ u64Max then some (digitsVal ds) else none
  else none

def digitChar (n : Nat) : Char := Char.ofNat ('0'.toNat + n)

/-- `n.to_string()` for an unsigned integer. -/
def showNat (n : Nat) : Str :=
  if n < 10 then [digitChar n] else showNat (n / 10) ++ [digitChar (n % 10)]
termination_by n

/-- `n.to_string()` for a signed integer. -/
def showInt : Int → Str
  | .ofNat n => showNat n
  | .negSucc n => '-' :: showNat (n + 1)

/-- `std::collections::HashMap` as an association list. All operations keep at most one entry
per key. The order of the list is *not* meaningful: wherever the code enumerates a map, the
model goes through an arbitrary permutation of it. -/
abbrev HMap (K : Type u) (V : Type v) := List (K × V)

namespace HMap
variable {K : Type u} {V : Type v} [DecidableEq K]

/-- `HashMap::get`. -/
def get : HMap K V → K → Option V
  | [], _ => none
  | (k', v) :: m, k => if k' = k then some v else get m k

/-- `HashMap::insert`: replaces the value of an existing key, adds the key otherwise. -/
def insert : HMap K V → K → V → HMap K V
  | [], k, v => [(k, v)]
  | (k', v') :: m, k, v => if k' = k then (k, v) :: m else (k', v') :: insert m k v

/-- `HashMap::remove` (as far as the map is concerned). -/
def remove : HMap K V → K → HMap K V
  | [], _ => []
  | (k', v) :: m, k => if k' = k then m else (k', v) :: remove m k

/-- at most one entry per key -/
def Uniq (m : HMap K V) : Prop := (m.map (·.1)).Nodup
end HMap

end Octane
