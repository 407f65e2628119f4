import Verif.Model.Basic
/-
Specifications for query strings. Uses from `Model/Basic.lean` only the types and the string
literal notation.
-/
namespace Octane.Spec

/-- value of a hexadecimal digit, either case -/
def hexVal (c : Char) : Option Nat :=
  match c!"0123456789abcdef".idxOf? c with
  | some n => some n
  | none => c!"0123456789ABCDEF".idxOf? c

/-- Percent-decoding: every `%` followed by two hexadecimal digits becomes the character with that
code; everything else stays. -/
def decode : Str → Str
  | [] => []
  | [c] => [c]
  | [c, d] => [c, d]
  | c :: a :: b :: r =>
    if c = '%' then
      match hexVal a, hexVal b with
      | some x, some y => Char.ofNat (16 * x + y) :: decode r
      | _, _ => '%' :: decode (a :: b :: r)
    else c :: decode (a :: b :: r)

/-- `e` is a percent-encoding of `s`: every character is either itself (not `%`) or written as
`%` and two hexadecimal digits. -/
inductive Encodes : Str → Str → Prop
  | nil : Encodes [] []
  | lit {c s e} : c ≠ '%' → Encodes s e → Encodes (c :: s) (c :: e)
  | pct {c s e a b x y} : hexVal a = some x → hexVal b = some y → c.toNat = 16 * x + y →
      Encodes s e → Encodes (c :: s) ('%' :: a :: b :: e)

/-- hexadecimal digit characters -/
def hexDigit (n : Nat) : Char := c!"0123456789ABCDEF".getD n '0'

/-- percent-encode every byte -/
def pctBytes : Bytes → Str
  | [] => []
  | b :: bs => '%' :: hexDigit (b.toNat / 16) :: hexDigit (b.toNat % 16) :: pctBytes bs

/-- The key and value a token of a query stands for: split at the first `=`, both sides decoded,
no value if there is no `=`. With the feature `faithful` empty tokens and tokens with an empty
name stand for nothing. -/
def pairOf (faithful : Bool) (tok : Str) : Option (Str × Str) :=
  let name := tok.takeWhile (· != '=')
  if faithful && name.isEmpty then none
  else some (decode name, decode ((tok.dropWhile (· != '=')).drop 1))

/-- the value of the last entry with key `k` -/
def lastValue (k : Str) (ps : List (Str × Str)) : Option Str :=
  ((ps.filter fun p => p.1 = k).getLast?).map (·.2)

/-- What one token of an extended query does. -/
inductive Occ where
  | plain (k v : Str)      -- `k=v` or `k`
  | push (k v : Str)       -- `k[]=v`
  | put (k inner v : Str)  -- `k[inner]=v`

def Occ.key : Occ → Str
  | .plain k _ => k
  | .push k _ => k
  | .put k _ _ => k

/-- Token of an extended query: names of the form `k[inner]` (split at the last `[`) are array or
object entries and are not percent-decoded; other names are plain and decoded; an empty name
before `=` stands for nothing. -/
def occOf (faithful : Bool) (tok : Str) : Option Occ :=
  let name := tok.takeWhile (· != '=')
  if '=' ∉ tok then
    if faithful && tok.isEmpty then none else some (.plain (decode tok) [])
  else if name = [] then none
  else
    let v := decode ((tok.dropWhile (· != '=')).drop 1)
    if name.getLast? = some ']' ∧ '[' ∈ name then
      let inner := ((name.dropLast.reverse.takeWhile (· != '['))).reverse
      let outer := ((name.dropLast.reverse.dropWhile (· != '[')).drop 1).reverse
      if inner = [] then some (.push outer v) else some (.put outer inner v)
    else some (.plain (decode name) v)

def Occ.plainValue? : Occ → Option Str
  | .plain _ v => some v
  | _ => none
def Occ.pushValue? : Occ → Option Str
  | .push _ v => some v
  | _ => none
def Occ.putEntry? : Occ → Option (Str × Str)
  | .put _ i v => some (i, v)
  | _ => none

end Octane.Spec
