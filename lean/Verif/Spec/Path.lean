import Verif.Model.Basic
/-
Specifications for paths and patterns. Independent of the model: only lists of characters and the
finite-map type of `Model/Basic.lean`.
-/
namespace Octane.Spec

/-- A segment that can occur in an accepted path. -/
def NormalSegment (s : List Char) : Prop :=
  s ≠ [] ∧ s ≠ ['.'] ∧ s ≠ ['.', '.'] ∧ '/' ∉ s

/-- Classification of a raw piece between slashes. -/
def isUp (s : List Char) : Bool := s == ['.', '.']
def isName (s : List Char) : Bool := !(s == [] || s == ['.'] || s == ['.', '.'])

/-- A path (as its raw pieces) climbs above the root if some prefix of it has more `..` than
names. -/
def Climbs (pieces : List (List Char)) : Prop :=
  ∃ k, ((pieces.take k).countP isName) < ((pieces.take k).countP isUp)

/-- Which names survive, decided from right to left: `up` is the number of `..` seen to the right
that have not been used up yet. The input is the *reversed* list of pieces and so is the output. -/
def survivorsRev : Nat → List (List Char) → List (List Char)
  | _, [] => []
  | up, s :: rest =>
    if isUp s then survivorsRev (up + 1) rest
    else if isName s then
      match up with
      | 0 => s :: survivorsRev 0 rest
      | up + 1 => survivorsRev up rest
    else survivorsRev up rest

/-- The names that remain when every `..` cancels the nearest preceding uncancelled name. -/
def resolve (pieces : List (List Char)) : List (List Char) :=
  (survivorsRev 0 pieces.reverse).reverse

/-- The pieces of a file-system path string between slashes. -/
def components : List Char → List (List Char)
  | [] => [[]]
  | c :: cs =>
    if c = '/' then [] :: components cs
    else (c :: (components cs).headD []) :: (components cs).tail

/-- The directories a file system visits when it resolves `pieces` from directory `dir` (given as
the list of names from the root): empty pieces and `.` stay, `..` goes to the parent (the root's
parent is the root), a name descends. -/
def visits (dir : List (List Char)) : List (List Char) → List (List (List Char))
  | [] => [dir]
  | s :: rest =>
    dir :: visits (if isUp s then dir.dropLast else if isName s then dir ++ [s] else dir) rest

/-- Pattern `p` matches path `q`: same number of segments, and at every position the pattern
segment starts with `:` or equals the path segment. -/
def Matches (p q : List (List Char)) : Prop :=
  p.length = q.length ∧
    ∀ (i : Nat) (a b : List Char), p[i]? = some a → q[i]? = some b → a.head? = some ':' ∨ a = b

/-- Name `n` is bound to `v` when pattern `p` is matched against `q`: `v` is the segment at the
last position at which the pattern has `:n`. -/
def Binds (p q : List (List Char)) (n v : List Char) : Prop :=
  ∃ i : Nat, p[i]? = some (':' :: n) ∧ q[i]? = some v ∧ ∀ j : Nat, i < j → p[j]? ≠ some (':' :: n)

/-- A pattern applies to a path. With the feature `url_variables` this is `Matches`; without it
segments starting with `:` never match and the others match only themselves. -/
def PatMatch (uv : Bool) (p q : List (List Char)) : Prop :=
  if uv then Matches p q else p = q ∧ ∀ s ∈ p, s.head? ≠ some ':'

/-- The map of bindings, built segment by segment (later positions overwrite earlier ones);
`C05_bindings` and `C11_own_variables` characterise it by `Binds`. -/
def bindStep (m : HMap Str Str) (a b : Str) : HMap Str Str :=
  match a with
  | ':' :: n => m.insert n b
  | _ => m

def bindings (p q : List Str) : HMap Str Str :=
  (p.zip q).foldl (fun m e => bindStep m e.1 e.2) []

end Octane.Spec
