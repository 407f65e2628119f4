import Verif.Model.Basic
/-
Specification of markup, as far as the error page uses it: tags in angle brackets and text between them.
Uses from the model only the type `Str`.
-/
namespace Octane.Spec

/-- a tag (what is between the angle brackets) or a text -/
inductive Piece where
  | tag (t : Str)
  | text (t : Str)
  deriving DecidableEq

def Piece.written : Piece → Str
  | .tag t => '<' :: t ++ ['>']
  | .text t => t

/-- what is between the tags, and the tags -/
def texts : List Piece → List Str
  | [] => []
  | .text t :: ps => t :: texts ps
  | .tag _ :: ps => texts ps
def tags : List Piece → List Str
  | [] => []
  | .tag t :: ps => t :: tags ps
  | .text _ :: ps => tags ps

/-- `page` is made of these pieces: no angle brackets inside of a piece, no empty text. -/
def Markup (page : Str) (pieces : List Piece) : Prop :=
  page = pieces.flatMap Piece.written ∧
    (∀ t, .tag t ∈ pieces ∨ .text t ∈ pieces → '<' ∉ t ∧ '>' ∉ t) ∧ ∀ t, .text t ∈ pieces → t ≠ []

/-- the name of a tag: up to the first blank -/
def tagName (t : Str) : Str := t.takeWhile (· != ' ')

/-- Every opened element is closed, the innermost one first; `open_` are the names of the elements not yet closed.
A declaration (`!`) and `hr`, which has no content, are not elements to be closed. -/
inductive TagsMatch : List Str → List Str → Prop
  | nil : TagsMatch [] []
  | alone {t ts open_} : t.head? = some '!' ∨ tagName t = c!"hr" → TagsMatch open_ ts → TagsMatch open_ (t :: ts)
  | begin {t ts open_} : t.head? ≠ some '!' → tagName t ≠ c!"hr" → t.head? ≠ some '/' →
      TagsMatch (tagName t :: open_) ts → TagsMatch open_ (t :: ts)
  | close {n ts open_} : TagsMatch open_ ts → TagsMatch (n :: open_) (('/' :: n) :: ts)

end Octane.Spec
