import Verif.Spec.Http
/-
Specification of what a client makes of the bytes it receives. Independent of the model.
-/
namespace Octane.Spec

/-- what a client reads off a response -/
structure ClientView where
  version : Str
  code : Str
  reason : Str
  headers : List (Str × Str)
  body : Bytes

/-- header lines, one by one: name, colon, optional blanks, value -/
inductive HeaderLines : List Str → List (Str × Str) → Prop
  | nil : HeaderLines [] []
  | cons {l n v ls hs} : HeaderLine false l n v → HeaderLines ls hs → HeaderLines (l :: ls) ((n, v) :: hs)

/-- `HTTP/<version> <code> <reason>` -/
def StatusLine (line version code reason : Str) : Prop :=
  line = c!"HTTP/" ++ version ++ ' ' :: code ++ ' ' :: reason ∧ ' ' ∉ version ∧ ' ' ∉ code

/-- The client's reading of a byte stream: everything up to the first blank line is the head, text
of lines separated by CRLF, the first of which is the status line and the others header lines;
everything after the blank line is the body. -/
def ClientParses (bytes : Bytes) (v : ClientView) : Prop :=
  ∃ sl lines, FirstSplit bytes blankLine (utf8 (crlf.intercalate (sl :: lines))) v.body ∧
    (∀ l ∈ sl :: lines, ¬ Occurs l crlf) ∧ StatusLine sl v.version v.code v.reason ∧
    HeaderLines lines v.headers

end Octane.Spec
