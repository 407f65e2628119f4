import Verif.Spec.Wire
import Verif.Spec.Router
import Verif.Spec.RequestLine
/-
Specification of a whole connection: which request a byte stream contains and what the handlers are
given. Uses from the model only the types of requests and cookies.
-/
namespace Octane.Spec

/-- the parts of a request line: method token, path pieces between slashes, version. The third token
starts with five bytes (in faithful mode `HTTP/`) that are dropped; only in faithful mode is a fourth
token refused. The path does not climb above the root. -/
def LineParts (faithful : Bool) (line m : Str) (pieces : List Str) (ver : Str) : Prop :=
  ∃ (first : Str) (more : List Str),
    line = [' '].intercalate (m :: ['/'].intercalate pieces :: (first ++ ver) :: more) ∧
    (∀ t ∈ m :: ['/'].intercalate pieces :: (first ++ ver) :: more, ' ' ∉ t) ∧
    pieces ≠ [] ∧ (∀ x ∈ pieces, '/' ∉ x) ∧ ¬ Climbs pieces ∧ (utf8 first).length = 5 ∧
    (faithful = true → first = c!"HTTP/" ∧ more = [])

/-- the request at the beginning of a byte stream; `after` is everything behind its blank line -/
structure Asked where
  method : Str
  pieces : List Str
  version : Str
  headers : List (Str × Str)
  after : Bytes

/-- There is no head: no blank line, or what is before it is not text or has no CRLF. -/
def NoHead (bytes : Bytes) : Prop :=
  ¬ Occurs bytes blankLine ∨
    ∃ head rest, FirstSplit bytes blankLine head rest ∧ ∀ text, head = utf8 text → ¬ Occurs text crlf

/-- The stream starts with the request `q`, which declares a body of `n` bytes. -/
def Asked.In (faithful cookies : Bool) (bytes : Bytes) (q : Asked) (n : Nat) : Prop :=
  ∃ text line hdrs, FirstSplit bytes blankLine (utf8 text) q.after ∧ FirstSplit text crlf line hdrs ∧
    LineParts faithful line q.method q.pieces q.version ∧ BlockOk faithful hdrs q.headers ∧
    DeclaredLength (joined q.headers) n ∧ n ≤ q.after.length ∧
    (cookies = true → ∀ v, joined q.headers c!"cookie" = some v → CookieText v)

/-- what is made of one piece of a Cookie header: the text before the first `=` is the name, that up to
the next `;` the value, both without the white space around them -/
def CookieRead (piece : Str) (c : Cookie) : Prop :=
  ∃ name value tail, piece = name ++ '=' :: value ++ tail ∧ '=' ∉ name ∧ ';' ∉ name ∧ ';' ∉ value ∧
    (tail = [] ∨ ∃ t, tail = ';' :: t) ∧ Trimmed name c.name ∧ c.name ≠ [] ∧ Trimmed value c.value

/-- one cookie per piece, in order -/
def CookiesRead (v : Str) (cs : List Cookie) : Prop :=
  ∃ ps, Pieces c!"; " v ps ∧ ps.length = cs.length ∧
    ∀ (i : Nat) p c, ps[i]? = some p → cs[i]? = some c → CookieRead p c

/-- The request `req` is what handlers are to be given for `q`. The body is what C26 leaves of the
claim: nothing if none is declared, otherwise at least the declared bytes. -/
structure Asked.Given (q : Asked) (cookies : Bool) (n : Nat) (req : Request) : Prop where
  method : (q.method, req.requestLine.method) ∈ methodTable
  path : req.requestLine.path = resolve q.pieces
  version : (q.version, req.requestLine.version) ∈ versionTable ∨
    (∀ x, (q.version, x) ∉ versionTable) ∧ req.requestLine.version = .httpInvalid
  raw : req.headers.raw.map (fun h => (h.name, h.value)) = q.headers
  get : ∀ k, req.headers.get k = joined q.headers k
  body : (n = 0 ∧ req.body = []) ∨ (0 < n ∧ ∃ k, n ≤ k ∧ req.body = q.after.take k)
  noCookies : cookies = false ∨ joined q.headers c!"cookie" = none → req.cookies = []
  cookies : cookies = true → ∀ v, joined q.headers c!"cookie" = some v → CookiesRead v req.cookies

end Octane.Spec
