import Verif.Spec.Http
import Verif.Spec.Path
/-
Specification of requests as a client writes them. Independent of the model (only its basic types).
-/
namespace Octane.Spec

/-- one cookie in a Cookie header: `name=value` -/
def cookiePair (nv : Str × Str) : Str := nv.1 ++ '=' :: nv.2

/-- a cookie that can be written in a Cookie header: no separator inside, no white space around -/
def GoodCookie (nv : Str × Str) : Prop :=
  nv.1 ≠ [] ∧ '=' ∉ nv.1 ∧ ';' ∉ nv.1 ∧ ';' ∉ nv.2 ∧ Trimmed nv.1 nv.1 ∧ Trimmed nv.2 nv.2

/-- a piece of a Cookie header that can be understood: before any `;` there is an `=`, and before the
first `=` something that is not white space -/
def CookiePiece (t : Str) : Prop :=
  ∃ name rest, t = name ++ '=' :: rest ∧ '=' ∉ name ∧ ';' ∉ name ∧ ∃ c ∈ name, c ∉ whiteSpace

/-- `s` cut at every occurrence of `sep` -/
def Pieces (sep s : Str) (ps : List Str) : Prop :=
  ps ≠ [] ∧ s = sep.intercalate ps ∧ ∀ p ∈ ps, ¬ Occurs p sep

/-- every piece between `"; "` can be understood -/
def CookieText (v : Str) : Prop := ∀ ps, Pieces c!"; " v ps → ∀ p ∈ ps, CookiePiece p

/-- A request as a client writes it; the path is given by its pieces between slashes. -/
structure WireReq where
  method : Str
  pieces : List Str
  version : Str
  headers : List (Str × Str)
  body : Bytes

/-- the request line -/
def WireReq.line (q : WireReq) : Str :=
  q.method ++ c!" " ++ ['/'].intercalate q.pieces ++ c!" HTTP/" ++ q.version

/-- a header line -/
def wireHeader (h : Str × Str) : Str := h.1 ++ c!": " ++ h.2

/-- the bytes of the request -/
def WireReq.bytes (q : WireReq) : Bytes :=
  utf8 (crlf.intercalate (q.line :: q.headers.map wireHeader)) ++ blankLine ++ q.body

/-- The request is well formed: no separators inside the parts of the request line, a path that does
not climb above the root, at least one header, token names and clean values, the declared length is
that of the body. -/
structure WireReq.Framed (q : WireReq) : Prop where
  method : ' ' ∉ q.method ∧ '\r' ∉ q.method
  pieces : q.pieces ≠ [] ∧ ∀ p ∈ q.pieces, ' ' ∉ p ∧ '/' ∉ p ∧ '\r' ∉ p
  inside : ¬ Climbs q.pieces
  version : ' ' ∉ q.version ∧ '\r' ∉ q.version
  headers : q.headers ≠ [] ∧ ∀ h ∈ q.headers, h.1 ≠ [] ∧ (∀ c ∈ h.1, isTchar c) ∧
    (∀ c ∈ h.2, ¬ isRefusedControl c) ∧ ∀ c, h.2.head? = some c → ¬ isBlank c
  length : DeclaredLength (joined q.headers) q.body.length

/-- Well formed, with an understandable Cookie header if there is one. -/
structure WireReq.Good (q : WireReq) : Prop extends q.Framed where
  cookies : ∀ v, joined q.headers c!"cookie" = some v → CookieText v

/-- a request line the server accepts: three tokens separated by spaces, a path that does not climb
above the root, a third token that can be cut after five bytes; in faithful mode those five are
`HTTP/` and there is no further token -/
def LineOk (faithful : Bool) (line : Str) : Prop :=
  ∃ (m : Str) (pieces : List Str) (first ver : Str) (more : List Str),
    line = [' '].intercalate (m :: ['/'].intercalate pieces :: (first ++ ver) :: more) ∧
    (∀ t ∈ m :: ['/'].intercalate pieces :: (first ++ ver) :: more, ' ' ∉ t) ∧
    pieces ≠ [] ∧ (∀ x ∈ pieces, '/' ∉ x) ∧ ¬ Climbs pieces ∧ (utf8 first).length = 5 ∧
    (faithful = true → first = c!"HTTP/" ∧ more = [])

/-- a header block: one header per CRLF-separated line -/
def BlockOk (faithful : Bool) (block : Str) (hs : List (Str × Str)) : Prop :=
  ∃ lines : List Str, lines ≠ [] ∧ block = crlf.intercalate lines ∧ (∀ l ∈ lines, ¬ Occurs l crlf) ∧
    hs.length = lines.length ∧ ∀ (i : Nat) line n v, lines[i]? = some line → hs[i]? = some (n, v) →
      HeaderLine faithful line n v

/-- the requests that are answered: there is no head at all (no blank line); or the head is not text
or has no CRLF in it; or every header line, the request line and the cookies can be understood and
the whole declared body is there -/
def Answerable (faithful cookies : Bool) (bytes : Bytes) : Prop :=
  ¬ Occurs bytes blankLine ∨
  ∃ head rest, FirstSplit bytes blankLine head rest ∧
    ((∀ text, head = utf8 text → ¬ Occurs text crlf) ∨
     ∃ text line hdrs hs n, head = utf8 text ∧ FirstSplit text crlf line hdrs ∧
      BlockOk faithful hdrs hs ∧ LineOk faithful line ∧ DeclaredLength (joined hs) n ∧
      n ≤ rest.length ∧
      (cookies = true → ∀ v, joined hs c!"cookie" = some v → CookieText v))

end Octane.Spec
