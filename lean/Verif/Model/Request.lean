import Verif.Model.Path
import Verif.Model.Util
import Verif.Model.Query
import Verif.Model.Http1x
/-
Model of `src/request.rs`, `src/cookie.rs` and `octane_http/src/lib.rs:26-51`.
-/
namespace Octane

/-- The cargo features that change the behaviour modelled here (`Cargo.toml:30-41`).
`raw_headers` only decides whether `Headers.raw` is kept; the model always keeps it. -/
structure Features where
  faithful : Bool
  urlVariables : Bool
  cookies : Bool
  deriving DecidableEq

/-- `Cargo.toml:31`: the default feature set. -/
def Features.default : Features := { faithful := true, urlVariables := true, cookies := true }

/-- `octane_http/src/lib.rs:26-38` `enum HttpVersion`. -/
inductive HttpVersion where
  | http11 | http10 | http02 | http09 | httpInvalid
  deriving DecidableEq

/-- `octane_http/src/lib.rs:40-51` `HttpVersion::to_string`. -/
def HttpVersion.toStr : HttpVersion → Str
  | .http11 => c!"1.1"
  | .http10 => c!"1.0"
  | .http09 => c!"0.9"
  | .http02 => c!"0.2"
  | .httpInvalid => c!""

/-- `src/request.rs:24-47` `enum RequestMethod`. -/
inductive RequestMethod where
  | options | get | head | post | put | delete | trace | connect | patch | all | none
  deriving DecidableEq

/-- `src/request.rs:51-53` `RequestMethod::is_some`. -/
def RequestMethod.isSome : RequestMethod → Bool
  | .none => false
  | _ => true

/-- `src/request.rs:75-82` `struct RequestLine`. -/
structure RequestLine where
  method : RequestMethod
  path : PathBuf
  version : HttpVersion
  deriving DecidableEq

/-- `src/request.rs:96-102`. -/
def versionOf (ver : Str) : HttpVersion :=
  if ver = c!"1.1" then .http11
  else if ver = c!"1.0" then .http10
  else if ver = c!"2.0" then .http02
  else if ver = c!"0.9" then .http09
  else .httpInvalid

/-- `src/request.rs:107-118`. -/
def methodOf (method : Str) : RequestMethod :=
  if method = c!"POST" then .post
  else if method = c!"GET" then .get
  else if method = c!"DELETE" then .delete
  else if method = c!"PUT" then .put
  else if method = c!"OPTIONS" then .options
  else if method = c!"HEAD" then .head
  else if method = c!"TRACE" then .trace
  else if method = c!"CONNECT" then .connect
  else if method = c!"PATCH" then .patch
  else .none

/-- `src/request.rs:87-124` `RequestLine::parse`. The panics are the explicit one on an invalid
path (`:92`) and `split_at(5)` on a version token shorter than 5 bytes or not splittable there
(`:95`). -/
def RequestLine.parse (faithful : Bool) (requestLine : Str) : Res (Option RequestLine) :=
  match splitChar ' ' requestLine with
  | [] => .ok none
  | _ :: [] => .ok none
  | method :: pathTok :: toks =>
    match Path.parse pathTok with
    | none => .panic
    | some path =>
      match toks with
      | [] => .ok none
      | version :: rest =>
        (splitAtByte 5 version).bind fun (first, ver) =>
          if faithful ∧ (first ≠ c!"HTTP/" ∨ rest ≠ []) then .ok none
          else .ok (some { method := methodOf method, path, version := versionOf ver })

/-- `src/constants.rs:25-27` `TOKEN_CHARS`. -/
def tokenChars : List Char :=
  c!"!#$%&'*+-.0123456789ABCDEFGHIJKLMNOPQRSTUVWXYZ^_`abcdefghijklmnopqrstuvwxyz|~"

/-- `src/request.rs:136-139` `struct Header`. -/
structure Header where
  name : Str
  value : Str
  deriving DecidableEq

/-- `src/request.rs:144-163` `Header::parse`. -/
def Header.parse (faithful : Bool) (header : Str) : Option Header :=
  match splitN2 ':' header with
  | [] => none
  | name :: toks =>
    if name = [] then none
    else if faithful && !(name.all fun c => tokenChars.contains c) then none
    else match toks with
      | [] => none
      | v :: _ =>
        let value := v.dropWhile fun c => c == ' ' || c == '\t'
        if faithful && value.any Path.isCtl then none
        else some { name, value }

/-- `src/request.rs:194-202` `struct Headers`. -/
structure Headers where
  parsed : HMap Str Str
  raw : List Header
  deriving DecidableEq

/-- `Headers` derefs to its `parsed` map (`src/request.rs:447`). -/
def Headers.get (h : Headers) (k : Str) : Option Str := HMap.get h.parsed k

/-- `src/request.rs:216-219`: `entry(..).and_modify(..).or_insert_with(..)`. -/
def Headers.addParsed (m : HMap Str Str) (h : Header) : HMap Str Str :=
  let key := asciiLower h.name
  match HMap.get m key with
  | some v => m.insert key (v ++ c!", " ++ h.value)
  | none => m.insert key h.value

/-- `src/request.rs:211-222`: the loop of `Headers::parse` over the pieces. -/
def Headers.parseLoop (faithful : Bool) : List Bytes → Headers → Option Headers
  | [], acc => some acc
  | tok :: toks, acc =>
    match fromUtf8 tok with
    | none => none
    | some s =>
      match Header.parse faithful s with
      | none => none
      | some h =>
        Headers.parseLoop faithful toks
          { parsed := Headers.addParsed acc.parsed h, raw := acc.raw ++ [h] }

/-- `src/request.rs:206-230` `Headers::parse`: the `Spliterator` over the bytes with separator
CRLF. `length + 2` calls of `next` suffice (proved); more would be reported as a panic. -/
def Headers.parse (faithful : Bool) (request : Str) : Res (Option Headers) :=
  let bytes := utf8 request
  (Spliterator.collect (bytes.length + 2) (Spliterator.new bytes [13, 10])).bind fun
    | none => .panic
    | some toks => .ok (Headers.parseLoop faithful toks { parsed := [], raw := [] })

/-- `src/cookie.rs:30-32` `struct Cookie`, wrapping `cookie::Cookie`. Simplification: of the
wrapped type the name, the value, and the attributes as already rendered text are kept. -/
structure Cookie where
  name : Str
  value : Str
  attrs : List Str
  deriving DecidableEq

/-- `cookie` crate 0.14 `Cookie::parse` (external, `parse_inner` without decoding): the part
before the first `;` must contain `=` with a non-blank name before it. Simplification: the
attribute parts are kept as text instead of being interpreted. `none` models `Err(_)`. -/
def cookieRsParse (s : Str) : Option Cookie :=
  match splitChar ';' s with
  | [] => none
  | kv :: attrs =>
    match splitN2 '=' kv with
    | name :: value :: _ =>
      if trim name = [] then none
      else some { name := trim name, value := trim value, attrs := attrs.map trim }
    | _ => none

/-- `src/cookie.rs:70-79` `Cookie::parse`: `CookieRs::parse(tok).unwrap()` for each piece. -/
def Cookie.parseAll : List Str → Res (List Cookie)
  | [] => .ok []
  | tok :: toks =>
    (Res.unwrap (cookieRsParse tok)).bind fun c =>
      (Cookie.parseAll toks).bind fun cs => .ok (c :: cs)

def Cookie.parse (header : Str) : Res (List Cookie) := Cookie.parseAll (splitStr c!"; " header)

/-- `cookie` crate `Display for Cookie` (external): `name=value` and then each attribute after
`"; "`. -/
def Cookie.toStr (c : Cookie) : Str :=
  c.name ++ c!"=" ++ c.value ++ c.attrs.flatMap fun a => c!"; " ++ a

/-- `src/cookie.rs:82-84` `Cookie::serialise`. -/
def Cookie.serialise (c : Cookie) : Str := c!"Set-Cookie:" ++ [' '] ++ c.toStr

/-- `src/request.rs:259-270` `struct Request`. -/
structure Request where
  requestLine : RequestLine
  headers : Headers
  body : Bytes
  cookies : List Cookie
  deriving DecidableEq

/-- `src/request.rs:275-295` `Request::parse`: always `Some`, but the cookie parser may panic. -/
def Request.parse (feat : Features) (rl : RequestLine) (headers : Headers) (body : Bytes) :
    Res (Option Request) :=
  (if feat.cookies then
    match headers.get c!"cookie" with
    | some v => Cookie.parse v
    | none => .ok []
  else .ok []).bind fun cookies =>
    .ok (some { requestLine := rl, headers, body, cookies })

/-- `src/request.rs:304-307`. -/
def contentLength (headers : Headers) : Nat :=
  ((headers.get c!"content-length").bind parseU64).getD 0

/-- `src/request.rs:296-323` `Request::from_raw`. `allocOk n` says whether allocating `n` bytes
succeeds; a failed allocation aborts the process, and asking for more than `isize::MAX` bytes
panics. -/
def Request.fromRaw (feat : Features) (allocOk : Nat → Bool) (headers : Headers)
    (rl : RequestLine) (bodyRemainder : Bytes) (reader : Sock) : Io (Option Request) :=
  let bodyLen := contentLength headers
  (if bodyLen > 0 then
    if bodyRemainder.length < bodyLen then
      let n := bodyLen - bodyRemainder.length
      if n > i64Max then Io.panic
      else if !allocOk n then Io.abort
      else
        (readExact n reader).bind fun
          | none => .panic -- `.ok().unwrap()`
          | some (temp, _) =>
            -- `Vec::with_capacity(body_len)`
            if bodyLen > i64Max then .panic
            else if !allocOk bodyLen then .abort
            else .ok (bodyRemainder ++ temp)
    else .ok bodyRemainder
  else .ok []).bind fun body => Io.ofRes (Request.parse feat rl headers body)

/-- `src/request.rs:338-340` `Request::get_query`. -/
def Request.getQuery (feat : Features) (r : Request) : Res (HMap Str Str) :=
  Query.parseQuery feat.faithful (Path.display r.requestLine.path)

/-- `src/request.rs:345-347` `Request::get_extended_query`. -/
def Request.getExtendedQuery (feat : Features) (r : Request) : Res (HMap Str Query.QueryValue) :=
  Query.parseExtendedQuery feat.faithful (Path.display r.requestLine.path)

/-- `src/request.rs:354-357` `struct KeepAlive`. -/
structure KeepAlive where
  timeout : Option Nat
  max : Option Nat
  deriving DecidableEq

/-- `src/request.rs:368-384`: the loop body of `KeepAlive::parse`. -/
def KeepAlive.step (ret : KeepAlive) (tok : Str) : Res KeepAlive :=
  let trimmed := trim tok
  match findChar '=' trimmed with
  | none => .ok ret
  | some eqInd =>
    (splitAtByte eqInd trimmed).bind fun (name, valStr) =>
      (sliceFrom 1 valStr).bind fun v =>
        match parseU64 v with
        | none => .ok ret
        | some val =>
          if name = c!"timeout" then .ok { ret with timeout := some val }
          else if name = c!"max" then .ok { ret with max := some val }
          else .ok ret

def KeepAlive.loop : List Str → KeepAlive → Res KeepAlive
  | [], ret => .ok ret
  | tok :: toks, ret => (KeepAlive.step ret tok).bind (KeepAlive.loop toks)

/-- `src/request.rs:363-386` `KeepAlive::parse`. -/
def KeepAlive.parse (header : Str) : Res KeepAlive :=
  KeepAlive.loop (splitChar ',' header) { timeout := none, max := none }

/-- `src/request.rs:423-444` `struct MatchedRequest`. -/
structure MatchedRequest where
  request : Request
  vars : HMap Str Str
  deriving DecidableEq

end Octane
