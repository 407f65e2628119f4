import Verif.Model.Cost
import Verif.Model.CostQuery
/-
What serving one request costs the server, apart from its handlers and from writing what they produced: the
steps of the remaining functions on the way from the first byte to the first handler (`Model/Cost.lean` has
reading the head, splitting and collecting headers, and routing), and their sum. Which steps are counted is said at
each; an operation on a hash map counts as one step with one for every byte of the key, and the collisions of the
hash are not modelled.
-/
namespace Octane
open Query (findC splitC)

/-- `src/path.rs:46-57`: one step for every piece, and one for every byte of it that is copied. -/
def Path.parseLoopC : PathBuf → List Str → Option PathBuf × Nat
  | chunks, [] => (some chunks, 0)
  | chunks, c :: cs =>
    let n := 1 + (if c = [] ∨ c = ['.'] ∨ c = ['.', '.'] then 0 else (utf8 c).length)
    match Path.parseStep chunks c with
    | none => (none, n)
    | some chunks' =>
      let r := Path.parseLoopC chunks' cs
      (r.1, n + r.2)

/-- `src/path.rs:44-59` `PathBuf::parse`, with the characters looked at while splitting. -/
def Path.parseC (path : Str) : Option PathBuf × Nat :=
  let r := Path.parseLoopC [] (splitChar '/' path)
  (r.1, splitC path + r.2)

/-- `src/request.rs:87-124` `RequestLine::parse`: the characters looked at while splitting, the steps of
`PathBuf::parse`, and the bytes of method and version that are compared with the known ones. -/
def RequestLine.parseC (faithful : Bool) (requestLine : Str) : Res (Option RequestLine) × Nat :=
  let n := splitC requestLine
  match splitChar ' ' requestLine with
  | [] => (.ok none, n)
  | _ :: [] => (.ok none, n)
  | method :: pathTok :: toks =>
    let p := Path.parseC pathTok
    match p.1 with
    | none => (.panic, n + p.2)
    | some path =>
      match toks with
      | [] => (.ok none, n + p.2)
      | version :: rest =>
        ((splitAtByte 5 version).bind fun (first, ver) =>
          if faithful ∧ (first ≠ c!"HTTP/" ∨ rest ≠ []) then .ok none
          else .ok (some { method := methodOf method, path, version := versionOf ver }),
        n + p.2 + (utf8 version).length + (utf8 method).length)

/-- `src/request.rs:144-163` `Header::parse`: the characters looked at to find `:`; with `faithful`, the characters
of the name looked up in `TOKEN_CHARS` and those of the value checked; the blanks looked for in front of the value; and
the bytes copied. -/
def Header.steps (faithful : Bool) (header : Str) : Nat :=
  findC ':' header +
    match splitN2 ':' header with
    | name :: v :: _ =>
      (if faithful then name.length + v.length else 0) + v.length + (utf8 name).length + (utf8 v).length
    | name :: [] => if faithful then name.length else 0
    | [] => 0

/-- `src/request.rs:211-222`: for every line one step, its bytes checked by `from_utf8` and copied, the steps of
`Header::parse`, and the bytes of the name put into small letters and hashed. (What is written into the map is counted
in `Headers.parseC`.) -/
def Headers.stepsLoop (faithful : Bool) : List Bytes → Nat
  | [] => 0
  | tok :: toks =>
    1 + 2 * tok.length +
      match fromUtf8 tok with
      | none => 0
      | some s =>
        Header.steps faithful s +
          match Header.parse faithful s with
          | none => 0
          | some h => 2 * (utf8 h.name).length + Headers.stepsLoop faithful toks

/-- `src/request.rs:206-230` `Headers::parse`: the steps of the loop. -/
def Headers.steps (faithful : Bool) (request : Str) : Nat :=
  match Spliterator.collect ((utf8 request).length + 2) (Spliterator.new (utf8 request) [13, 10]) with
  | .ok (some toks) => Headers.stepsLoop faithful toks
  | _ => 0

/-- `src/cookie.rs:73-77`: for every piece one step, and three for every character (`cookie::Cookie::parse`, external,
looks for `;`, looks for `=` and trims). -/
def Cookie.stepsLoop : List Str → Nat
  | [] => 0
  | tok :: toks =>
    1 + 3 * tok.length +
      match cookieRsParse tok with
      | none => 0
      | some _ => Cookie.stepsLoop toks

/-- `src/cookie.rs:70-79` `Cookie::parse`, with the characters looked at while splitting. -/
def Cookie.steps (header : Str) : Nat := splitC header + Cookie.stepsLoop (splitStr c!"; " header)

/-- the bytes of all header fields, in the map and in the list of lines -/
def Headers.size (H : Headers) : Nat :=
  (H.parsed.map fun e => (utf8 e.1).length + (utf8 e.2).length).sum +
    (H.raw.map fun h => (utf8 h.name).length + (utf8 h.value).length).sum

/-- `src/request.rs:275-295` `Request::parse`: the steps of parsing the cookies, and the bytes of the headers, which
are cloned. -/
def Request.parseSteps (feat : Features) (H : Headers) : Nat :=
  (if feat.cookies then
    match H.get c!"cookie" with
    | some v => 1 + Cookie.steps v
    | none => 1
  else 0) + H.size

/-- `src/request.rs:296-323` `Request::from_raw`: the bytes of the declared length, the bytes read from the connection
and, when the body is complete, the bytes copied into `body_vec` and the steps of `Request::parse`. The zero bytes of
`vec![0; n]` come from the allocator and are not counted; how many are asked for is C92. -/
def Request.rawSteps (feat : Features) (H : Headers) (bodyRemainder : Bytes) (reader : Sock) : Nat :=
  let n := contentLength H
  1 + ((H.get c!"content-length").getD []).length +
    if bodyRemainder.length < n then
      let got := min (n - bodyRemainder.length) reader.bytes.length
      got + if got = n - bodyRemainder.length then n + Request.parseSteps feat H else 0
    else Request.parseSteps feat H

/-- `src/request.rs:368-384`: for every piece one step, its characters looked at by `trim`, and the rest looked at by
`find` or by `parse`. -/
def KeepAlive.stepsLoop : List Str → Nat
  | [] => 0
  | tok :: toks => 1 + tok.length + (trim tok).length + KeepAlive.stepsLoop toks

/-- `src/request.rs:363-386` `KeepAlive::parse`, with the characters looked at while splitting. -/
def KeepAlive.steps (header : Str) : Nat := splitC header + KeepAlive.stepsLoop (splitChar ',' header)

/-- `src/http/mod.rs:24-36`, `src/http/http11.rs:4-15`, `src/http/http10.rs:5-19`: three lookups at most, the bytes of
`connection` that are compared, and the steps of `KeepAlive::parse`. -/
def Http.steps (req : Request) : Nat :=
  3 + ((req.headers.get c!"connection").getD []).length +
    match req.requestLine.version with
    | .http10 =>
      if req.headers.get c!"connection" = some c!"keep-alive" then
        KeepAlive.steps ((req.headers.get c!"keep-alive").getD [])
      else 0
    | _ => 0

namespace Server
variable {W : Type u}

/-- `src/server.rs:187-204`: the steps of checking the request and of finding its handlers. -/
def handleSteps (sv : Server W) (w : W) (req : Request) : Nat :=
  Http.steps req +
    match Http.validate req with
    | .panic => 0
    | .ok checker =>
      if checker.isMalformed then 0
      else if req.requestLine.method.isSome then
        let c := (Router.runC sv.feat.urlVariables sv.router req (w, Response.newEmpty)).2
        c.visited + c.scanned
      else 0

/-- `src/server.rs:167-212` `Octane::serve`: all steps, without those of the handlers and of writing the answer. -/
def serveSteps (sv : Server W) (w : W) (s : Sock) : Nat :=
  let h := readHeadC s
  h.2.compared + h.2.reads +
    match h.1 with
    | .ok (.head rawHeaders rawRequestLine bodyRemainder readerLeft) =>
      let p := Headers.parseC sv.feat.faithful rawHeaders
      p.2.compared + p.2.written + Headers.steps sv.feat.faithful rawHeaders +
        match p.1.bind Res.unwrap with
        | .panic => 0
        | .ok headers =>
          let l := RequestLine.parseC sv.feat.faithful rawRequestLine
          l.2 +
            match l.1.bind Res.unwrap with
            | .panic => 0
            | .ok requestLine =>
              Request.rawSteps sv.feat headers bodyRemainder readerLeft +
                match Request.fromRaw sv.feat sv.allocOk headers requestLine bodyRemainder readerLeft with
                | .ok (some request) => sv.handleSteps w request
                | _ => 0
    | _ => 0

end Server
end Octane
