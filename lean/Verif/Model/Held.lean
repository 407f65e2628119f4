import Verif.Model.CostServe
/-
What the server keeps in memory for one request while its handlers run: the lengths of all the strings and byte
vectors that exist at that moment because of the request, and the pairs of references in the maps of variables.
Lengths, not capacities; the tables of the maps and vectors themselves, what handlers allocate, and the copies that
are dropped before (`temp` in `Request::from_raw`, the line in `Headers::parse`) are not counted.
-/
namespace Octane

/-- The strings a `RequestLine` owns (`src/request.rs:74-82`): the segments of its path. -/
def RequestLine.size (l : RequestLine) : Nat := (l.path.map fun c => (utf8 c).length).sum

/-- The strings a `Request` owns (`src/request.rs:259-270`), and so what `clone` copies: its request line and its
headers. `body` is a reference; so are the cookies, which refer to the text of the header `cookie`
(`src/cookie.rs:70-79`: `cookie::Cookie::parse` of a `&str`, external, keeps the reference). -/
def Request.size (req : Request) : Nat := req.requestLine.size + req.headers.size

/-- `src/request.rs:308-318`: the length of `body_vec` when the body has been read: nothing is copied if the body came
with the head. -/
def Request.bodyCopy (H : Headers) (bodyRemainder : Bytes) : Nat :=
  if bodyRemainder.length < contentLength H then contentLength H else 0

/-- `src/router.rs:262-284`: the pairs of references (`HashMap<&str, &str>`, `src/path.rs:151-156`) in the maps of
variables of all matches. -/
def Router.pairs (uv : Bool) (r : Router S) (rl : RequestLine) : Nat :=
  match Router.collectMatches uv r rl with
  | .ok mtch => (mtch.flatten.map fun m => m.vars.length).sum
  | .panic => 0

/-- `src/server.rs:167-196` and `src/router.rs:288-296`: what is kept when the first handler is called, if one can be:
`data`, the `headers` of `serve`, `body_vec`, and three requests: that of `serve`, its clone passed to `run`
(`src/server.rs:196`), and the clone of that in `matched` (`src/router.rs:288-296`), which all handlers share. -/
def Server.held (sv : Server W) (s : Sock) : Option Nat :=
  let h := readHeadC s
  match h.1 with
  | .ok (.head rawHeaders rawRequestLine bodyRemainder readerLeft) =>
    match (Headers.parse sv.feat.faithful rawHeaders).bind Res.unwrap,
        (RequestLine.parse sv.feat.faithful rawRequestLine).bind Res.unwrap with
    | .ok headers, .ok requestLine =>
      match Request.fromRaw sv.feat sv.allocOk headers requestLine bodyRemainder readerLeft with
      | .ok (some request) =>
        match Http.validate request with
        | .ok checker =>
          if checker.isMalformed then none
          else if request.requestLine.method.isSome then
            some (h.2.held + headers.size + Request.bodyCopy headers bodyRemainder + 3 * request.size)
          else none
        | .panic => none
      | _ => none
    | _, _ => none
  | _ => none

end Octane
