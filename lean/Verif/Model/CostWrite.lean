import Verif.Model.Held
/-
What C121 leaves out of the work for one request: copying the request for the handlers, copying the variables of each
handler that is called, forming the answer and writing it; and the whole of `Octane::serve` with all steps counted.
A step is a byte copied or written, a call of `poll_read`, or what `Model/CostServe.lean` counts. Not counted: the
handlers, sorting the matches (`sort_by_key`, external), the growing of buffers, the collisions of hashes, and the date.
-/
namespace Octane

/-- `format!` of these parts: the bytes of the result are written. -/
def formatC (parts : List Str) : Str × Nat := (parts.flatten, (utf8 parts.flatten).length)

/-- `String::push_str` of a text that has been made: its bytes are copied. -/
def pushC (buf text : Str × Nat) : Str × Nat := (buf.1 ++ text.1, buf.2 + text.2 + (utf8 text.1).length)

namespace Response

/-- `src/responder.rs:478-495` `status_line` with `reason_phrase`: the bytes of `to_string`, of `to_uppercase` and of
`format!`. -/
def statusLineC (U : Unicode) (r : Response) : Str × Nat :=
  let phrase := U.upperStr r.statusCode.toStr
  let line := formatC [c!"HTTP", c!"/", r.httpVersion, [' '], showInt r.statusCode.code, [' '], phrase, c!"\r\n"]
  (line.1, (utf8 r.statusCode.toStr).length + (utf8 phrase).length + line.2)

/-- `src/cookie.rs:82-84` `serialise`: the bytes of `to_string` and of `format!`. -/
def serialiseC (c : Cookie) : Str × Nat :=
  let line := formatC [c!"Set-Cookie:", [' '], c.toStr]
  (line.1, (utf8 c.toStr).length + line.2)

/-- `src/responder.rs:499-501`: the loop over the headers. -/
def headerLoopC : List (Str × Str) → Str × Nat → Str × Nat
  | [], buf => buf
  | d :: ds, buf => headerLoopC ds (pushC buf (formatC [d.1, c!":", [' '], d.2, c!"\r\n"]))

/-- `src/responder.rs:504-511`: the cookies; `join` copies every byte of its result once, and looks at every line once
to find the length of that. -/
def cookieLinesC (cs : List Cookie) : Str × Nat :=
  let lines := cs.map serialiseC
  let text := join c!"\r\n" (lines.map Prod.fst)
  (text, (lines.map fun l => l.2 + 1).sum + (utf8 text).length)

/-- `src/responder.rs:496-513` `headers`. -/
def headersStrC (cookies : Bool) (ord : MapOrder) (r : Response) : Str × Nat :=
  let buf := headerLoopC (ord.enum r.headers) ([], 0)
  if cookies then pushC buf (cookieLinesC r.cookies) else buf

/-- `src/responder.rs:193-198` `get_data`. -/
def getDataC (U : Unicode) (cookies : Bool) (ord : MapOrder) (r : Response) : (Str × Reader) × Nat :=
  let line := r.statusLineC U
  let headers := r.headersStrC cookies ord
  let head := formatC [line.1, headers.1, c!"\r\n"]
  ((head.1, r.body.getReader), line.2 + headers.2 + head.2)

end Response

/-- `Reader.pollRead` with the bytes put into the buffer, whether it marks them as filled or not. -/
def Reader.pollC (cap : Nat) : Reader → Nat
  | .cursor rest => (rest.take cap).length
  | .file none => 0
  | .file (some rest) => (rest.take cap).length

/-- `copyLoop`: for every read one step and the bytes put into the buffer, and the bytes written. -/
def copyLoopC : Nat → Reader → (Bytes × Bool) × Nat
  | 0, _ => (([], true), 0)
  | fuel + 1, r =>
    let n := 1 + r.pollC 2048
    match r.pollRead 2048 with
    | none => (([], false), n)
    | some (b, r') =>
      if b = [] then (([], true), n)
      else
        let next := copyLoopC fuel r'
        ((b ++ next.1.1, next.1.2), n + b.length + next.2)

/-- `src/server.rs:213-223` `Octane::send`. -/
def sendDataC (d : Str × Reader) : Bytes × Nat :=
  let c := copyLoopC (d.2.size + 1) d.2
  (utf8 d.1 ++ c.1.1, (utf8 d.1).length + c.2)

/-- `src/server.rs:201`: forming and writing an answer. -/
def Response.outC (U : Unicode) (cookies : Bool) (ord : MapOrder) (r : Response) : Bytes × Nat :=
  let d := r.getDataC U cookies ord
  let b := sendDataC d.1
  (b.1, d.2 + b.2)

/-- `src/error.rs:41-61`: the page is copied, its headers are copied into the map, and it is formed and written. -/
def errorPageC (U : Unicode) (cookies : Bool) (ord : MapOrder) (clock : Int) (kind : StatusCode) : Res Bytes × Nat :=
  let n := (utf8 notFoundPage).length
  match ((Response.newFromSlice (utf8 notFoundPage)).status kind).defaultHeaders U clock with
  | .panic => (.panic, n)
  | .ok res =>
    let page := res.set c!"Content-Type" c!"text/html"
    let out := page.outC U cookies ord
    (.ok out.1, n + (page.headers.map fun h => (utf8 h.1).length + (utf8 h.2).length).sum + out.2)

namespace Router

/-- `src/router.rs:297-315`: the dispatch loop, counting the lists looked at (as `dispatchC`) and the variables copied
(`:306-309`) for every handler that is called. -/
def dispatchV (req : Request) (mtch : List (List (MatchedPath (Closures S)))) : Nat → List Nat → S → Res S × Nat
  | 0, _, s => (.ok s, 0)
  | k + 1, indices, s =>
    let zs := mtch.zip indices
    let minind := (scanMin zs 0 (0, u64Max)).1
    match mtch[minind]?, indices[minind]? with
    | some v, some i =>
      match v[i]? with
      | some x =>
        let n := zs.length + x.vars.length
        match x.data.closure { request := req, vars := x.vars } s with
        | .panic => (.panic, n)
        | .ok (s', flow) =>
          if flow.shouldContinue then
            let r := dispatchV req mtch k (indices.set minind (i + 1)) s'
            (r.1, n + r.2)
          else (.ok s', n)
      | none => (.panic, zs.length)
    | _, _ => (.panic, zs.length)

/-- `src/router.rs:259-316` `Router::run`: the nodes visited, the copy of the request in `matched` (`:288-296`), and the
loop. -/
def runV (uv : Bool) (r : Router S) (req : Request) (s : S) : Res S × Nat :=
  let visited := methodVisits uv r req.requestLine.method req.requestLine.path +
    methodVisits uv r .all req.requestLine.path
  match collectMatches uv r req.requestLine with
  | .panic => (.panic, visited)
  | .ok mtch =>
    let d := dispatchV req mtch (mtch.map List.length).sum (List.replicate mtch.length 0) s
    (d.1, visited + req.size + d.2)

end Router

namespace Server

/-- `declare_error!` (`src/error.rs:33-39`). -/
def declareErrorC (sv : Server W) (w : W) (kind : StatusCode) : Res (W × Bytes) × Nat :=
  let p := errorPageC sv.U sv.feat.cookies sv.ord (sv.clock w) kind
  (p.1.bind fun bs => .ok (w, bs), p.2)

/-- `src/server.rs:187-207`: with the copy of the request (`:196`). -/
def handleC (sv : Server W) (w : W) (req : Request) : Res (W × Bytes) × Nat :=
  let n := Http.steps req
  match Http.validate req with
  | .panic => (.panic, n)
  | .ok checker =>
    if checker.isMalformed then
      match Res.unwrap checker.errCode with
      | .panic => (.panic, n)
      | .ok code =>
        let e := sv.declareErrorC w code
        (e.1, n + e.2)
    else if req.requestLine.method.isSome then
      let r := Router.runV sv.feat.urlVariables sv.router req (w, Response.newEmpty)
      match r.1 with
      | .panic => (.panic, n + req.size + r.2)
      | .ok (w', res) =>
        if !res.hasBody then
          let e := sv.declareErrorC w' .notFound
          (e.1, n + req.size + r.2 + e.2)
        else
          let out := res.outC sv.U sv.feat.cookies sv.ord
          (.ok (w', out.1), n + req.size + r.2 + out.2)
    else
      let e := sv.declareErrorC w .notImplemented
      (e.1, n + e.2)

/-- `src/server.rs:167-212` `Octane::serve`, with all steps. -/
def serveC (sv : Server W) (w : W) (s : Sock) : Io (W × Bytes) × Nat :=
  let h := readHeadC s
  let n := h.2.compared + h.2.reads
  match h.1 with
  | .panic => (.panic, n)
  | .pending => (.pending, n)
  | .abort => (.abort, n)
  | .ok .badRequest =>
    let e := sv.declareErrorC w .badRequest
    (Io.ofRes e.1, n + e.2)
  | .ok (.head rawHeaders rawRequestLine bodyRemainder readerLeft) =>
    let p := Headers.parseC sv.feat.faithful rawHeaders
    let n := n + (p.2.compared + p.2.written + Headers.steps sv.feat.faithful rawHeaders)
    match p.1.bind Res.unwrap with
    | .panic => (.panic, n)
    | .ok headers =>
      let l := RequestLine.parseC sv.feat.faithful rawRequestLine
      let n := n + l.2
      match l.1.bind Res.unwrap with
      | .panic => (.panic, n)
      | .ok requestLine =>
        let n := n + Request.rawSteps sv.feat headers bodyRemainder readerLeft
        match Request.fromRaw sv.feat sv.allocOk headers requestLine bodyRemainder readerLeft with
        | .panic => (.panic, n)
        | .pending => (.pending, n)
        | .abort => (.abort, n)
        | .ok (some request) =>
          let r := sv.handleC w request
          (Io.ofRes r.1, n + r.2)
        | .ok none =>
          let e := sv.declareErrorC w .badRequest
          (Io.ofRes e.1, n + e.2)

end Server
end Octane
