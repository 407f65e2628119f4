import Verif.Model.Router
import Verif.Model.Response
/-
Model of `src/http/mod.rs`, `src/http/http10.rs`, `src/http/http11.rs` and of
`src/server.rs:167-212` (`Octane::serve`).
-/
namespace Octane

/-- `src/http/mod.rs:11-15` `enum KeepAliveState`; the duration in seconds. -/
inductive KeepAliveState where
  | close
  | userDefined
  | particular (secs : Nat)
  deriving DecidableEq

/-- `src/http/mod.rs:17-21` `struct Http` (without the reference to the request). -/
structure Http where
  errCode : Option StatusCode
  keepAlive : KeepAliveState
  deriving DecidableEq

namespace Http

/-- `src/http/http11.rs:4-15` `http11_check`. -/
def http11Check (req : Request) (v : Http) : Http :=
  let v1 := if (req.headers.get c!"host").isNone then { v with errCode := some .badRequest } else v
  match req.headers.get c!"connection" with
  | some t =>
    if t = c!"keep-alive" then { v1 with keepAlive := .userDefined }
    else if t = c!"close" then { v1 with keepAlive := .close }
    else v1
  | none => v1

/-- `src/http/http10.rs:5-19` `http10_check`. -/
def http10Check (req : Request) (v : Http) : Res Http :=
  match req.headers.get c!"connection" with
  | some t =>
    if t = c!"keep-alive" then
      match req.headers.get c!"keep-alive" with
      | some h => (KeepAlive.parse h).bind fun ka =>
          .ok { v with keepAlive := .particular (ka.timeout.getD 0) }
      | none => .ok v
    else if t = c!"close" then .ok { v with keepAlive := .close }
    else .ok v
  | none => .ok v

/-- `src/http/mod.rs:24-36` `Http::validate`. -/
def validate (req : Request) : Res Http :=
  let handler : Http := { errCode := none, keepAlive := .close }
  match req.requestLine.version with
  | .http11 => .ok (http11Check req handler)
  | .http10 => http10Check req handler
  | _ => .ok handler

/-- `src/http/mod.rs:43-45` `is_malformed`. -/
def isMalformed (v : Http) : Bool := v.errCode.isSome

/-- `src/http/mod.rs:46-49` `keep_alive` (never called). -/
def isKeepAlive (v : Http) : Bool := !decide (v.keepAlive = .close)

end Http

/-- Everything `serve` depends on besides the connection: the cargo features, the allocator, the
Unicode tables, the enumeration order of response header maps, the clock, and the router. `W` is
whatever the handlers can read and change besides the response; the clock is read from it. -/
structure Server (W : Type u) where
  feat : Features
  allocOk : Nat → Bool
  U : Unicode
  ord : MapOrder
  clock : W → Int
  router : Router (W × Response)

namespace Server
variable {W : Type u}

/-- `declare_error!` (`src/error.rs:34-39`): write the error page; nothing else happens. -/
def declareError (sv : Server W) (w : W) (kind : StatusCode) : Res (W × Bytes) :=
  (errorPage sv.U sv.feat.cookies sv.ord (sv.clock w) kind).bind fun bs => .ok (w, bs)

/-- `src/server.rs:187-204`: what is done with a request. -/
def handle (sv : Server W) (w : W) (req : Request) : Res (W × Bytes) :=
  (Http.validate req).bind fun checker =>
    if checker.isMalformed then
      (Res.unwrap checker.errCode).bind fun code => sv.declareError w code
    else if req.requestLine.method.isSome then
      (Router.run sv.feat.urlVariables sv.router req (w, Response.newEmpty)).bind fun (w', res) =>
        if !res.hasBody then sv.declareError w' .notFound
        else .ok (w', sendData (res.getData sv.U sv.feat.cookies sv.ord))
    else sv.declareError w .notImplemented

/-- `src/server.rs:167-212` `Octane::serve`: the bytes written to the connection and the state the
handlers leave. All writing happens at the end, so when it panics nothing has been written. -/
def serve (sv : Server W) (w : W) (s : Sock) : Io (W × Bytes) :=
  (readHead s).bind fun
    | .head rawHeaders rawRequestLine bodyRemainder readerLeft =>
      (Io.ofRes ((Headers.parse sv.feat.faithful rawHeaders).bind Res.unwrap)).bind fun headers =>
        (Io.ofRes ((RequestLine.parse sv.feat.faithful rawRequestLine).bind Res.unwrap)).bind
          fun requestLine =>
            (Request.fromRaw sv.feat sv.allocOk headers requestLine bodyRemainder readerLeft).bind fun
              | some request => Io.ofRes (sv.handle w request)
              | none => Io.ofRes (sv.declareError w .badRequest)
    | .badRequest => Io.ofRes (sv.declareError w .badRequest)

end Server
end Octane
