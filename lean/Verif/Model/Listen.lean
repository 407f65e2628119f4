import Verif.Model.Server
/-
Model of the concurrent part of the server: `src/server_builder.rs` (accept loops), the `task!` macro
(`src/constants.rs:55-59`) and `src/server.rs:125-165` (`Octane::listen`), with `Octane::serve` cut at
its await points.

`Octane::serve` awaits in three places: a read of the head, a read of the body, a write of the
response. Between two awaits a task runs without interruption; the scheduler decides, event by event,
which task's awaited operation completes next. What is fixed when a connection is accepted is only
*what* the peer sends and in which pieces (`Sock`), not *when* it is read. The handlers of one request
run as one step on the shared state `W`; anything else that happens to `W` (other threads, the clock,
what a handler did before it panicked) is an `env` event, possible between any two steps.
-/
namespace Octane

/-- The state of one spawned task. -/
inductive Task where
  | handshake -- `tokio_openssl::accept(..).await` / `acceptor.accept(..).await`
  | head (data : Bytes) -- `octane_http/src/http1x/mod.rs:27`: the read of the head
  | body (headers : Headers) (line : RequestLine) (got : Bytes) (need : Nat) -- `src/request.rs:311`
  | writing (sent rest : Bytes) -- `src/server.rs:220-221`
  | finished (sent : Bytes)
  | broken (sent : Bytes) -- a write failed
  | panicked
  | refused -- the TLS handshake failed
  deriving DecidableEq

/-- One spawned task with what its socket will still deliver. -/
structure Conn where
  tls : Bool
  task : Task
  sock : Sock
  deriving DecidableEq

namespace Server
variable {W : Type u}

/-- What a step of a task leads to; `none` is the abort of the whole process. -/
abbrev StepOut (W : Type u) := Option (W × Task × Sock)

/-- Start of writing (`src/server.rs:201` or `declare_error!`), or the end of the task by a panic. A
panic is confined to its task by `tokio::spawn`. -/
def respond (w : W) (s : Sock) : Res (W × Bytes) → StepOut W
  | .ok (w', bs) => some (w', .writing [] bs, s)
  | .panic => some (w, .panicked, s)

/-- `src/request.rs:322` and `src/server.rs:187-207`, when the body is complete. -/
def withBody (sv : Server W) (w : W) (headers : Headers) (line : RequestLine) (body : Bytes) (s : Sock) :
    StepOut W :=
  match Request.parse sv.feat line headers body with
  | .panic => some (w, .panicked, s)
  | .ok none => respond w s (sv.declareError w .badRequest)
  | .ok (some req) => respond w s (sv.handle w req)

/-- `src/server.rs:175-177` and `src/request.rs:304-321` up to the await: after the head. -/
def withHead (sv : Server W) (w : W) (rawHeaders rawLine : Str) (rem : Bytes) (s : Sock) : StepOut W :=
  match (Headers.parse sv.feat.faithful rawHeaders).bind Res.unwrap with
  | .panic => some (w, .panicked, s)
  | .ok headers =>
    match (RequestLine.parse sv.feat.faithful rawLine).bind Res.unwrap with
    | .panic => some (w, .panicked, s)
    | .ok line =>
      if contentLength headers > 0 then
        if rem.length < contentLength headers then
          let n := contentLength headers - rem.length
          if n > i64Max then some (w, .panicked, s)
          else if !sv.allocOk n then none
          else some (w, .body headers line rem n, s)
        else sv.withBody w headers line rem s
      else sv.withBody w headers line [] s

/-- The completion of the read a task awaits. On a silent connection nothing happens. -/
def poll (sv : Server W) (w : W) (t : Task) (s : Sock) : StepOut W :=
  match t with
  | .head data =>
    match s.read 512 with
    | .error => some (w, .panicked, s)
    | .pending => some (w, t, s)
    | .data b s' =>
      if b = [] then respond w s' (sv.declareError w .badRequest)
      else match headCheck (data ++ b) s' with
        | .panic => some (w, .panicked, s')
        | .ok (some (.head hs rl rem r)) => sv.withHead w hs rl rem r
        | .ok (some .badRequest) => respond w s' (sv.declareError w .badRequest)
        | .ok none => some (w, .head (data ++ b), s')
  | .body headers line got need =>
    match s.read need with
    | .error => some (w, .panicked, s) -- `.ok().unwrap()`
    | .pending => some (w, t, s)
    | .data b s' =>
      if b = [] then some (w, .panicked, s')
      else if need ≤ b.length then
        -- `Vec::with_capacity(body_len)`, `src/request.rs:312`; the bytes got are `body_len` many now
        if (got ++ b).length > i64Max then some (w, .panicked, s')
        else if !sv.allocOk (got ++ b).length then none
        else sv.withBody w headers line (got ++ b) s'
      else some (w, .body headers line (got ++ b) (need - b.length), s')
  | _ => some (w, t, s)

end Server

/-- An accept loop: not started, running, or left through `?` after an accept error
(`src/server_builder.rs:44`, `:59`, `:91`). -/
inductive Listener where
  | off
  | listening
  | ended
  deriving DecidableEq

/-- The process: the shared state, the two accept loops, all tasks ever spawned in the order of
spawning, and whether the process has ended. -/
structure Sys (W : Type u) where
  world : W
  plain : Listener
  tls : Listener
  conns : List Conn
  dead : Bool

/-- One thing that happens. -/
inductive Event (W : Type u) where
  | connect (tls : Bool) (s : Sock) -- a connection is ready at the accept loop
  | acceptErr (tls : Bool) -- `accept` fails
  | handshake (i : Nat) (ok : Bool)
  | poll (i : Nat) -- the read awaited by task `i` completes
  | write (i : Nat) (n : Nat) -- the write awaited by task `i` takes `n` more bytes
  | writeErr (i : Nat)
  | env (f : W → W) -- the shared state changes for another reason
  | exit -- the main function returns after `listen` has returned

namespace Sys
variable {W : Type u}

def listener (y : Sys W) (tls : Bool) : Listener := if tls then y.tls else y.plain

def setTask (y : Sys W) (i : Nat) (c : Conn) : Sys W := { y with conns := y.conns.set i c }

/-- `Task` after the kernel has taken `n` more bytes of the response. -/
def writeStep (n : Nat) : Task → Task
  | .writing sent rest =>
    if rest.length ≤ n then .finished (sent ++ rest) else .writing (sent ++ rest.take n) (rest.drop n)
  | t => t

def writeFail : Task → Task
  | .writing sent _ => .broken sent
  | t => t

def handshakeStep (ok : Bool) : Task → Task
  | .handshake => if ok then .head [] else .refused
  | t => t

/-- One event. A dead process does nothing. -/
def step (sv : Server W) (y : Sys W) (e : Event W) : Sys W :=
  if y.dead then y
  else match e with
    | .connect tls s =>
      -- `src/server_builder.rs:38-45`, `:57-70`, `:86-102`
      if y.listener tls = .listening then
        { y with conns := y.conns ++ [⟨tls, if tls then .handshake else .head [], s⟩] }
      else y
    | .acceptErr tls =>
      -- `?` on the accept result: the loop is left, the listener closed
      if y.listener tls = .listening then
        if tls then { y with tls := .ended } else { y with plain := .ended }
      else y
    | .handshake i ok =>
      match y.conns[i]? with
      | some c => y.setTask i { c with task := handshakeStep ok c.task }
      | none => y
    | .poll i =>
      match y.conns[i]? with
      | some c =>
        match sv.poll y.world c.task c.sock with
        | some (w', t', s') => { y with world := w', conns := y.conns.set i ⟨c.tls, t', s'⟩ }
        | none => { y with dead := true }
      | none => y
    | .write i n =>
      match y.conns[i]? with
      | some c => y.setTask i { c with task := writeStep n c.task }
      | none => y
    | .writeErr i =>
      match y.conns[i]? with
      | some c => y.setTask i { c with task := writeFail c.task }
      | none => y
    | .env f => { y with world := f y.world }
    | .exit => if y.plain = .ended then { y with dead := true } else y

/-- All events of an execution. -/
def run (sv : Server W) (y : Sys W) (evs : List (Event W)) : Sys W := evs.foldl (step sv) y

/-- `src/server.rs:125-165` `Octane::listen`: with a TLS feature the TLS accept loop is spawned as a
task of its own, and its failure to start (`tlsOk = false`: bind or key problems) only prints a
warning; then the plain listener is bound, and a failure of that makes `listen` return. -/
def start (w : W) (tlsFeature tlsOk plainOk : Bool) : Sys W :=
  { world := w
    plain := if plainOk then .listening else .ended
    tls := if tlsFeature then (if tlsOk then .listening else .ended) else .off
    conns := []
    dead := false }

end Sys
end Octane
