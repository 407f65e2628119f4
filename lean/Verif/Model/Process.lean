import Verif.Model.Listen
import Verif.Model.Parallel
/-
Model of the whole process: the connections of `Model/Listen.lean`, whose handlers run as in
`Model/Parallel.lean` on the worker threads of the runtime.

`task!` (`src/constants.rs:55-59`) spawns a task for every connection. A task needs a worker thread to do
anything: to take what has been read, to begin with the handlers, to write. It gives the thread back at
every await, and `server.router.run(..)` (`src/server.rs:196`) has none: from the first to the last handler of
a request the thread is held. The other steps take no time here. Accepting a connection is possible at any
time. For the plain port that is so: its accept loop is part of the main future, which `block_on`
(`octane_macros/src/lib.rs:141`) runs on a thread that is no worker. The accept loop of the TLS port is a
spawned task (`src/server.rs:149-153`); that it may wait for a thread makes no difference to what anybody
sees, as the first thing an accepted TLS connection needs is its handshake, and that waits for a thread here.
(`#[octane::test]` has one thread for everything, `octane_macros/src/lib.rs:173`; it is not meant.)
-/
namespace Octane

/-- What a task waits for while it reads a request. -/
inductive Reading where
  | head (data : Bytes) -- `octane_http/src/http1x/mod.rs:27`
  | body (headers : Headers) (line : RequestLine) (got : Bytes) (need : Nat) -- `src/request.rs:311`
  deriving DecidableEq

/-- What comes of a completed read. -/
inductive Turn where
  | waits (r : Reading) (s : Sock) -- the next await
  | request (req : Request) (s : Sock) -- `src/server.rs:177`: `Some(request)`
  | bad (s : Sock) -- `declare_error!` with 400, `src/server.rs:206`, `:209`
  | panicked (s : Sock)
  | abort -- an allocation has failed
  deriving DecidableEq

namespace Reading

/-- `src/request.rs:322`, when the body is complete. -/
def withBody (feat : Features) (headers : Headers) (line : RequestLine) (body : Bytes) (s : Sock) : Turn :=
  match Request.parse feat line headers body with
  | .panic => .panicked s
  | .ok none => .bad s
  | .ok (some req) => .request req s

/-- `src/server.rs:175-177` and `src/request.rs:304-321` up to the await: after the head. -/
def withHead (feat : Features) (allocOk : Nat → Bool) (rawHeaders rawLine : Str) (rem : Bytes) (s : Sock) : Turn :=
  match (Headers.parse feat.faithful rawHeaders).bind Res.unwrap with
  | .panic => .panicked s
  | .ok headers =>
    match (RequestLine.parse feat.faithful rawLine).bind Res.unwrap with
    | .panic => .panicked s
    | .ok line =>
      if contentLength headers > 0 then
        if rem.length < contentLength headers then
          let n := contentLength headers - rem.length
          if n > i64Max then .panicked s
          else if !allocOk n then .abort
          else .waits (.body headers line rem n) s
        else withBody feat headers line rem s
      else withBody feat headers line [] s

/-- The completion of the awaited read (as `Server.poll`, up to the handlers). -/
def turn (feat : Features) (allocOk : Nat → Bool) (r : Reading) (s : Sock) : Turn :=
  match r with
  | .head data =>
    match s.read 512 with
    | .error => .panicked s
    | .pending => .waits r s
    | .data b s' =>
      if b = [] then .bad s'
      else match headCheck (data ++ b) s' with
        | .panic => .panicked s'
        | .ok (some (.head hs rl rem r)) => withHead feat allocOk hs rl rem r
        | .ok (some .badRequest) => .bad s'
        | .ok none => .waits (.head (data ++ b)) s'
  | .body headers line got need =>
    match s.read need with
    | .error => .panicked s
    | .pending => .waits r s
    | .data b s' =>
      if b = [] then .panicked s'
      else if need ≤ b.length then
        if (got ++ b).length > i64Max then .panicked s'
        else if !allocOk (got ++ b).length then .abort
        else withBody feat headers line (got ++ b) s'
      else .waits (.body headers line (got ++ b) (need - b.length)) s'

end Reading

/-- The state of one spawned task. -/
inductive PTask (W : Type u) where
  | handshake
  | reading (r : Reading)
  | handling (req : Request) (reads : List W) -- in `Router::run`, on a thread
  | writing (sent rest : Bytes)
  | finished (sent : Bytes)
  | broken (sent : Bytes) -- a write failed
  | panicked
  | refused -- the TLS handshake failed

/-- does the task hold a thread? -/
def PTask.busy {W : Type u} : PTask W → Bool
  | .handling _ _ => true
  | _ => false

/-- One spawned task with what its socket will still deliver. -/
structure PConn (W : Type u) where
  tls : Bool
  task : PTask W
  sock : Sock

/-- The process. -/
structure Process (W : Type u) where
  world : W
  workers : Nat
  plain : Listener
  tls : Listener
  conns : List (PConn W)
  dead : Bool

/-- One thing that happens. -/
inductive Happening (W : Type u) where
  | connect (tls : Bool) (s : Sock)
  | acceptErr (tls : Bool)
  | handshake (i : Nat) (ok : Bool)
  | poll (i : Nat) -- the read awaited by task `i` completes
  | access (i : Nat) -- the handlers of task `i` make their next access to the shared state
  | finish (i : Nat) -- the handlers of task `i` have returned or panicked
  | write (i : Nat) (n : Nat)
  | writeErr (i : Nat)
  | env (f : W → W)
  | exit

namespace PTask
variable {W : Type u}

/-- `Octane::send` (`src/server.rs:201`) or `declare_error!` begins to write, or there was a panic. -/
def respond : Res Bytes → PTask W
  | .ok bytes => .writing [] bytes
  | .panic => .panicked

/-- as `Sys.writeStep` -/
def writeStep (n : Nat) : PTask W → PTask W
  | .writing sent rest =>
    if rest.length ≤ n then .finished (sent ++ rest) else .writing (sent ++ rest.take n) (rest.drop n)
  | t => t

/-- as `Sys.writeFail` -/
def writeFail : PTask W → PTask W
  | .writing sent _ => .broken sent
  | t => t

/-- as `Sys.handshakeStep` -/
def handshakeStep (ok : Bool) : PTask W → PTask W
  | .handshake => if ok then .reading (.head []) else .refused
  | t => t

end PTask

namespace Process
variable {W : Type u}

def listener (y : Process W) (tls : Bool) : Listener := if tls then y.tls else y.plain

/-- is there a thread that no handler holds? -/
def free (y : Process W) : Bool := y.conns.countP (·.task.busy) < y.workers

/-- task `i` becomes `t`, the shared state `w` -/
def put (y : Process W) (w : W) (i : Nat) (c : PConn W) (t : PTask W) (s : Sock) : Process W :=
  { y with world := w, conns := y.conns.set i { c with task := t, sock := s } }

/-- One event. An event that is not possible changes nothing; a dead process does nothing. -/
def step (sv : PServer W) (allocOk : Nat → Bool) (y : Process W) (e : Happening W) : Process W :=
  if y.dead then y
  else match e with
    | .connect tls s =>
      if y.listener tls = .listening then
        { y with conns := y.conns ++ [⟨tls, if tls then .handshake else .reading (.head []), s⟩] }
      else y
    | .acceptErr tls =>
      if y.listener tls = .listening then
        if tls then { y with tls := .ended } else { y with plain := .ended }
      else y
    | .handshake i ok =>
      match y.conns[i]? with
      | some c => if y.free then y.put y.world i c (c.task.handshakeStep ok) c.sock else y
      | none => y
    | .poll i =>
      match y.conns[i]? with
      | some c =>
        match c.task with
        | .reading r =>
          if y.free then
            match r.turn sv.feat allocOk c.sock with
            | .waits r' s' => y.put y.world i c (.reading r') s'
            | .request req s' => y.put y.world i c (.handling req []) s'
            | .bad s' => y.put y.world i c (.respond (sv.write y.world (.page .badRequest))) s'
            | .panicked s' => y.put y.world i c .panicked s'
            | .abort => { y with dead := true }
          else y
        | _ => y
      | none => y
    | .access i =>
      match y.conns[i]? with
      | some c =>
        match c.task with
        | .handling req reads =>
          match sv.stage req reads with
          | .wants upd => y.put (upd y.world) i c (.handling req (reads ++ [y.world])) c.sock
          | _ => y
        | _ => y
      | none => y
    | .finish i =>
      match y.conns[i]? with
      | some c =>
        match c.task with
        | .handling req reads =>
          match sv.stage req reads with
          | .replies r => y.put y.world i c (.respond (sv.write y.world r)) c.sock
          | .panicked => y.put y.world i c .panicked c.sock
          | _ => y
        | _ => y
      | none => y
    | .write i n =>
      match y.conns[i]? with
      | some c => if y.free then y.put y.world i c (c.task.writeStep n) c.sock else y
      | none => y
    | .writeErr i =>
      match y.conns[i]? with
      | some c => if y.free then y.put y.world i c c.task.writeFail c.sock else y
      | none => y
    | .env f => { y with world := f y.world }
    | .exit => if y.plain = .ended then { y with dead := true } else y

/-- All events of an execution. -/
def run (sv : PServer W) (allocOk : Nat → Bool) (y : Process W) (evs : List (Happening W)) : Process W :=
  evs.foldl (step sv allocOk) y

/-- as `Sys.start` -/
def start (w : W) (workers : Nat) (tlsFeature tlsOk plainOk : Bool) : Process W :=
  { world := w
    workers
    plain := if plainOk then .listening else .ended
    tls := if tlsFeature then (if tlsOk then .listening else .ended) else .off
    conns := []
    dead := false }

end Process
end Octane
