import Verif.Model.Server
/-
Model of `src/server.rs:187-204` when several requests are handled at the same time.

`Octane::serve` calls `server.router.run(..)` without an await (`src/server.rs:196`), so the handlers of
one request run on one worker thread of the runtime, from the first to the last, without giving the
thread back. Handlers of different requests run on different threads and may use the same memory:
`type Closure` (`src/router.rs:14`) is `Fn + Send + Sync`, and nothing in the library locks. Here a handler is
a program whose accesses to the shared state are single steps (an atomic operation, or a section under
a lock the handler itself takes), and the accesses of different requests come in any order.
(`Model/Server.lean` and `Model/Listen.lean` treat the handlers of a request as one step.)
-/
namespace Octane

/-- What a handler does: return, panic, never return, or read and change the shared state in one step
and go on depending on what it has read. -/
inductive Prog (W : Type u) (α : Type v) where
  | ret (a : α)
  | panic
  | hang
  | act (upd : W → W) (next : W → Prog W α)

/-- What a request waits for while its handlers run. -/
inductive Wait (W : Type u) where
  | access (upd : W → W)
  | hang

/-- The handlers of one request in the middle of their work: the response so far, what the shared state
was at their accesses, as far as not used yet, and what they wait for when that is used up. -/
structure Seen (W : Type u) where
  res : Response
  reads : List W
  wait : Option (Wait W)

/-- A handler whose accesses to the shared state are visible. -/
abbrev PClosure (W : Type u) := MatchedRequest → Response → Prog W (Response × Flow)

/-- The part of a handler's program that has taken place when the shared state was `reads` at its
accesses. -/
def Prog.follow {W : Type u} (res : Response) : Prog W (Response × Flow) → List W → Res (Seen W × Flow)
  | .ret (res', flow), reads => .ok (⟨res', reads, none⟩, flow)
  | .panic, _ => .panic
  | .hang, reads => .ok (⟨res, reads, some .hang⟩, .stop)
  | .act upd _, [] => .ok (⟨res, [], some (.access upd)⟩, .stop)
  | .act _ next, w :: reads => (next w).follow res reads

/-- Such a handler as a closure of the router. A handler that waits keeps the loop of `Router::run` from
calling the following ones; the `stop` stands for that. -/
def PClosure.closure {W : Type u} (h : PClosure W) : Closure (Seen W) := fun mr s => (h mr s.res).follow s.res s.reads

/-- What is written in the end (`src/server.rs:190-204`). -/
inductive Reply where
  | page (kind : StatusCode) -- `declare_error!`
  | sent (res : Response)

/-- Where the handling of a request stands. -/
inductive Stage (W : Type u) where
  | wants (upd : W → W) -- the next access to the shared state
  | hangs
  | panicked
  | replies (r : Reply)

/-- As `Server`, with handlers whose accesses are visible. -/
structure PServer (W : Type u) where
  feat : Features
  U : Unicode
  ord : MapOrder
  clock : W → Int
  router : Router (Seen W)

namespace PServer
variable {W : Type u}

/-- `src/server.rs:187-204`, when the shared state was `reads` at the accesses made so far. -/
def stage (sv : PServer W) (req : Request) (reads : List W) : Stage W :=
  match Http.validate req with
  | .panic => .panicked
  | .ok checker =>
    if checker.isMalformed then
      match Res.unwrap checker.errCode with
      | .ok code => .replies (.page code)
      | .panic => .panicked
    else if req.requestLine.method.isSome then
      match Router.run sv.feat.urlVariables sv.router req ⟨Response.newEmpty, reads, none⟩ with
      | .panic => .panicked
      | .ok s =>
        match s.wait with
        | some (.access upd) => .wants upd
        | some .hang => .hangs
        | none => if !s.res.hasBody then .replies (.page .notFound) else .replies (.sent s.res)
    else .replies (.page .notImplemented)

/-- `src/server.rs:201` (`Octane::send`) or `declare_error!`: the bytes written. -/
def write (sv : PServer W) (w : W) : Reply → Res Bytes
  | .page kind => errorPage sv.U sv.feat.cookies sv.ord (sv.clock w) kind
  | .sent res => .ok (sendData (res.getData sv.U sv.feat.cookies sv.ord))

end PServer

/-- A request that has been read. -/
inductive Job (W : Type u) where
  | ready (req : Request) -- no thread has begun with it
  | running (req : Request) (reads : List W) -- on a thread
  | done (r : Reply) (bytes : Bytes)
  | dead -- a panic

/-- does the request occupy a thread? -/
def Job.busy {W : Type u} : Job W → Bool
  | .running _ _ => true
  | _ => false

/-- The requests, the shared state and the number of worker threads of the runtime. -/
structure PSys (W : Type u) where
  world : W
  workers : Nat
  jobs : List (Job W)

/-- One thing that happens. -/
inductive PEvent (W : Type u) where
  | arrive (req : Request) -- a request has been read
  | start (i : Nat) -- a free thread begins with request `i`
  | access (i : Nat) -- the handlers of request `i` make their next access
  | finish (i : Nat) -- the handlers of request `i` have returned or panicked
  | env (f : W → W) -- the shared state changes for another reason

namespace PSys
variable {W : Type u}

/-- One event; an event that is not possible changes nothing. -/
def step (sv : PServer W) (y : PSys W) : PEvent W → PSys W
  | .arrive req => { y with jobs := y.jobs ++ [.ready req] }
  | .start i =>
    match y.jobs[i]? with
    | some (.ready req) =>
      if y.jobs.countP Job.busy < y.workers then { y with jobs := y.jobs.set i (.running req []) } else y
    | _ => y
  | .access i =>
    match y.jobs[i]? with
    | some (.running req reads) =>
      match sv.stage req reads with
      | .wants upd => { y with world := upd y.world, jobs := y.jobs.set i (.running req (reads ++ [y.world])) }
      | _ => y
    | _ => y
  | .finish i =>
    match y.jobs[i]? with
    | some (.running req reads) =>
      match sv.stage req reads with
      | .replies r =>
        match sv.write y.world r with
        | .ok bytes => { y with jobs := y.jobs.set i (.done r bytes) }
        | .panic => { y with jobs := y.jobs.set i .dead }
      | .panicked => { y with jobs := y.jobs.set i .dead }
      | _ => y
    | _ => y
  | .env f => { y with world := f y.world }

/-- All events of an execution. -/
def run (sv : PServer W) (y : PSys W) (evs : List (PEvent W)) : PSys W := evs.foldl (step sv) y

/-- Before the first request. -/
def start (w : W) (workers : Nat) : PSys W := { world := w, workers, jobs := [] }

end PSys
end Octane
