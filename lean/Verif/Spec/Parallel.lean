import Verif.Model.Parallel
import Verif.Spec.Router
/-
Specification of requests handled at the same time: every request is one program, put together from the
handlers that apply to it, and the programs of the requests take turns.
-/
namespace Octane
open Spec

/-- One program after another. -/
def Prog.bind {W : Type u} {α : Type v} {β : Type w} : Prog W α → (α → Prog W β) → Prog W β
  | .ret a, k => k a
  | .panic, _ => .panic
  | .hang, _ => .hang
  | .act upd next, k => .act upd fun x => (next x).bind k

/-- How a program ends. -/
inductive Spec.Ending (α : Type u) where
  | ret (a : α)
  | panic
  | hang

/-- A program that nobody interrupts. -/
def Prog.atomically {W : Type u} {α : Type v} : Prog W α → W → W × Ending α
  | .ret a, w => (w, .ret a)
  | .panic, w => (w, .panic)
  | .hang, w => (w, .hang)
  | .act upd next, w => (next w).atomically (upd w)

/-- It makes at most one access to the shared state. -/
def Prog.AtMostOne {W : Type u} {α : Type v} : Prog W α → Prop
  | .act _ next => ∀ w upd' next', next w ≠ .act upd' next'
  | _ => True

/-- It returns or panics, whatever it reads. -/
def Prog.Ends {W : Type u} {α : Type v} : Prog W α → Prop
  | .hang => False
  | .act _ next => ∀ w, (next w).Ends
  | _ => True

namespace Spec
variable {W : Type u}

/-- A registration of a handler whose accesses are visible. -/
structure PReg (W : Type u) where
  target : Target
  handler : PClosure W

/-- as a registration with the router -/
def PReg.reg (e : PReg W) : Reg (Seen W) := ⟨e.target, e.handler.closure⟩

/-- as a registration of a handler that is one step on the shared state -/
def PReg.whole (e : PReg W) : Reg (W × Response) :=
  ⟨e.target, fun mr s =>
    match (e.handler mr s.2).atomically s.1 with
    | (w, .ret (res, flow)) => .ok ((w, res), flow)
    | _ => .panic⟩

/-- The handlers that apply to a request, in the order of registration, up to one that stops. -/
def chain (uv : Bool) (req : Request) : List (PReg W) → Response → Prog W Response
  | [], res => .ret res
  | e :: log, res =>
    if e.target.applies uv req.requestLine.method req.requestLine.path then
      (e.handler ⟨req, e.target.vars uv req.requestLine.path⟩ res).bind fun
        | (res', .stop) => .ret res'
        | (res', .next) => chain uv req log res'
    else chain uv req log res

/-- What is done with a request, as one program. -/
def requestProg (uv : Bool) (log : List (PReg W)) (req : Request) : Prog W Reply :=
  match Http.validate req with
  | .panic => .panic
  | .ok checker =>
    match checker.errCode with
    | some code => .ret (.page code)
    | none =>
      if req.requestLine.method.isSome then
        (chain uv req log Response.newEmpty).bind fun res =>
          .ret (if res.hasBody then .sent res else .page .notFound)
      else .ret (.page .notImplemented)

/-- The router is the one set up with these registrations. -/
def SetUp (sv : PServer W) (log : List (PReg W)) : Prop :=
  ∃ calls, FairL calls ∧ (logOfL calls).length < 2 ^ 64 ∧ logOfL calls = log.map PReg.reg ∧
    execL Router.new calls = .ok sv.router

/-- A request, with the rest of its program. -/
inductive SJob (W : Type u) where
  | ready (req : Request)
  | running (p : Prog W Reply)
  | done (r : Reply) (bytes : Bytes)
  | dead

def SJob.busy : SJob W → Bool
  | .running _ => true
  | _ => false

structure SSys (W : Type u) where
  world : W
  workers : Nat
  jobs : List (SJob W)

/-- Programs that take turns: the events are those of the model. -/
def SSys.step (prog : Request → Prog W Reply) (write : W → Reply → Res Bytes) (y : SSys W) : PEvent W → SSys W
  | .arrive req => { y with jobs := y.jobs ++ [.ready req] }
  | .start i =>
    match y.jobs[i]? with
    | some (.ready req) =>
      if y.jobs.countP SJob.busy < y.workers then { y with jobs := y.jobs.set i (.running (prog req)) } else y
    | _ => y
  | .access i =>
    match y.jobs[i]? with
    | some (.running (.act upd next)) =>
      { y with world := upd y.world, jobs := y.jobs.set i (.running (next y.world)) }
    | _ => y
  | .finish i =>
    match y.jobs[i]? with
    | some (.running (.ret r)) =>
      match write y.world r with
      | .ok bytes => { y with jobs := y.jobs.set i (.done r bytes) }
      | .panic => { y with jobs := y.jobs.set i .dead }
    | some (.running .panic) => { y with jobs := y.jobs.set i .dead }
    | _ => y
  | .env f => { y with world := f y.world }

def SSys.run (prog : Request → Prog W Reply) (write : W → Reply → Res Bytes) (y : SSys W)
    (evs : List (PEvent W)) : SSys W := evs.foldl (SSys.step prog write) y

/-- The handling of a request stands where its program stands. -/
def Stands : Stage W → Prog W Reply → Prop
  | .wants upd, .act upd' _ => upd = upd'
  | .hangs, .hang => True
  | .panicked, .panic => True
  | .replies r, .ret r' => r = r'
  | _, _ => False

/-- The request is in the same state in the model and in the specification. -/
def SameJob (sv : PServer W) : Job W → SJob W → Prop
  | .ready req, .ready req' => req = req'
  | .running req reads, .running p => Stands (sv.stage req reads) p
  | .done r bytes, .done r' bytes' => r = r' ∧ bytes = bytes'
  | .dead, .dead => True
  | _, _ => False

/-- One request as a whole, or another change of the shared state. -/
inductive Item (W : Type u) where
  | job (i : Nat) (p : Prog W Reply)
  | env (f : W → W)

def Item.job? : Item W → Option Nat
  | .job i _ => some i
  | _ => none

def Item.env? : Item W → Option (W → W)
  | .env f => some f
  | _ => none

/-- One thing after the other: the shared state at the end and how every request ended. -/
def serially : W → List (Item W) → W × List (Nat × Ending Reply)
  | w, [] => (w, [])
  | w, .env f :: l => serially (f w) l
  | w, .job i p :: l =>
    let (w', o) := p.atomically w
    let (w'', os) := serially w' l
    (w'', (i, o) :: os)

/-- the request occupies a thread and its handler does not return -/
def Hung (sv : PServer W) : Job W → Bool
  | .running req reads => match sv.stage req reads with
    | .hangs => true
    | _ => false
  | _ => false

/-- the requests that occupy a thread and might not give it back -/
noncomputable def MayHang (sv : PServer W) (log : List (PReg W)) : Job W → Bool
  | .running req _ => @decide (¬ (requestProg sv.feat.urlVariables log req).Ends) (Classical.propDecidable _)
  | _ => false

end Spec

def PEvent.arrive? {W : Type u} : PEvent W → Option Request
  | .arrive req => some req
  | _ => none

def PEvent.env? {W : Type u} : PEvent W → Option (W → W)
  | .env f => some f
  | _ => none

end Octane
