import Verif.Model.Router
import Verif.Spec.Path
import Verif.Proof.Trie
/-
Specification of routing: a log of registrations, replayed in order for each request.
Uses from the model only the types of requests, handlers and paths, and `PathBuf::parse`.
-/
namespace Octane.Spec
variable {S : Type u}

/-- What a registration applies to. -/
inductive Target where
  | on (m : RequestMethod) (pattern : PathBuf) -- get / post / put / delete / head / patch
  | anyMethod (pattern : PathBuf)              -- add_route
  | everywhere                                 -- add

/-- One successful registration. -/
structure Reg (S : Type u) where
  target : Target
  handler : Closure S

/-- Does the registration apply to the request? -/
def Target.applies (uv : Bool) (t : Target) (method : RequestMethod) (path : PathBuf) : Bool :=
  match t with
  | .on m p => decide (m = method) && decide (PatMatch uv p path)
  | .anyMethod p => decide (PatMatch uv p path)
  | .everywhere => true

/-- The URL variables the handler sees. -/
def Target.vars (uv : Bool) (t : Target) (path : PathBuf) : HMap Str Str :=
  match t with
  | .on _ p => if uv then bindings p path else []
  | .anyMethod p => if uv then bindings p path else []
  | .everywhere => []

/-- The meaning of a log: go through the registrations in order, run those that apply, stop after
one that returns `Stop` (or panics). -/
def replay (uv : Bool) (req : Request) : List (Reg S) → S → Res S
  | [], s => .ok s
  | e :: log, s =>
    if e.target.applies uv req.requestLine.method req.requestLine.path then
      match e.handler ⟨req, e.target.vars uv req.requestLine.path⟩ s with
      | .panic => .panic
      | .ok (s', .stop) => .ok s'
      | .ok (s', .next) => replay uv req log s'
    else replay uv req log s

/-- The registration methods of the API that take a path (`src/router.rs:56-205`). -/
inductive Verb where
  | get | post | put | delete | head | patch | addRoute
  deriving DecidableEq

def Verb.method : Verb → RequestMethod
  | .get => .get | .post => .post | .put => .put | .delete => .delete
  | .head => .head | .patch => .patch | .addRoute => .all

def Verb.target (v : Verb) (p : PathBuf) : Target :=
  match v with
  | .addRoute => .anyMethod p
  | v => .on v.method p

/-- A program that sets up a router: registrations, path-less middleware, and mounting a router
that was itself set up by a program (`with_router`), with the hash-map enumeration orders that
happened to occur during the mount. -/
inductive Call (S : Type u) where
  | route (v : Verb) (path : Str) (h : Closure S)
  | add (h : Closure S)
  | mount (calls : List (Call S)) (ord : Router.AppendOrder S)

mutual
/-- The registrations a program performs; rejected paths contribute nothing. -/
def logOf : Call S → List (Reg S)
  | .route v path h =>
    match Path.parse path with
    | none => []
    | some p => [⟨v.target p, h⟩]
  | .add h => [⟨.everywhere, h⟩]
  | .mount calls _ => logOfL calls
def logOfL : List (Call S) → List (Reg S)
  | [] => []
  | c :: cs => logOf c ++ logOfL cs
end

mutual
/-- All enumeration orders in the program are permutations (the only thing a hash map promises). -/
def Fair : Call S → Prop
  | .route _ _ _ => True
  | .add _ => True
  | .mount calls ord =>
    FairL calls ∧ (∀ m, (ord.outer m).Perm m) ∧ (∀ meth t m, (ord.inner meth t m).Perm m)
def FairL : List (Call S) → Prop
  | [] => True
  | c :: cs => Fair c ∧ FairL cs
end

mutual
/-- Executing a program on the modelled code. -/
def exec (r : Router S) : Call S → Res (Router S)
  | .route v path h => (Router.injectMethod r path h v.method).bind fun x => .ok x.1
  | .add h => .ok (Router.add r h)
  | .mount calls ord => (execL Router.new calls).bind fun sub => Router.append ord r sub
def execL (r : Router S) : List (Call S) → Res (Router S)
  | [] => .ok r
  | c :: cs => (exec r c).bind fun r' => execL r' cs
end

/-! ### observing which handlers run -/

/-- What an instrumented handler writes down: its number, the variables it saw, what it returned. -/
abbrev Event := Nat × HMap Str Str × Flow

/-- Handler `h` is instrumented as number `k`: whatever else it does (to the state `S`, reading the
request, panicking), each completed call appends one event. -/
def Traced (k : Nat) (h : Closure (S × List Event)) : Prop :=
  ∀ mr s tr s' tr' fl, h mr (s, tr) = .ok ((s', tr'), fl) → tr' = tr ++ [(k, mr.vars, fl)]

/-- the `k`-th registration of a log is instrumented as number `off + k` -/
def TracedLog (off : Nat) (log : List (Reg (S × List Event))) : Prop :=
  ∀ (k : Nat) (e : Reg (S × List Event)), log[k]? = some e → Traced (off + k) e.handler

/-- the numbers of the registrations that apply to a request, in registration order -/
def applicable (uv : Bool) (m : RequestMethod) (q : PathBuf) (off : Nat) (log : List (Reg S)) : List Nat :=
  ((log.zipIdx off).filter fun e => e.1.target.applies uv m q).map (·.2)

/-- `T` is what happened when a request was dispatched: `run` of the router set up by `calls`
turned the (empty) event list into `T`. -/
def Dispatched (uv : Bool) (calls : List (Call (S × List Event))) (req : Request) (T : List Event) : Prop :=
  ∃ r s s', execL Router.new calls = .ok r ∧ Router.run uv r req (s, []) = .ok (s', T)

end Octane.Spec
