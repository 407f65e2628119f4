import Verif.Model.Response
import Verif.Spec.Router
import Verif.Spec.ResOps
/-
The macros that make handlers, handlers without branches, and the programs of the documentation and of the
tests: applications written with the library, as lists of registrations.
-/
namespace Octane
open Spec
variable {W : Type u}

/-- `src/router.rs:376-383` `route_next!`: the body, then `Flow::Next`. (`route!`, `src/router.rs:350-355`, only
boxes the closure.) -/
def routeNext {S : Type u} (body : MatchedRequest → S → Res S) : Closure S := fun mr s =>
  (body mr s).bind fun s' => .ok (s', .next)

/-- `src/router.rs:404-411` `route_stop!`: the body, then `Flow::Stop`. -/
def routeStop {S : Type u} (body : MatchedRequest → S → Res S) : Closure S := fun mr s =>
  (body mr s).bind fun s' => .ok (s', .stop)

/-- `res.send(text)`, the body of a handler; the clock is that of the server -/
def sendText (U : Unicode) (clock : W → Int) (text : Bytes) : MatchedRequest → W × Response → Res (W × Response) :=
  fun _ st => (st.2.send U (clock st.1) text).bind fun r => .ok (st.1, r)

/-- `src/lib.rs:24-41`: the program in the documentation of the crate. -/
def documented (U : Unicode) (clock : W → Int) : List (Call (W × Response)) :=
  [.route .get c!"/" (routeStop (sendText U clock (utf8 c!"Hello, World")))]

/-- the same text under a path for several methods -/
def forMethods (U : Unicode) (clock : W → Int) (verbs : List Verb) (path : Str) (text : Bytes) :
    List (Call (W × Response)) :=
  verbs.map fun v => .route v path (routeNext (sendText U clock text))

/-- `tests/server.rs:18-62` `basic_server_x_req`. -/
def serverTest (U : Unicode) (clock : W → Int) (text : Bytes) : List (Call (W × Response)) :=
  forMethods U clock [.get, .post, .put, .patch, .head, .delete] c!"/" text

/-- `tests/router.rs:5-39` `basic_router`: one path registered on the application, another on a router that is
mounted; `ord` are the orders in which the hash maps happen to be enumerated. -/
def routerTest (U : Unicode) (clock : W → Int) (ord : Router.AppendOrder (W × Response)) (text : Bytes) :
    List (Call (W × Response)) :=
  forMethods U clock [.get, .post, .put, .patch, .delete, .head] c!"/route2" text ++
    [.mount (forMethods U clock [.get, .post, .put, .patch, .delete, .head] c!"/route1" text) ord]

/-- `tests/url_variables.rs:5-15` `basic_url_variables`: the handler sends and then compares its variable with
`value`; `unwrap` and `assert_eq!` panic. -/
def variableTest (U : Unicode) (clock : W → Int) (value : Str) : List (Call (W × Response)) :=
  [.route .get c!"/foo/:var" (routeNext fun mr st => (sendText U clock (utf8 c!"test") mr st).bind fun st' =>
    if HMap.get mr.vars c!"var" = some value then .ok st' else .panic)]

/-- `tests/headers.rs:6-15` `basic_header_value_retrival`: the handler compares a header and sends nothing. -/
def headerTest (value : Str) : List (Call (W × Response)) :=
  [.route .get c!"/" (routeNext fun mr st =>
    if mr.request.headers.get c!"user-agent" = some value then .ok st else .panic)]

/-- A handler without branches: operations on the response, which may depend on the request and the time, and
then always the same `Flow`. -/
structure Script where
  target : Target
  ops : MatchedRequest → Int → List ResOp
  flow : Flow

/-- the registration of such a handler -/
def Script.reg (U : Unicode) (clock : W → Int) (x : Script) : Reg (W × Response) :=
  ⟨x.target, fun mr st => (execOps U st.2 (x.ops mr (clock st.1))).bind fun r => .ok ((st.1, r), x.flow)⟩

/-- a handler that sends a text, by `route_next!` or `route_stop!` -/
structure Text where
  target : Target
  text : Bytes
  flow : Flow

def Text.script (x : Text) : Script := ⟨x.target, fun _ now => [.send now x.text], x.flow⟩

end Octane
