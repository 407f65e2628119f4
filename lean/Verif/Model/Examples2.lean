import Verif.Model.Examples
import Verif.Model.Server
/-
The programs in the documentation of the router and of the request.
-/
namespace Octane
open Spec Query
variable {W : Type u} {α : Type}

/-- a handler made by `route!`, `route_next!` or `route_stop!` (`src/router.rs:350-411`), according to the `Flow` -/
def routeFlow {S : Type u} (flow : Flow) (body : MatchedRequest → S → Res S) : Closure S := fun mr s =>
  (body mr s).bind fun s' => .ok (s', flow)

/-- An application whose one handler, for GET of `/`, reads something (`g`) from its request and goes on with it
(`k`): the form of the examples in `src/request.rs` and `src/query.rs`. These drop what they have read; what a
program does with it is `k` here. -/
def reading (g : MatchedRequest → Res α) (flow : Flow) (k : α → W × Response → Res (W × Response)) :
    List (Call (W × Response)) :=
  [.route .get c!"/" (routeFlow flow fun mr st => (g mr).bind fun a => k a st)]

namespace Doc

/-- `src/router.rs:24-38`, `58-71`, `86-201`, `323-335`, `362-374`, `390-402` and `src/server.rs:26-46`: the examples
of `Flow`, `Route`, the six methods, the three macros and `Octane`; they differ in the method and in the `Flow`. -/
def hello (U : Unicode) (clock : W → Int) (v : Verb) (flow : Flow) : List (Call (W × Response)) :=
  [.route v c!"/" (routeFlow flow (sendText U clock (utf8 c!"Hello, World")))]

/-- `src/request.rs:62-73`: the example of `RequestLine`: `assert_eq!(RequestMethod::Get, req.request_line.method)`. -/
def requestLine (mr : MatchedRequest) : Res Unit :=
  if RequestMethod.get = mr.request.requestLine.method then .ok () else .panic

/-- `src/request.rs:181-192` and `405-419`: the examples of `Headers` and `MatchedRequest`, `req.headers.get(name)`
with the names `HeaderName` and `Some-Header`. -/
def header (name : Str) (mr : MatchedRequest) : Res (Option Str) := .ok (mr.request.headers.get name)

/-- `src/request.rs:328-337`: the example of `get_query`. -/
def query (feat : Features) (mr : MatchedRequest) : Res (Option Str) :=
  (mr.request.getQuery feat).bind fun m => .ok (m.get c!"value")

/-- `src/query.rs:147-156`: the example of `QueryValue`. -/
def extendedQuery (feat : Features) (mr : MatchedRequest) : Res (Option QueryValue) :=
  (mr.request.getExtendedQuery feat).bind fun m => .ok (m.get c!"value")

/-- `src/request.rs:430-442`: the example of the variables; `unwrap` panics if there is none. (The example also looks
up a header, which does nothing.) -/
def variables (U : Unicode) (clock : W → Int) : List (Call (W × Response)) :=
  [.route .get c!"/foo/:var" (routeNext fun mr st =>
    match HMap.get mr.vars c!"var" with
    | none => .panic
    | some v => ((st.2.withType c!"application/json").send U (clock st.1) (utf8 v)).bind fun r => .ok (st.1, r))]

end Doc

/-- a program that sends what it has read, if there is something -/
def sendRead (U : Unicode) (clock : W → Int) : Option Str → W × Response → Res (W × Response)
  | none, st => .ok st
  | some v, st => (st.2.send U (clock st.1) (utf8 v)).bind fun r => .ok (st.1, r)

end Octane
