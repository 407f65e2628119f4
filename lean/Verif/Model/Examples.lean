import Verif.Model.Programs
/-
The programs in the documentation of `Response`, `Cookie` and `Octane::with_router`.
-/
namespace Octane
open Spec
variable {W : Type u}

/-- the body of a handler that only works on its response; the clock is that of the server -/
def onResponse (clock : W → Int) (f : Int → Response → Res Response) :
    MatchedRequest → W × Response → Res (W × Response) :=
  fun _ st => (f (clock st.1) st.2).bind fun r => .ok (st.1, r)

/-- an application with one handler, for GET of `/`, that stops: the form of all examples in `src/responder.rs` -/
def atRoot (clock : W → Int) (f : Int → Response → Res Response) : List (Call (W × Response)) :=
  [.route .get c!"/" (routeStop (onResponse clock f))]

/-- `assert!` (and `assert_eq!` with the comparison made): a panic unless it holds -/
def assert_ (b : Bool) (r : Response) : Res Response := if b then .ok r else .panic

namespace Doc

/-- `src/responder.rs:81-94`: the example of `set`. -/
def set (U : Unicode) (now : Int) (r : Response) : Res Response :=
  (r.set c!"header-name" c!"header-value").send U now (utf8 c!"HELLO")

/-- `src/responder.rs:101-115`: the example of `get`. -/
def get (U : Unicode) (now : Int) (r : Response) : Res Response :=
  (r.send U now (utf8 c!"Hello, world")).bind fun r =>
    assert_ (r.get c!"Content-Type" = some c!"text/html") r

/-- `src/responder.rs:168-183`: the example of `with_type`. -/
def withType (U : Unicode) (now : Int) (r : Response) : Res Response :=
  (r.withType c!"json").send U now (utf8 c!"{\"server\": \"Octane\"}")

/-- `src/responder.rs:202-220`: the example of `send_file`; `expect` panics if the file was not found. -/
def sendFile (U : Unicode) (fs : Str → FileAt) (_now : Int) (r : Response) : Res Response :=
  (r.sendFile U fs c!"templates/index.html").bind fun p =>
    if p.2 then assert_ (p.1.get c!"Content-Type" = some c!"text/html") p.1 else .panic

/-- `src/responder.rs:269-286`: the example of `status`. -/
def status (U : Unicode) (now : Int) (r : Response) : Res Response :=
  (r.status .notFound).send U now (utf8 c!"Page not found")

/-- `src/responder.rs:299-314`: the example of `headers_sent`. -/
def headersSent (U : Unicode) (now : Int) (r : Response) : Res Response :=
  (assert_ (false = r.headersSent) r).bind fun r =>
    (r.send U now (utf8 c!"Hello, World")).bind fun r => assert_ (true = r.headersSent) r

/-- `src/responder.rs:321-334`: the example of `attachment`. -/
def attachment (_now : Int) (r : Response) : Res Response := .ok r.attachment

/-- `src/responder.rs:344-357`: the example of `attachment_with_filename`. -/
def attachmentNamed (U : Unicode) (_now : Int) (r : Response) : Res Response :=
  .ok (r.attachmentWithFilename U c!"image.png")

/-- `src/responder.rs:369-382`: the example of `redirect`. -/
def redirect (U : Unicode) (now : Int) (r : Response) : Res Response :=
  (r.redirect c!"/").send U now (utf8 c!"Taking you to home")

/-- `src/responder.rs:392-407` and `src/cookie.rs:13-28`: the example of `cookie`. -/
def cookie (U : Unicode) (now : Int) (r : Response) : Res Response :=
  (r.cookie ⟨c!"name", c!"value", []⟩).send U now (utf8 c!"Cookie has been set!")

/-- `src/responder.rs:415-428`: the example of `charset`. -/
def charset (U : Unicode) (now : Int) (r : Response) : Res Response :=
  (r.setCharset c!"utf-8").send U now (utf8 c!"Hello")

/-- `src/server.rs:89-99`: the example of `with_router`; `ord` are the orders in which the hash maps happen to be
enumerated. -/
def withRouter (U : Unicode) (clock : W → Int) (ord : Router.AppendOrder (W × Response)) :
    List (Call (W × Response)) :=
  [.mount [.route .get c!"/" (routeStop (sendText U clock (utf8 c!"It's a get request!!"))),
    .route .post c!"/" (routeStop (sendText U clock (utf8 c!"It's a post request!!")))] ord]

end Doc

end Octane
