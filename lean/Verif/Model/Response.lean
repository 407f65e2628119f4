import Verif.Model.Request
import Verif.Model.Status
import Verif.Model.FileHandler
import Verif.Model.Time
/-
Model of `src/responder.rs`, `src/error.rs`, `src/util.rs:52-76` (`AsyncReader`) and
`src/server.rs:213-223` (`Octane::send`).
-/
namespace Octane

/-- `BoxReader`: an in-memory cursor (what is left of it), or an `AsyncReader<File>` (what is left of
the file; `none` once reading it fails). -/
inductive Reader where
  | cursor (rest : Bytes)
  | file (rest : Option Bytes)
  deriving DecidableEq

/-- What one `poll_read` with an empty `ReadBuf` of `cap` bytes does: the part of the buffer marked as
filled, and the reader afterwards. `none` is an I/O error.

The cursor (tokio) copies and marks what it copied. `AsyncReader` (`src/util.rs:65-70`) reads from the
file into the buffer but never advances the filled mark. -/
def Reader.pollRead (cap : Nat) : Reader → Option (Bytes × Reader)
  | .cursor rest => some (rest.take cap, .cursor (rest.drop cap))
  | .file none => none
  | .file (some rest) => some ([], .file (some (rest.drop cap)))

/-- bytes a reader can still deliver -/
def Reader.size : Reader → Nat
  | .cursor rest => rest.length
  | .file _ => 0

/-- `tokio::io::copy` (external): read into a buffer of 2048 bytes until a read fills nothing, writing
what was filled. The `Bool` is `false` if it ended with an I/O error. `fuel` bounds the number of
reads; it is never exhausted (`copy_cursor`, `copy_file`). -/
def copyLoop : Nat → Reader → Bytes × Bool
  | 0, _ => ([], true)
  | fuel + 1, r =>
    match r.pollRead 2048 with
    | none => ([], false)
    | some (b, r') =>
      if b = [] then ([], true)
      else
        let (bs, ok) := copyLoop fuel r'
        (b ++ bs, ok)

def copy (r : Reader) : Bytes × Bool := copyLoop (r.size + 1) r

/-- `src/responder.rs:17-21` `enum ResBody`. -/
inductive ResBody where
  | none
  | sized (n : Nat) (r : Reader)
  | unsized (r : Reader)
  deriving DecidableEq

/-- `src/responder.rs:24-30` `ResBody::get_reader`. -/
def ResBody.getReader : ResBody → Reader
  | .sized _ r => r
  | .unsized r => r
  | .none => .cursor []

/-- `src/responder.rs:31-33` `ResBody::is_some`. -/
def ResBody.isSome : ResBody → Bool
  | .none => false
  | _ => true

/-- `src/responder.rs:54-70` `struct Response`. -/
structure Response where
  body : ResBody
  statusCode : StatusCode
  contentLen : Option Nat
  httpVersion : Str
  headers : HMap Str Str
  charset : Option Str
  cookies : List Cookie
  deriving DecidableEq

/-- The order in which a `HashMap<String, String>` happens to be enumerated. -/
structure MapOrder where
  enum : HMap Str Str → HMap Str Str
  perm : ∀ m, (enum m).Perm m

namespace Response

/-- `src/responder.rs:445-457` `Response::new_empty`. -/
def newEmpty : Response :=
  { body := .none, statusCode := .ok, contentLen := none, httpVersion := c!"1.1", headers := [],
    charset := none, cookies := [] }

/-- `src/responder.rs:437-443` `new_from_slice` and `:459-477` `new`. -/
def newFromSlice (body : Bytes) : Response :=
  { newEmpty with body := .sized body.length (.cursor body), contentLen := some body.length }

/-- `src/responder.rs:95-98` `Response::set`. -/
def set (r : Response) (key value : Str) : Response := { r with headers := r.headers.insert key value }

/-- `src/responder.rs:116-118` `Response::get`. -/
def get (r : Response) (key : Str) : Option Str := HMap.get r.headers key

/-- `src/responder.rs:148-164` `Response::default_headers`; panics only if the clock is before
1970. -/
def defaultHeaders (U : Unicode) (clock : Int) (r : Response) : Res Response :=
  let r1 := match r.contentLen with
    | some x => { r with headers := r.headers.insert c!"Content-Length" (showNat x) }
    | none => r
  (dateHeader clock).bind fun date =>
    let r2 := match date with
      | some d => { r1 with headers := r1.headers.insert c!"Date" d }
      | none => r1
    match HMap.get r2.headers c!"Content-Type" with
    | some _ => .ok r2
    | none =>
      let format := c!"text/html" ++
        (match r2.charset with
          | some cs => c!" ;charset=" ++ U.debug cs
          | none => [])
      .ok (r2.set c!"Content-Type" format)

/-- `src/responder.rs:138-144` `Response::send`. -/
def send (U : Unicode) (clock : Int) (r : Response) (body : Bytes) : Res Response :=
  defaultHeaders U clock
    { r with body := .sized body.length (.cursor body), contentLen := some body.length }

/-- `src/responder.rs:184-190` `Response::with_type`. -/
def withType (r : Response) (t : Str) : Response := r.set c!"Content-Type" t

/-- `src/responder.rs:221-231` `Response::send_file`; the `Bool` is `true` for `Ok`. On `Err` the
response is unchanged. -/
def sendFile (U : Unicode) (fs : Str → FileAt) (r : Response) (file : Str) : Res (Response × Bool) :=
  (handleFile fs file).bind fun
    | none => .ok (r, false)
    | some fh =>
      .ok ({ r with headers := r.headers.insert c!"Content-Type" (mimeType U fh.extension),
                    contentLen := some fh.len,
                    body := .sized fh.len (.file (some fh.contents)) }, true)

/-- `src/responder.rs:287-290` `Response::status`. -/
def status (r : Response) (code : StatusCode) : Response := { r with statusCode := code }

/-- `src/responder.rs:293-296` `Response::http_version`. -/
def setHttpVersion (r : Response) (v : HttpVersion) : Response := { r with httpVersion := v.toStr }

/-- `src/responder.rs:315-317` `Response::headers_sent`. -/
def headersSent (r : Response) : Bool := !r.headers.isEmpty

/-- `src/responder.rs:335-338` `Response::attachment`. -/
def attachment (r : Response) : Response := r.set c!"Content-Disposition" c!"attachment"

/-- `src/responder.rs:358-366` `Response::attachment_with_filename`. -/
def attachmentWithFilename (U : Unicode) (r : Response) (name : Str) : Response :=
  (r.set c!"Content-Disposition" (c!"attachment; filename = " ++ U.debug name)).set
    c!"Content-Type" (getExtension U name)

/-- `src/responder.rs:383-387` `Response::redirect`. -/
def redirect (r : Response) (location : Str) : Response :=
  (r.status .found).set c!"Location" location

/-- `src/responder.rs:409-412` `Response::cookie`. -/
def cookie (r : Response) (c : Cookie) : Response := { r with cookies := r.cookies ++ [c] }

/-- `src/responder.rs:429-432` `Response::charset`. -/
def setCharset (r : Response) (c : Str) : Response := { r with charset := some c }

/-- `src/responder.rs:433-435` `Response::has_body`. -/
def hasBody (r : Response) : Bool := r.body.isSome

/-- `src/responder.rs:478-480` `reason_phrase`. -/
def reasonPhrase (U : Unicode) (r : Response) : Str := U.upperStr r.statusCode.toStr

/-- `src/responder.rs:484-495` `status_line`. -/
def statusLine (U : Unicode) (r : Response) : Str :=
  c!"HTTP" ++ c!"/" ++ r.httpVersion ++ [' '] ++ showInt r.statusCode.code ++ [' '] ++
    r.reasonPhrase U ++ c!"\r\n"

/-- `[String]::join` with a separator. -/
def join (sep : Str) : List Str → Str
  | [] => []
  | [s] => s
  | s :: ss => s ++ sep ++ join sep ss

/-- `src/responder.rs:496-513` `headers`. -/
def headersStr (cookies : Bool) (ord : MapOrder) (r : Response) : Str :=
  ((ord.enum r.headers).flatMap fun d => d.1 ++ c!":" ++ [' '] ++ d.2 ++ c!"\r\n") ++
    (if cookies then join c!"\r\n" (r.cookies.map Cookie.serialise) else [])

/-- `src/responder.rs:193-198` `get_data`. -/
def getData (U : Unicode) (cookies : Bool) (ord : MapOrder) (r : Response) : Str × Reader :=
  (r.statusLine U ++ r.headersStr cookies ord ++ c!"\r\n", r.body.getReader)

end Response

/-- `src/server.rs:213-223` `Octane::send`: the bytes written. Simplification: writing succeeds (a
client that stops reading gets a prefix of these bytes). -/
def sendData (d : Str × Reader) : Bytes := utf8 d.1 ++ (copy d.2).1

/-- `src/constants.rs:22` `NOT_FOUND`. -/
def notFoundPage : Str :=
  c!"<!DOCTYPE html><html><head><title>404 NOT FOUND - OCTANE</title></head><body style=\"padding: 20px;\"><h2 style=\"text-align: center;\">404 NOT FOUND</h2><hr><h5>OCTANE - 0.1</h2></body></html>"

/-- `src/error.rs:41-61` `Error::err` and `Error::send`: the bytes written. -/
def errorPage (U : Unicode) (cookies : Bool) (ord : MapOrder) (clock : Int) (kind : StatusCode) :
    Res Bytes :=
  (((Response.newFromSlice (utf8 notFoundPage)).status kind).defaultHeaders U clock).bind fun res =>
    .ok (sendData ((res.set c!"Content-Type" c!"text/html").getData U cookies ord))

end Octane
