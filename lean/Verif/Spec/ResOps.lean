import Verif.Model.Response
/-
The operations a handler can apply to a response, and what they are supposed to touch.
-/
namespace Octane.Spec

/-- Everything a handler can do to a response through the public API: the methods, and direct
writes to the public fields (`headers` through `insert` and `remove`). -/
inductive ResOp where
  | set (key value : Str)
  | send (clock : Int) (body : Bytes)
  | defaultHeaders (clock : Int)
  | withType (t : Str)
  | sendFile (fs : Str → FileAt) (path : Str)
  | status (c : StatusCode)
  | httpVersion (v : HttpVersion)
  | attachment
  | attachmentNamed (name : Str)
  | redirect (location : Str)
  | cookie (c : Cookie)
  | charset (c : Str)
  | removeHeader (key : Str)
  | writeContentLen (n : Option Nat)
  | writeVersion (v : Str)
  | writeCharset (c : Option Str)
  | writeCookies (cs : List Cookie)

/-- one operation, on the model -/
def ResOp.exec (U : Unicode) (r : Response) : ResOp → Res Response
  | .set k v => .ok (r.set k v)
  | .send clock body => r.send U clock body
  | .defaultHeaders clock => r.defaultHeaders U clock
  | .withType t => .ok (r.withType t)
  | .sendFile fs path => (r.sendFile U fs path).bind fun p => .ok p.1
  | .status c => .ok (r.status c)
  | .httpVersion v => .ok (r.setHttpVersion v)
  | .attachment => .ok r.attachment
  | .attachmentNamed n => .ok (r.attachmentWithFilename U n)
  | .redirect l => .ok (r.redirect l)
  | .cookie c => .ok (r.cookie c)
  | .charset c => .ok (r.setCharset c)
  | .removeHeader k => .ok { r with headers := r.headers.remove k }
  | .writeContentLen n => .ok { r with contentLen := n }
  | .writeVersion v => .ok { r with httpVersion := v }
  | .writeCharset c => .ok { r with charset := c }
  | .writeCookies cs => .ok { r with cookies := cs }

/-- a sequence of operations -/
def execOps (U : Unicode) : Response → List ResOp → Res Response
  | r, [] => .ok r
  | r, op :: ops => (op.exec U r).bind fun r' => execOps U r' ops

/-- the header names an operation may store or remove -/
def ResOp.touches : ResOp → List Str
  | .set k _ => [k]
  | .send .. => [c!"Content-Length", c!"Date", c!"Content-Type"]
  | .defaultHeaders .. => [c!"Content-Length", c!"Date", c!"Content-Type"]
  | .withType _ => [c!"Content-Type"]
  | .sendFile .. => [c!"Content-Type"]
  | .attachment => [c!"Content-Disposition"]
  | .attachmentNamed _ => [c!"Content-Disposition", c!"Content-Type"]
  | .redirect _ => [c!"Location"]
  | .removeHeader k => [k]
  | _ => []

/-- what an operation stores under a name, when that does not depend on anything else -/
def ResOp.stores : ResOp → List (Str × Str)
  | .set k v => [(k, v)]
  | .withType t => [(c!"Content-Type", t)]
  | .attachment => [(c!"Content-Disposition", c!"attachment")]
  | .redirect l => [(c!"Location", l)]
  | _ => []

/-- may the operation change the status? -/
def ResOp.setsStatus : ResOp → Bool
  | .status _ => true
  | .redirect _ => true
  | _ => false

/-- does the operation replace the body? -/
def ResOp.setsBody : ResOp → Bool
  | .send .. => true
  | .sendFile .. => true
  | _ => false

end Octane.Spec
