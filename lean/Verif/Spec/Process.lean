import Verif.Model.Process
import Verif.Spec.Parallel
import Verif.Spec.Whole
import Verif.Spec.Delivery
/-
Specification of the whole process: the requests in the bytes of the clients, and programs that take
turns.
-/
namespace Octane.Spec
variable {W : Type u}

/-- The request `req` is what is made of `q` (`Asked.Given` is the case of a known method). -/
structure Asked.Was (q : Asked) (cookies : Bool) (n : Nat) (req : Request) : Prop where
  method : (q.method, req.requestLine.method) ∈ methodTable ∨
    (∀ m, (q.method, m) ∉ methodTable) ∧ req.requestLine.method = .none
  path : req.requestLine.path = resolve q.pieces
  version : (q.version, req.requestLine.version) ∈ versionTable ∨
    (∀ x, (q.version, x) ∉ versionTable) ∧ req.requestLine.version = .httpInvalid
  raw : req.headers.raw.map (fun h => (h.name, h.value)) = q.headers
  get : ∀ k, req.headers.get k = joined q.headers k
  body : (n = 0 ∧ req.body = []) ∨ (0 < n ∧ ∃ k, n ≤ k ∧ req.body = q.after.take k)
  noCookies : cookies = false ∨ joined q.headers c!"cookie" = none → req.cookies = []
  cookies : cookies = true → ∀ v, joined q.headers c!"cookie" = some v → CookiesRead v req.cookies

/-- The bytes of the connection begin with a request, and `req` is what is made of it. The pieces in which the
bytes come matter for the body only. -/
def Received (faithful cookies : Bool) (s : Sock) (req : Request) : Prop :=
  ∃ q n, Asked.In faithful cookies s.bytes q n ∧ q.Was cookies n req ∧ q.BodyIs s.segs n req.body

/-- The connections that are accepted, in order (as `accepted`). -/
def taken (plainOn tlsOn : Bool) : List (Happening W) → List (Bool × Sock)
  | [] => []
  | .connect tls s :: es =>
    if (if tls then tlsOn else plainOn) then (tls, s) :: taken plainOn tlsOn es else taken plainOn tlsOn es
  | .acceptErr tls :: es => if tls then taken plainOn false es else taken false tlsOn es
  | _ :: es => taken plainOn tlsOn es

/-- The other changes of the shared state. -/
def Happening.env? : Happening W → Option (W → W)
  | .env f => some f
  | _ => none

/-- Connection `i` is answered with `out`: the requests of the connections `order` are those of `z`, and
either the request of `i` is done with this outcome, or the client has sent no head and gets the 400
page. -/
def Answered (sv : PServer W) (z : SSys W) (order : List Nat) (i : Nat) (bytes out : Bytes) : Prop :=
  (∃ (j : Nat) (r : Reply), order[j]? = some i ∧ z.jobs[j]? = some (SJob.done r out)) ∨
  (i ∉ order ∧ NoHead bytes ∧ ∃ w, sv.write w (.page .badRequest) = .ok out)

/-- The task of connection `i`, whose client sends `bytes`, stands where the programs of the requests stand:
nothing has been begun while the request is read; then it is one of the programs; what is sent is the
outcome of that program; and a panic is one of that program, or there is no request (or none whose length
a vector can have). -/
def StandsFor (sv : PServer W) (z : SSys W) (order : List Nat) (i : Nat) (bytes : Bytes) : PTask W → Prop
  | .handshake | .reading _ | .refused => i ∉ order
  | .handling req reads =>
    ∃ (j : Nat) (p : Prog W Reply), order[j]? = some i ∧ z.jobs[j]? = some (SJob.running p) ∧ Stands (sv.stage req reads) p
  | .writing sent rest => Answered sv z order i bytes (sent ++ rest)
  | .finished sent => Answered sv z order i bytes sent
  | .broken sent => ∃ rest, Answered sv z order i bytes (sent ++ rest)
  | .panicked => (∃ j : Nat, order[j]? = some i ∧ z.jobs[j]? = some SJob.dead) ∨
    (i ∉ order ∧ ((NoHead bytes ∧ ∃ w, sv.write w (.page .badRequest) = .panic) ∨
      ∀ q n, Asked.In sv.feat.faithful sv.feat.cookies bytes q n → 9223372036854775807 < n))

/-- the task holds a thread and its handler does not return -/
def StuckConn (sv : PServer W) (c : PConn W) : Bool :=
  match c.task with
  | .handling req reads => match sv.stage req reads with
    | .hangs => true
    | _ => false
  | _ => false

/-- the task holds a thread and might not give it back -/
noncomputable def MayHangConn (sv : PServer W) (log : List (PReg W)) (c : PConn W) : Bool :=
  match c.task with
  | .handling req _ => @decide (¬ (requestProg sv.feat.urlVariables log req).Ends) (Classical.propDecidable _)
  | _ => false

/-- Something the server does by itself, or a completed read or write of a connection: no new connection,
no failure, no other change of the shared state. -/
def Happening.Internal : Happening W → Prop
  | .poll _ | .access _ | .finish _ | .write _ _ => True
  | _ => False

/-- The task has come to its end. -/
def EndedTask : PTask W → Prop
  | .finished _ | .broken _ | .panicked | .refused => True
  | _ => False

/-- The task is in the hands of the server: it is not waiting for a TLS handshake. -/
def Begun : PTask W → Prop
  | .handshake => False
  | _ => True

end Octane.Spec
