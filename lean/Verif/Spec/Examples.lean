import Verif.Spec.Programs
import Verif.Spec.Whole
/-
What the clients of the programs in the documentation are to see.
-/
namespace Octane.Spec
variable {W : Type u}

/-- The client reads, in one way only, this status with this text as the body and exactly these headers in some
order; the state of the application stays as it is. -/
def Sees (sv : Server W) (w : W) (s : Sock) (code reason : Str) (headers : List (Str × Str)) (text : Bytes) : Prop :=
  ∃ bytes v, sv.serve w s = .ok (w, bytes) ∧ ClientParses bytes v ∧ v.version = c!"1.1" ∧ v.code = code ∧
    v.reason = reason ∧ v.headers.Perm headers ∧ v.body = text ∧ ∀ v', ClientParses bytes v' → v' = v

/-- the headers of `send` -/
def sendHeaders (len date : Str) : List (Str × Str) :=
  [(c!"Content-Length", len), (c!"Date", date), (c!"Content-Type", c!"text/html")]

/-- Something is written, but no client can tell head and body apart in it. -/
def Unreadable (sv : Server W) (w : W) (s : Sock) : Prop :=
  ∃ bytes, sv.serve w s = .ok (w, bytes) ∧ ∀ v, ¬ ClientParses bytes v

/-- The bytes of the connection are, possibly followed by more, a request with this method for a target that names
this path (with a Host header if it is HTTP/1.1), the client closes its sending side after them, memory is
available and the clock is after 1970. -/
structure Asks (sv : Server W) (s : Sock) (method : Str) (path : PathBuf) : Prop where
  asked : ∃ (q : Asked) (n : Nat), q.In sv.feat.faithful sv.feat.cookies s.bytes n ∧ q.method = method ∧
    resolve q.pieces = path ∧ (q.version = c!"1.1" → ∃ h ∈ q.headers, lowered h.1 = c!"host")
  known : method ∈ methodTokens
  eof : s.fin = .eof
  len : s.bytes.length ≤ i64Max
  memory : ∀ k, sv.allocOk k = true
  clock : ∀ w, 0 ≤ sv.clock w ∧ sv.clock w ≤ i64Max

end Octane.Spec
