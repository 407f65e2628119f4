import Verif.Model.Examples2
import Verif.Spec.Examples
/-
What the programs in the documentation of the router and of the request are supposed to do.
-/
namespace Octane.Spec
variable {W : Type u}

/-- `Asks`, with the request named: the connection brings the request `q` (with a Host header if it is HTTP/1.1, and a
known method), the client closes its sending side, memory is available and the clock is after 1970. -/
structure Brings (sv : Server W) (s : Sock) (q : Asked) : Prop where
  asked : ∃ n, q.In sv.feat.faithful sv.feat.cookies s.bytes n
  host : q.version = c!"1.1" → ∃ h ∈ q.headers, lowered h.1 = c!"host"
  known : q.method ∈ methodTokens
  eof : s.fin = .eof
  len : s.bytes.length ≤ i64Max
  memory : ∀ k, sv.allocOk k = true
  clock : ∀ w, 0 ≤ sv.clock w ∧ sv.clock w ≤ i64Max

/-- What a reader of the examples expects of a program that sends what it has read. `header`: GET of `/` with one
header of the name in the example shows its value. `query`: GET of `/?value=v` shows `v` (letters here). -/
structure Guided (sv : Server W) (w : W) (s : Sock) (q : Asked) : Prop where
  header : ∀ name flow v r, name ∈ [c!"HeaderName", c!"Some-Header"] → resolve q.pieces = [] →
    (q.headers.filter fun h => lowered h.1 = lowered name) = [(name, v)] →
    execL Router.new (reading (Doc.header name) flow (sendRead sv.U sv.clock)) = .ok r →
    Shows { sv with router := r } w s (utf8 v)
  query : ∀ flow v r, q.pieces = [[], c!"?value=" ++ v] → (∀ c ∈ v, isLetter c) →
    execL Router.new (reading (Doc.query sv.feat) flow (sendRead sv.U sv.clock)) = .ok r →
    Shows { sv with router := r } w s (utf8 v)

end Octane.Spec
