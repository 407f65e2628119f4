import Verif.Props.Server
/-
C67: the order in which a hash map happens to be enumerated shows only in the order of the header lines.
-/
namespace Octane
open Spec
variable {W : Type u}

/-- one header as it stands in a response -/
def Spec.lineBytes (h : Str × Str) : Bytes := utf8 (wireHeader h) ++ crlfB

/-- two outcomes that differ at most in the order of the header lines of the response -/
def Spec.SameUpToOrder : Io (W × Bytes) → Io (W × Bytes) → Prop
  | .ok (w, b), .ok (w', b') => w = w' ∧ ∃ (first : Str) (hs hs' : List (Str × Str)) (last : Bytes), hs.Perm hs' ∧
      b = utf8 first ++ crlfB ++ hs.flatMap lineBytes ++ last ∧
      b' = utf8 first ++ crlfB ++ hs'.flatMap lineBytes ++ last
  | .panic, .panic | .pending, .pending | .abort, .abort => True
  | _, _ => False

theorem headersStr_bytes (m : HMap Str Str) :
    utf8 (m.flatMap fun d => d.1 ++ c!":" ++ [' '] ++ d.2 ++ c!"\r\n") = m.flatMap lineBytes := by
  induction m with
  | nil => rfl
  | cons d m ih =>
    rw [List.flatMap_cons, List.flatMap_cons, utf8_append, ih, lineBytes, wireHeader]
    congr 1
    have : d.1 ++ c!":" ++ [' '] ++ d.2 ++ c!"\r\n" = (d.1 ++ c!": " ++ d.2) ++ c!"\r\n" := by simp
    rw [this, utf8_append]
    rfl

theorem sendData_order (U : Unicode) (cookies : Bool) (ord ord' : MapOrder) (r : Response) (w : W) :
    SameUpToOrder (.ok (w, sendData (r.getData U cookies ord)))
      (.ok (w, sendData (r.getData U cookies ord'))) := by
  refine ⟨rfl, c!"HTTP" ++ c!"/" ++ r.httpVersion ++ [' '] ++ showInt r.statusCode.code ++ [' '] ++
    r.reasonPhrase U, ord.enum r.headers, ord'.enum r.headers,
    utf8 ((if cookies then Response.join c!"\r\n" (r.cookies.map Cookie.serialise) else []) ++ c!"\r\n") ++
      (copy r.body.getReader).1, (ord.perm _).trans (ord'.perm _).symm, ?_, ?_⟩
  all_goals
    simp only [sendData, Response.getData, Response.headersStr, Response.statusLine, utf8_append,
      headersStr_bytes]
    have : utf8 c!"\r\n" = crlfB := rfl
    simp only [this, List.append_assoc]

theorem declareError_order (sv : Server W) (ord' : MapOrder) (w : W) (k : StatusCode) :
    SameUpToOrder (Io.ofRes (sv.declareError w k)) (Io.ofRes ({ sv with ord := ord' }.declareError w k)) := by
  unfold Server.declareError errorPage
  cases ((Response.newFromSlice (utf8 notFoundPage)).status k).defaultHeaders sv.U (sv.clock w) with
  | panic => exact trivial
  | ok res => exact sendData_order _ _ _ _ _ _

theorem handle_order (sv : Server W) (ord' : MapOrder) (w : W) (req : Request) :
    SameUpToOrder (Io.ofRes (sv.handle w req)) (Io.ofRes ({ sv with ord := ord' }.handle w req)) := by
  rw [handle_spec, handle_spec]
  dsimp only
  split
  · exact declareError_order _ _ _ _
  · split
    · exact declareError_order _ _ _ _
    · cases Router.run sv.feat.urlVariables sv.router req (w, Response.newEmpty) with
      | panic => exact trivial
      | ok st =>
        simp only [Res.bind_ok']
        split
        · exact declareError_order _ _ _ _
        · exact sendData_order _ _ _ _ _ _

/-- C67: whatever arrives, the outcome, the state left by the handlers and the bytes sent are the same
for every order in which the hash map of response headers may be enumerated, except that the header
lines may be permuted. -/
theorem C67_order (sv : Server W) (ord' : MapOrder) (w : W) (s : Sock) :
    SameUpToOrder (sv.serve w s) ({ sv with ord := ord' }.serve w s) := by
  unfold Server.serve
  cases readHead s with
  | panic => exact trivial
  | pending => exact trivial
  | abort => exact trivial
  | ok out =>
    simp only [Io.bind_ok]
    cases out with
    | badRequest => exact declareError_order _ _ _ _
    | head hdrs line rem reader =>
      dsimp only
      cases (Headers.parse sv.feat.faithful hdrs).bind Res.unwrap with
      | panic => exact trivial
      | ok H =>
        simp only [Io.ofRes_ok, Io.bind_ok]
        cases (RequestLine.parse sv.feat.faithful line).bind Res.unwrap with
        | panic => exact trivial
        | ok rl =>
          simp only [Io.ofRes_ok, Io.bind_ok]
          cases Request.fromRaw sv.feat sv.allocOk H rl rem reader with
          | panic => exact trivial
          | pending => exact trivial
          | abort => exact trivial
          | ok r =>
            simp only [Io.bind_ok]
            cases r with
            | none => exact declareError_order _ _ _ _
            | some req => exact handle_order _ _ _ _

/-- the map of headers enumerated backwards -/
def MapOrder.rev : MapOrder := ⟨List.reverse, fun m => List.reverse_perm m⟩

/-- two orders do give different bytes -/
example :
    (demo (doing fun _ => [.send 0 [104, 105]])).serve () (sends c!"GET / HTTP/1.0\r\nA: b\r\n\r\n") ≠
    { demo (doing fun _ => [.send 0 [104, 105]]) with ord := .rev }.serve ()
      (sends c!"GET / HTTP/1.0\r\nA: b\r\n\r\n") := by
  decide +kernel

end Octane
