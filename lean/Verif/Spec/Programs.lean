import Verif.Model.Programs
import Verif.Spec.Response
import Verif.Spec.Text
import Verif.Model.Server
/-
What applications with handlers without branches are supposed to answer.
-/
namespace Octane.Spec
variable {W : Type u}

/-- Of the registrations that apply, in order, those that run: up to the first that stops. -/
def upToStop {α : Type v} (flow : α → Flow) : List α → List α
  | [] => []
  | x :: xs => x :: (if flow x = .stop then [] else upToStop flow xs)

/-- the scripts that run for a request -/
def Script.ran (uv : Bool) (req : Request) (xs : List Script) : List Script :=
  upToStop Script.flow (xs.filter fun x => x.target.applies uv req.requestLine.method req.requestLine.path)

/-- everything they do to the response, each with the variables of its own pattern -/
def Script.allOps (uv : Bool) (req : Request) (now : Int) (xs : List Script) : List ResOp :=
  (Script.ran uv req xs).flatMap fun x => x.ops ⟨req, x.target.vars uv req.requestLine.path⟩ now

/-- the text a client is to see: that of the last handler that runs -/
def shown (uv : Bool) (m : RequestMethod) (path : PathBuf) (xs : List Text) : Option Bytes :=
  ((upToStop Text.flow (xs.filter fun x => x.target.applies uv m path)).getLast?).map (·.text)

/-- The client reads, in one way only, `200 OK` with this text as the body, and exactly three headers: the length,
the date and the type. -/
def Shows (sv : Server W) (w : W) (s : Sock) (text : Bytes) : Prop :=
  ∃ bytes v n d, sv.serve w s = .ok (w, bytes) ∧ ClientParses bytes v ∧ v.version = c!"1.1" ∧ v.code = c!"200" ∧
    v.reason = c!"OK" ∧ v.body = text ∧ Numeral text.length n ∧ dateHeader (sv.clock w) = .ok (some d) ∧
    v.headers.Perm [(c!"Content-Length", n), (c!"Date", d), (c!"Content-Type", c!"text/html")] ∧
    ∀ v', ClientParses bytes v' → v' = v

end Octane.Spec
