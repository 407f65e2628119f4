import Verif.Spec.Dead
import Verif.Model.Server
/-
Specification for C160 and C161: tables of registrations with names in place of the handlers, what a request calls by
such a table, and when two tables can stand for each other.
-/
namespace Octane.Spec
variable {S : Type u}

/-- Registrations with names in place of their handlers, in order. -/
abbrev Table := List (Target × Nat)

/-- The registrations of the table, the names standing for these handlers. -/
def Table.log (T : Table) (handlers : Nat → Closure S) : List (Reg S) := T.map fun e => ⟨e.1, handlers e.2⟩

/-- What a request with this method for this path calls if no handler stops: names, each with the variables its
handler is shown. -/
def Table.calls (uv : Bool) (T : Table) (m : RequestMethod) (path : PathBuf) : List (Nat × (Str → Option Str)) :=
  (T.filter fun e => e.1.applies uv m path).map fun e => (e.2, fun k => (e.1.vars uv path).get k)

/-- There is a method of the router with which this can be registered. -/
def Target.Registrable (t : Target) : Prop :=
  t = .everywhere ∨ ∃ (v : Verb) (text : Str) (p : PathBuf), Path.parse text = some p ∧ t = v.target p

/-- The table can be registered and its numbers fit. -/
def Table.Good (T : Table) : Prop := (∀ e ∈ T, e.1.Registrable) ∧ T.length < 2 ^ 64

/-- The handler looks at the variables only by asking for them by their names. -/
def ByName (h : Closure S) : Prop :=
  ∀ mr mr' s, mr.request = mr'.request → (∀ k, mr.vars.get k = mr'.vars.get k) → h mr s = h mr' s

/-- Two tables can stand for each other: whatever handlers the names stand for, whatever they share and whatever calls
make the registrations, in mounted routers or not, the two servers do the same with every connection. -/
def Table.Interchangeable (feat : Features) (T T' : Table) : Prop :=
  ∀ (W : Type) (sv : Server W), sv.feat = feat → ∀ handlers : Nat → Closure (W × Response), (∀ n, ByName (handlers n)) →
    ∀ (c c' : List (Call (W × Response))) (r r' : Router (W × Response)), FairL c → FairL c' →
      logOfL c = T.log handlers → logOfL c' = T'.log handlers →
      execL Router.new c = .ok r → execL Router.new c' = .ok r' →
      ∀ w s, { sv with router := r' }.serve w s = { sv with router := r }.serve w s

/-- The pattern of the registration has at most `N` segments, and its constants are among `K`. -/
def Target.Over (K : List Str) (N : Nat) (t : Target) : Prop :=
  match t with
  | .on _ p => p.length ≤ N ∧ ∀ seg ∈ p, IsVar seg ∨ seg ∈ K
  | .anyMethod p => p.length ≤ N ∧ ∀ seg ∈ p, IsVar seg ∨ seg ∈ K
  | .everywhere => True

/-- A segment that differs from everything shorter, another one at each position. -/
def fresh (L i : Nat) : Str := List.replicate (L + i + 1) 'x'

/-- The paths of `n` segments, from position `i` on, each of them one of the constants or the new one of its position. -/
def typicals (K : List Str) (L : Nat) : Nat → Nat → List PathBuf
  | _, 0 => [[]]
  | i, n + 1 => (fresh L i :: K).flatMap fun s => (typicals K L (i + 1) n).map (s :: ·)

/-- The length of the longest. -/
def longest : List Str → Nat
  | [] => 0
  | a :: K => max a.length (longest K)

/-- A request with this method for this path. -/
def testBytes (name : Str) (path : PathBuf) : Bytes :=
  utf8 (name ++ ' ' :: ['/'].intercalate ([] :: path)) ++ utf8 c!" HTTP/1.1\r\nHost: b\r\n\r\n"

/-- Test connections for patterns of at most `N` segments with constants among `K`: one request for each method and
each path of up to `N + 1` segments that are constants or new. -/
def suite (K : List Str) (N : Nat) : List Bytes :=
  methodTable.flatMap fun e => (List.range (N + 2)).flatMap fun n =>
    (typicals K (longest K + 1) 0 n).map fun path => testBytes e.1 path

/-- What is noted by handlers that only note that they are called. -/
abbrev Notes := List (Nat × (Str → Option Str))

/-- The handler that notes its name and its variables and hands on. -/
def noting (n : Nat) : Closure (Notes × Response) :=
  fun mr st => .ok ((st.1 ++ [(n, fun k => mr.vars.get k)], st.2), .next)

end Octane.Spec
