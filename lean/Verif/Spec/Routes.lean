import Verif.Spec.Interchange
/-
Specification for C162 and C163: a procedure that compares two tables of registrations, and how many tests any suite
needs.
-/
namespace Octane.Spec

/-- no CRLF in it -/
def noCrlf : Str → Bool
  | [] => true
  | c :: t => !(c == '\r' && t.head? == some '\n') && noCrlf t

/-- the text can be a segment of the path of a request -/
def sendable (x : Str) : Bool :=
  x != [] && x != ['.'] && x != ['.', '.'] && !x.contains '/' && !x.contains ' ' && noCrlf x

/-- the pattern of the registration, if it has one -/
def Target.pattern : Target → PathBuf
  | .on _ p => p
  | .anyMethod p => p
  | .everywhere => []

/-- The constants of the patterns. -/
def Table.constants (T : Table) : List Str := (T.flatMap fun e => e.1.pattern).filter fun seg => decide (¬ IsVar seg)

/-- The names of the variables of the patterns. -/
def Table.names (T : Table) : List Str :=
  ((T.flatMap fun e => e.1.pattern).filter fun seg => decide (IsVar seg)).map List.tail

/-- The number of segments of the longest pattern. -/
def Table.depth : Table → Nat
  | [] => 0
  | e :: T => max e.1.pattern.length (Table.depth T)

/-- What a request calls, with the values of these variables only. -/
def Table.shown (uv : Bool) (names : List Str) (T : Table) (m : RequestMethod) (path : PathBuf) :
    List (Nat × List (Option Str)) :=
  (T.calls uv m path).map fun c => (c.1, names.map c.2)

/-- The procedure: compare what the two tables call for finitely many methods and paths. -/
def Table.same (uv : Bool) (T T' : Table) : Bool :=
  let K := Table.constants (T ++ T')
  methodTable.all fun e => (List.range (Table.depth (T ++ T') + 2)).all fun n =>
    ((typicals K (longest K + 1) 0 n).filter fun path => path.all sendable).all fun path =>
      T.shown uv (Table.names (T ++ T')) e.2 path == T'.shown uv (Table.names (T ++ T')) e.2 path

/-- The two tables do the same with these connections, whatever handlers the names stand for. -/
def Table.AgreeOn (feat : Features) (conns : List Sock) (T T' : Table) : Prop :=
  ∀ (W : Type) (sv : Server W), sv.feat = feat → ∀ handlers : Nat → Closure (W × Response), (∀ n, ByName (handlers n)) →
    ∀ (c c' : List (Call (W × Response))) (r r' : Router (W × Response)), FairL c → FairL c' →
      logOfL c = T.log handlers → logOfL c' = T'.log handlers →
      execL Router.new c = .ok r → execL Router.new c' = .ok r' →
      ∀ w, ∀ s ∈ conns, { sv with router := r' }.serve w s = { sv with router := r }.serve w s

/-- These connections are a complete test for patterns of at most `N` segments with constants among `K`: two tables that
do the same with them, whatever the handlers, can stand for each other. -/
def Complete (feat : Features) (K : List Str) (N : Nat) (conns : List Sock) : Prop :=
  ∀ T T' : Table, T.Good → T'.Good → (∀ e ∈ T, e.1.Over K N) → (∀ e ∈ T', e.1.Over K N) →
    T.AgreeOn feat conns T' → T.Interchangeable feat T'

/-- The paths of `n` segments among `K`. -/
def pathsOver (K : List Str) : Nat → List PathBuf
  | 0 => [[]]
  | n + 1 => K.flatMap fun s => (pathsOver K n).map (s :: ·)

/-- The methods for which a handler can be registered. -/
def routed : List RequestMethod := [.get, .post, .put, .delete, .head, .patch]

end Octane.Spec
