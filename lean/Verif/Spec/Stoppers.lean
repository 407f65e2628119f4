import Verif.Spec.Routes
/-
Specification for C164: tables of registrations of which it is known that some handlers never hand on.
-/
namespace Octane.Spec

/-- The list up to and including the first of these names. -/
def tillStop {α : Type u} (stops : Nat → Bool) : List (Nat × α) → List (Nat × α)
  | [] => []
  | c :: l => if stops c.1 then [c] else c :: tillStop stops l

/-- Two tables can stand for each other as long as the handlers with these names never hand on: whatever handlers the
names stand for otherwise, whatever they share and whatever calls make the registrations, the two servers do the same
with every connection. -/
def Table.InterchangeableWith (stops : Nat → Bool) (feat : Features) (T T' : Table) : Prop :=
  ∀ (W : Type) (sv : Server W), sv.feat = feat → ∀ handlers : Nat → Closure (W × Response), (∀ n, ByName (handlers n)) →
    (∀ n, stops n = true → Stops (handlers n)) →
    ∀ (c c' : List (Call (W × Response))) (r r' : Router (W × Response)), FairL c → FairL c' →
      logOfL c = T.log handlers → logOfL c' = T'.log handlers →
      execL Router.new c = .ok r → execL Router.new c' = .ok r' →
      ∀ w s, { sv with router := r' }.serve w s = { sv with router := r }.serve w s

/-- The procedure of C162, comparing only up to the first handler that does not hand on. -/
def Table.sameWith (stops : Nat → Bool) (uv : Bool) (T T' : Table) : Bool :=
  let K := Table.constants (T ++ T')
  methodTable.all fun e => (List.range (Table.depth (T ++ T') + 2)).all fun n =>
    ((typicals K (longest K + 1) 0 n).filter fun path => path.all sendable).all fun path =>
      tillStop stops (T.shown uv (Table.names (T ++ T')) e.2 path) == tillStop stops (T'.shown uv (Table.names (T ++ T')) e.2 path)

/-- The handler that notes its name and its variables, and hands on unless it is one of those that do not. -/
def notingWith (stops : Nat → Bool) (n : Nat) : Closure (Notes × Response) :=
  fun mr st => .ok ((st.1 ++ [(n, fun k => mr.vars.get k)], st.2), if stops n then .stop else .next)

end Octane.Spec
