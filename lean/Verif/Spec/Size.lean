import Verif.Spec.Cost
/-
How big the tables of a router ought to be, and how often an entry is put into a table, from the program
that sets the router up alone.
-/
namespace Octane.Spec
variable {S : Type u}

/-- `n` is the number of lists with the property `P`. -/
def Count (P : List (Option Str) → Prop) (n : Nat) : Prop :=
  ∃ l : List (List (Option Str)), l.Nodup ∧ (∀ ks, ks ∈ l ↔ P ks) ∧ l.length = n

/-- The empty beginning, or the beginning of one of the patterns. -/
def Beginning (ps : List PathBuf) (ks : List (Option Str)) : Prop :=
  ks = [] ∨ ∃ p ∈ ps, ks <+: generic p

/-- One of the patterns, the names of its variables aside. -/
def Whole (ps : List PathBuf) (ks : List (Option Str)) : Prop := ∃ p ∈ ps, ks = generic p

/-- The patterns kept under a method (`All` is the method of `add_route`). -/
def patternsUnder (m : RequestMethod) (L : List (Reg S)) : List PathBuf :=
  if m = .all then patternsOfAny L else patternsOf m L

/-- How many segments the pattern of a registration has. -/
def Reg.segments (e : Reg S) : Nat :=
  match e.target with
  | .on _ p => p.length
  | .anyMethod p => p.length
  | .everywhere => 0

/-- Does the registration have a pattern? -/
def Reg.routed (e : Reg S) : Bool :=
  match e.target with
  | .everywhere => false
  | _ => true

mutual
/-- The program registers something for the method, at whatever depth, accepted or not. -/
def Names (m : RequestMethod) : Call S → Prop
  | .route v _ _ => v.method = m
  | .add _ => False
  | .mount calls _ => NamesL m calls
def NamesL (m : RequestMethod) : List (Call S) → Prop
  | [] => False
  | c :: cs => Names m c ∨ NamesL m cs
end

mutual
/-- Every accepted route, as often as there are routers that contain it: once for the router it is registered
with and once for every router that one is mounted in, directly or not; `d` is the number of routers around
the program. -/
def placed (d : Nat) : Call S → Nat
  | .route _ path _ => if (Path.parse path).isSome then d + 1 else 0
  | .add _ => 0
  | .mount calls _ => placedL (d + 1) calls
def placedL (d : Nat) : List (Call S) → Nat
  | [] => 0
  | c :: cs => placed d c + placedL d cs
end

mutual
/-- How deeply routers are mounted in routers. -/
def nesting : Call S → Nat
  | .route _ _ _ => 0
  | .add _ => 0
  | .mount calls _ => 1 + nestingL calls
def nestingL : List (Call S) → Nat
  | [] => 0
  | c :: cs => max (nesting c) (nestingL cs)
end

mutual
/-- The number of calls in a program, those of the mounted routers included. -/
def callCount : Call S → Nat
  | .route _ _ _ => 1
  | .add _ => 1
  | .mount calls _ => 1 + callCountL calls
def callCountL : List (Call S) → Nat
  | [] => 0
  | c :: cs => callCount c + callCountL cs
end

end Octane.Spec
