import Verif.Spec.Router
import Verif.Model.Counter
/-
Programs that also write the counter of a router, and the numbers their handlers get.
-/
namespace Octane.Spec
variable {S : Type u}

/-- A program that sets up a router and may write its counter at any time. -/
inductive WCall (S : Type u) where
  | route (v : Verb) (path : Str) (h : Closure S)
  | add (h : Closure S)
  | write (n : Nat)
  | mount (calls : List (WCall S)) (ord : Router.AppendOrder S)

mutual
/-- The registrations of a program that starts with the counter at `c`, each with its number, and the counter at the
end: a registration takes the number on the counter, which then goes up by one; a mounted router keeps its numbers,
counted from the counter of the router it is mounted on. -/
def numbered (c : Nat) : WCall S → List (Reg S × Nat) × Nat
  | .route v path h =>
    match Path.parse path with
    | none => ([], c)
    | some p => ([(⟨v.target p, h⟩, c)], c + 1)
  | .add h => ([(⟨.everywhere, h⟩, c)], c + 1)
  | .write n => ([], n)
  | .mount calls _ => ((numberedL 0 calls).1.map fun e => (e.1, e.2 + c), c + (numberedL 0 calls).2)
def numberedL (c : Nat) : List (WCall S) → List (Reg S × Nat) × Nat
  | [] => ([], c)
  | x :: xs => ((numbered c x).1 ++ (numberedL (numbered c x).2 xs).1, (numberedL (numbered c x).2 xs).2)
end

mutual
/-- the enumeration orders are permutations, and what is written is a 64-bit number -/
def FairW : WCall S → Prop
  | .mount calls ord =>
    FairWL calls ∧ (∀ m, (ord.outer m).Perm m) ∧ (∀ meth t m, (ord.inner meth t m).Perm m)
  | .write n => n < 2 ^ 64
  | _ => True
def FairWL : List (WCall S) → Prop
  | [] => True
  | x :: xs => FairW x ∧ FairWL xs
end

mutual
/-- all the numbers that occur fit into 64 bits -/
def NumFits (c : Nat) : WCall S → Prop
  | .route _ path _ => Path.parse path ≠ none → c + 1 < 2 ^ 64
  | .add _ => c + 1 < 2 ^ 64
  | .write _ => True
  | .mount calls _ => NumFitsL 0 calls ∧ (∀ e ∈ (numberedL 0 calls).1, e.2 + c < 2 ^ 64) ∧
      c + (numberedL 0 calls).2 < 2 ^ 64
def NumFitsL (c : Nat) : List (WCall S) → Prop
  | [] => True
  | x :: xs => NumFits c x ∧ NumFitsL (numbered c x).2 xs
end

mutual
/-- executing such a program on the modelled code -/
def execW (r : Router S) : WCall S → Res (Router S)
  | .route v path h => Router.injectChecked r path h v.method
  | .add h => Router.addChecked r h
  | .write n => .ok (Router.writeCounter r n)
  | .mount calls ord => (execWL Router.new calls).bind fun sub => Router.appendChecked ord r sub
def execWL (r : Router S) : List (WCall S) → Res (Router S)
  | [] => .ok r
  | x :: xs => (execW r x).bind fun r' => execWL r' xs
end

mutual
/-- every write leaves the counter where it is or raises it -/
def Raising (c : Nat) : WCall S → Prop
  | .write n => c ≤ n
  | .mount calls _ => RaisingL 0 calls
  | _ => True
def RaisingL (c : Nat) : List (WCall S) → Prop
  | [] => True
  | x :: xs => Raising c x ∧ RaisingL (numbered c x).2 xs
end

mutual
/-- the same program without the writes -/
def WCall.plain : WCall S → List (Call S)
  | .route v path h => [.route v path h]
  | .add h => [.add h]
  | .write _ => []
  | .mount calls ord => [.mount (plainL calls) ord]
def plainL : List (WCall S) → List (Call S)
  | [] => []
  | x :: xs => x.plain ++ plainL xs
end

/-- the registrations, in the order in which they were made -/
def wlog (calls : List (WCall S)) : List (Reg S) := (numberedL 0 calls).1.map (·.1)

/-- is the registration kept in a tree that a request with this method consults? -/
def Target.inTree (m : RequestMethod) : Target → Prop
  | .on m' _ => m' = m
  | .anyMethod _ => True
  | .everywhere => False

/-- the handlers without a path are numbered in the order in which they were added -/
def PathlessInOrder (N : List (Reg S × Nat)) : Prop :=
  N.Pairwise fun a b => a.1.target = .everywhere → b.1.target = .everywhere → a.2 < b.2

end Octane.Spec
