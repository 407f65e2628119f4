import Verif.Spec.Counter
import Verif.Model.Wrap
/-
Programs that set up a router, in a release build.
-/
namespace Octane.Spec
variable {S : Type u}

mutual
/-- executing a program on the modelled code of a release build -/
def execR (r : Router S) : WCall S → Res (Router S)
  | .route v path h => Router.injectWrapped r path h v.method
  | .add h => .ok (Router.addWrapped r h)
  | .write n => .ok (Router.writeCounter r n)
  | .mount calls ord => (execRL Router.new calls).bind fun sub => Router.appendWrapped ord r sub
def execRL (r : Router S) : List (WCall S) → Res (Router S)
  | [] => .ok r
  | x :: xs => (execR r x).bind fun r' => execRL r' xs
end

/-- The numbers of the registrations in a release build: what they would be with numbers of any size, modulo
2^64. -/
def wrapped (calls : List (WCall S)) : List (Reg S × Nat) := (numberedL 0 calls).1.map fun e => (e.1, e.2 % 2 ^ 64)

mutual
/-- a program that does not write the counter, as one of the programs that might -/
def unwritten : Call S → WCall S
  | .route v path h => .route v path h
  | .add h => .add h
  | .mount calls ord => .mount (unwrittenL calls) ord
def unwrittenL : List (Call S) → List (WCall S)
  | [] => []
  | x :: xs => unwritten x :: unwrittenL xs
end

end Octane.Spec
