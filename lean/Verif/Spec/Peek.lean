import Verif.Model.Peek
/-
What a `DoublePeek` over a list of items shows, said by positions in the list.
-/
namespace Octane.Spec
open Octane.Query (PeekOp)

/-- the number of items that have been asked for -/
def takenOf (ops : List PeekOp) : Nat := ops.count .next

/-- What every call returns when `n` items have been taken, the `held` ones after them have been looked at, and `again`
says that the next look is to start over. -/
def shows (it : Str) : Nat → Nat → Bool → List PeekOp → List (Option Char)
  | _, _, _, [] => []
  | n, held, again, .next :: ops => it[n]? :: shows it (n + 1) (held - 1) again ops
  | n, held, _, .unpeek :: ops => shows it n held true ops
  | n, held, true, .peek :: ops =>
    if held = 0 then it[n]? :: shows it n (if n < it.length then 1 else 0) false ops
    else it[n]? :: shows it n held false ops
  | n, held, false, .peek :: ops =>
    if held = 2 then none :: shows it n 2 false ops
    else it[n + held]? :: shows it n (if n + held < it.length then held + 1 else held) false ops

end Octane.Spec
