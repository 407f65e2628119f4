import Verif.Model.Query
/-
What can be done with a `DoublePeek` from outside: its methods, and its public field `unpeek`, in any order.
-/
namespace Octane
namespace Query

/-- One use of a `DoublePeek`: `next` (`src/query.rs:89-99`), `peek` (`:63-81`), or setting the public field `unpeek` to
`true` (`:46`, as `unescape_hex` does at `:11`). -/
inductive PeekOp where
  | next | peek | unpeek
  deriving DecidableEq

/-- `src/query.rs:53-99`: a program of uses, and what the calls of `next` and `peek` in it return. Simplification: items
are `char`s, the only ones the code uses it with, and the iterator underneath stays at its end once it is there. -/
def DoublePeek.runOps (p : DoublePeek) : List PeekOp → Res (List (Option Char) × DoublePeek)
  | [] => .ok ([], p)
  | .next :: ops => (runOps p.next.2 ops).bind fun (outs, q) => .ok (p.next.1 :: outs, q)
  | .peek :: ops => p.peek.bind fun (o, p') => (runOps p' ops).bind fun (outs, q) => .ok (o :: outs, q)
  | .unpeek :: ops => runOps { p with unpeek := true } ops

end Query
end Octane
