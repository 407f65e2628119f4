import Verif.Model.Path
/-
How deep the trees of a router are: what dropping a tree and the iterators over a tree need.
-/
namespace Octane
namespace PathNode
variable {T : Type u}

mutual
/-- The calls of the destructor of `PathNode` (`src/path.rs:165-169`; generated by the compiler, as there is no
`impl Drop`) that are open at the same time at most while a tree is dropped: dropping a node drops its map and with it
every tree in it. The derived `Clone` (`src/path.rs:165`) calls itself in the same way. The entries of a leaf are not
looked into. -/
def drops : PathNode T → Nat
  | .node m => 1 + dropsL m
  | .leaf _ => 1
def dropsL : List (PathChunk × PathNode T) → Nat
  | [] => 0
  | (_, n) :: m => max (drops n) (dropsL m)
end

mutual
/-- How many maps are inside each other in a tree (`src/path.rs:165-169`). -/
def levels : PathNode T → Nat
  | .node m => 1 + levelsL m
  | .leaf _ => 0
def levelsL : List (PathChunk × PathNode T) → Nat
  | [] => 0
  | (_, n) :: m => max (levels n) (levelsL m)
end

/-- The state of an iterator after `k` turns of the loop in its `next` (`src/path.rs:295-325`, `:351-378`), over as many
calls of `next` as it takes; `none` if it has ended before. -/
def after {σ : Type u} {α : Type v} (step : σ → IterStep σ α) : Nat → σ → Option σ
  | 0, s => some s
  | k + 1, s =>
    match step s with
    | .yield _ s' => after step k s'
    | .continue s' => after step k s'
    | .done => none

end PathNode
end Octane
