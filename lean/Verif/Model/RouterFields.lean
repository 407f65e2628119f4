import Verif.Model.Counter
/-
Writes to the public fields `middlewares` and `paths` of a router.

The types of what is in them cannot be named outside of the crate, but the values can be moved, dropped and exchanged,
the public fields of `Closures` and `PathData` can be written, and the public methods and traits of `PathBuf` and
`PathNode` can be used: a `PathBuf` is made by `try_into`, a tree is made by `default` or `collect`, added to by
`insert` and taken apart by `into_iter`.
-/
namespace Octane.Router
variable {S : Type u}

/-- a write to `src/router.rs:216` `pub middlewares` or to the fields of the `Closures` in it
(`src/middlewares/mod.rs:3-6`): pushing, removing, reordering, renumbering -/
def writeMiddlewares (r : Router S) (f : List (Closures S) → List (Closures S)) : Router S :=
  { r with middlewares := f r.middlewares }

/-- `router.paths.remove(&m)` on `src/router.rs:218` `pub paths` -/
def removeTree (r : Router S) (m : RequestMethod) : Router S := { r with paths := r.paths.remove m }

/-- taking the trees of two methods out of `src/router.rs:218` `pub paths` and putting them back exchanged -/
def swapTrees (r : Router S) (m m' : RequestMethod) : Router S :=
  let a := r.paths.get m
  let p1 := r.paths.remove m
  let b := p1.get m'
  let p2 := p1.remove m'
  let p3 := match a with
    | some t => p2.insert m' t
    | none => p2
  let p4 := match b with
    | some t => p3.insert m t
    | none => p3
  { r with paths := p4 }

/-- `router.paths.entry(m).or_default().insert(path.try_into()?, c)` on `src/router.rs:218` `pub paths`:
`PathNode::insert` (`src/path.rs:208-255`) with any handler and number (taken from the vector of some router).
The path is converted first (`src/path.rs:426-432`); if it is refused nothing happens. -/
def insertTree (r : Router S) (m : RequestMethod) (path : Str) (c : Closures S) : Res (Router S) :=
  match Path.parse path with
  | none => .ok r
  | some p => (PathNode.insert ((r.paths.get m).getD PathNode.new) p c).bind fun n =>
      .ok { r with paths := r.paths.insert m n }

/-- `router.paths.insert(m, router.paths.remove(&m)?.into_iter().filter_map(g).collect())` on `src/router.rs:218` `pub
paths`: a tree is taken apart (`src/path.rs:382-398`) and made again (`:408-416`) with other handlers, numbers and paths,
or without some of them. -/
def remakeTree (ord : PathNode.Order (Closures S)) (r : Router S) (m : RequestMethod)
    (g : PathData (Closures S) → Option (PathData (Closures S))) : Res (Router S) :=
  match r.paths.get m with
  | none => .ok r
  | some t =>
    match PathNode.ownedItems ord t with
    | none => .panic
    | some items => (PathNode.fromIter (items.filterMap g)).bind fun n =>
        .ok { r with paths := (r.paths.remove m).insert m n }

end Octane.Router
