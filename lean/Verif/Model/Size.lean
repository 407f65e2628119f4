import Verif.Spec.Router
/-
How big the tables of a router are, and what setting them up costs: the types of `src/path.rs` and
`src/router.rs` measured, and the functions that fill them again, each returning beside its result the
number of calls of `PathNode::insert`. `Proof/Size.lean` proves that the results are those of the plain
functions.
-/
namespace Octane
namespace PathNode
variable {T : Type u}

mutual
/-- The hash maps of a tree: `PathNode::Node` (`src/path.rs:166-169`). -/
def nodes : PathNode T → Nat
  | .node m => 1 + nodesL m
  | .leaf _ => 0
def nodesL : List (PathChunk × PathNode T) → Nat
  | [] => 0
  | (_, n) :: m => nodes n + nodesL m
end

mutual
/-- The vectors of entries of a tree: `PathNode::Leaf` (`src/path.rs:166-169`). -/
def lists : PathNode T → Nat
  | .node m => listsL m
  | .leaf _ => 1
def listsL : List (PathChunk × PathNode T) → Nat
  | [] => 0
  | (_, n) :: m => lists n + listsL m
end

mutual
/-- The entries (`PathData`, `src/path.rs:145-149`) in the vectors of a tree. -/
def entries : PathNode T → Nat
  | .node m => entriesL m
  | .leaf l => l.length
def entriesL : List (PathChunk × PathNode T) → Nat
  | [] => 0
  | (_, n) :: m => entries n + entriesL m
end

/-- `src/path.rs:400-406` `Extend::extend`, counting the calls of `insert`. -/
def extendC : PathNode T → List (PathData T) → Res (PathNode T) × Nat
  | n, [] => (.ok n, 0)
  | n, d :: ds =>
    match insert n d.origPath d.data with
    | .panic => (.panic, 1)
    | .ok n' =>
      let r := extendC n' ds
      (r.1, 1 + r.2)

end PathNode

namespace Router
variable {S : Type u}

/-- `src/router.rs:416-433` `inject_method!`, counting the calls of `insert`: one, unless the path is
refused. -/
def injectMethodC (r : Router S) (path : Str) (closure : Closure S) (method : RequestMethod) :
    Res (Router S × Bool) × Nat :=
  (injectMethod r path closure method, if (Path.parse path).isSome then 1 else 0)

/-- `src/router.rs:237-247`, counting the calls of `insert` (`from_iter` extends an empty tree,
`src/path.rs:408-416`). -/
def appendPathsC (inner : RequestMethod → PathNode.Order (Closures S)) (selfCount : Nat) :
    HMap RequestMethod (PathNode (Closures S)) → HMap RequestMethod (PathNode (Closures S)) →
    Res (HMap RequestMethod (PathNode (Closures S))) × Nat
  | [], paths => (.ok paths, 0)
  | (method, tree) :: rest, paths =>
    match PathNode.ownedItems (inner method) tree with
    | none => (.panic, 0)
    | some items =>
      let updated := items.map fun v =>
        { v with data := { v.data with index := v.data.index + selfCount } }
      let x := match paths.get method with
        | some x => PathNode.extendC x updated
        | none => PathNode.extendC PathNode.new updated
      match x.1 with
      | .panic => (.panic, x.2)
      | .ok x' =>
        let r := appendPathsC inner selfCount rest (paths.insert method x')
        (r.1, x.2 + r.2)

/-- `src/router.rs:234-255` `Router::append`, counting the calls of `insert`. -/
def appendC (ord : AppendOrder S) (self router : Router S) : Res (Router S) × Nat :=
  let selfCount := self.routeCounter
  let otherCount := router.routeCounter
  let p := appendPathsC ord.inner selfCount (ord.outer router.paths) self.paths
  (p.1.bind fun paths =>
    .ok { paths,
          middlewares := self.middlewares ++
            router.middlewares.map fun v => { v with index := v.index + selfCount },
          routeCounter := selfCount + otherCount }, p.2)

end Router

namespace Spec
variable {S : Type u}

mutual
/-- `exec` (`Spec/Router.lean`), counting the calls of `insert`. -/
def execC (r : Router S) : Call S → Res (Router S) × Nat
  | .route v path h =>
    let x := Router.injectMethodC r path h v.method
    (x.1.bind fun x => .ok x.1, x.2)
  | .add h => (.ok (Router.add r h), 0)
  | .mount calls ord =>
    let x := execLC Router.new calls
    match x.1 with
    | .panic => (.panic, x.2)
    | .ok sub =>
      let y := Router.appendC ord r sub
      (y.1, x.2 + y.2)
def execLC (r : Router S) : List (Call S) → Res (Router S) × Nat
  | [] => (.ok r, 0)
  | c :: cs =>
    let x := execC r c
    match x.1 with
    | .panic => (.panic, x.2)
    | .ok r' =>
      let y := execLC r' cs
      (y.1, x.2 + y.2)
end

end Spec
end Octane
