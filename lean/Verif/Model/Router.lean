import Verif.Model.Request
/-
Model of `src/router.rs` and `src/middlewares/mod.rs`.
-/
namespace Octane

/-- `src/router.rs:39-44` `enum Flow`. -/
inductive Flow where
  | stop | next
  deriving DecidableEq

/-- `src/router.rs:48-50` `Flow::should_continue`. -/
def Flow.shouldContinue : Flow → Bool
  | .next => true
  | .stop => false

/-- `src/router.rs:14` `type Closure`: an arbitrary function of the request and of the state it
may change. `S` is the response together with anything else the closure can touch. -/
abbrev Closure (S : Type u) := MatchedRequest → S → Res (S × Flow)

/-- `src/middlewares/mod.rs:3-6` `struct Closures`. -/
structure Closures (S : Type u) where
  closure : Closure S
  index : Nat

/-- `src/router.rs:212-219` `struct Router`. -/
structure Router (S : Type u) where
  routeCounter : Nat
  middlewares : List (Closures S)
  paths : HMap RequestMethod (PathNode (Closures S))

namespace Router
variable {S : Type u}

/-- `src/router.rs:226-232` `Router::new`. -/
def new : Router S := { routeCounter := 0, middlewares := [], paths := [] }

/-- `src/router.rs:416-433` `inject_method!` (used by `head`, `put`, `get`, `delete`, `post`,
`patch` with their method and by `add_route` with `All`, `:435-472`; `src/server.rs:228-257`
forwards to these). The receiver `paths.entry(m).or_insert(PathNode::new())` is evaluated before
`PathBuf::parse(path)?`, so the (empty) tree of the method is created even when the path is
invalid. The `Bool` is `true` for `Ok(())`, `false` for `Err(InvalidPathError)`. -/
def injectMethod (r : Router S) (path : Str) (closure : Closure S) (method : RequestMethod) :
    Res (Router S × Bool) :=
  let node := (r.paths.get method).getD PathNode.new
  let paths := r.paths.insert method node
  match Path.parse path with
  | none => .ok ({ r with paths }, false)
  | some p =>
    (PathNode.insert node p { closure, index := r.routeCounter }).bind fun node' =>
      .ok ({ r with paths := paths.insert method node', routeCounter := r.routeCounter + 1 }, true)

/-- `src/router.rs:460-467` `Route::add` (and `src/server.rs:247-254`). -/
def add (r : Router S) (closure : Closure S) : Router S :=
  { r with middlewares := r.middlewares ++ [{ closure, index := r.routeCounter }],
           routeCounter := r.routeCounter + 1 }

/-- How the hash maps are enumerated while a router is appended: the order of the outer map and,
for each method, the orders used while draining that method's tree. -/
structure AppendOrder (S : Type u) where
  outer : HMap RequestMethod (PathNode (Closures S)) → HMap RequestMethod (PathNode (Closures S))
  inner : RequestMethod → PathNode.Order (Closures S)

/-- `src/router.rs:237-247`: the loop over the other router's trees. -/
def appendPaths (inner : RequestMethod → PathNode.Order (Closures S)) (selfCount : Nat) :
    HMap RequestMethod (PathNode (Closures S)) → HMap RequestMethod (PathNode (Closures S)) →
    Res (HMap RequestMethod (PathNode (Closures S)))
  | [], paths => .ok paths
  | (method, tree) :: rest, paths =>
    match PathNode.ownedItems (inner method) tree with
    | none => .panic
    | some items =>
      let updated := items.map fun v =>
        { v with data := { v.data with index := v.data.index + selfCount } }
      (match paths.get method with
        | some x => (PathNode.extend x updated).bind fun x' => .ok (paths.insert method x')
        | none => (PathNode.fromIter updated).bind fun x' => .ok (paths.insert method x')).bind
      fun paths' => appendPaths inner selfCount rest paths'

/-- `src/router.rs:234-255` `Router::append` (`Octane::with_router`, `src/server.rs:104-106`). -/
def append (ord : AppendOrder S) (self router : Router S) : Res (Router S) :=
  let selfCount := self.routeCounter
  let otherCount := router.routeCounter
  (appendPaths ord.inner selfCount (ord.outer router.paths) self.paths).bind fun paths =>
    .ok { paths,
          middlewares := self.middlewares ++
            router.middlewares.map fun v => { v with index := v.index + selfCount },
          routeCounter := selfCount + otherCount }

/-- `routes.sort_by_key(|v| v.index)` (`src/router.rs:265`, `:271`): a stable sort. -/
def sortByIndex (l : List (MatchedPath (Closures S))) : List (MatchedPath (Closures S)) :=
  l.mergeSort fun a b => decide (a.data.index ≤ b.data.index)

/-- `src/router.rs:263-273`: the matches of one method's tree, or nothing if the method has
no tree. -/
def methodMatches (uv : Bool) (r : Router S) (method : RequestMethod) (path : PathBuf) :
    Res (List (List (MatchedPath (Closures S)))) :=
  match r.paths.get method with
  | none => .ok []
  | some functions => (functions.get uv path).bind fun routes => .ok [sortByIndex routes]

/-- `src/router.rs:262-284`: the vector `matches`. -/
def collectMatches (uv : Bool) (r : Router S) (rl : RequestLine) :
    Res (List (List (MatchedPath (Closures S)))) :=
  (methodMatches uv r rl.method rl.path).bind fun m1 =>
    (methodMatches uv r .all rl.path).bind fun m2 =>
      .ok (m1 ++ m2 ++ [r.middlewares.map fun c => { data := c, vars := [] }])

/-- `src/router.rs:298-305`: the scan for the smallest unconsumed index; `n` is the position in
`matches`, the accumulator is `(minind, minval)`. -/
def scanMin : List (List (MatchedPath (Closures S)) × Nat) → Nat → Nat × Nat → Nat × Nat
  | [], _, acc => acc
  | (v, i) :: rest, n, (minind, minval) =>
    match v[i]? with
    | some x =>
      if x.data.index < minval then scanMin rest (n + 1) (n, x.data.index)
      else scanMin rest (n + 1) (minind, minval)
    | none => scanMin rest (n + 1) (minind, minval)

/-- `src/router.rs:297-315`: the dispatch loop, `k` iterations left. Indexing out of range
panics; so may a handler. -/
def dispatch (req : Request) (mtch : List (List (MatchedPath (Closures S)))) :
    Nat → List Nat → S → Res S
  | 0, _, s => .ok s
  | k + 1, indices, s =>
    let minind := (scanMin (mtch.zip indices) 0 (0, u64Max)).1
    match mtch[minind]?, indices[minind]? with
    | some v, some i =>
      match v[i]? with
      | some x =>
        (x.data.closure { request := req, vars := x.vars } s).bind fun (s', flow) =>
          if flow.shouldContinue then dispatch req mtch k (indices.set minind (i + 1)) s'
          else .ok s'
      | none => .panic
    | _, _ => .panic

/-- `src/router.rs:259-316` `Router::run`. -/
def run (uv : Bool) (r : Router S) (req : Request) (s : S) : Res S :=
  (collectMatches uv r req.requestLine).bind fun mtch =>
    dispatch req mtch (mtch.map List.length).sum (List.replicate mtch.length 0) s

end Router
end Octane
