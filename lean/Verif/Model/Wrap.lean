import Verif.Model.Counter
/-
The same as `Model/Counter.lean` in a release build (`cargo build --release`), where an addition that does not fit
into a `usize` wraps around instead of panicking. A `usize` has 64 bits.
-/
namespace Octane.Router
variable {S : Type u}

/-- `a + b` on `usize` without overflow checks -/
def addUsize (a b : Nat) : Nat := (a + b) % 2 ^ 64

/-- `src/router.rs:416-433` `inject_method!` with `route_counter += 1` (`:431`) wrapping around. -/
def injectWrapped (r : Router S) (path : Str) (closure : Closure S) (method : RequestMethod) : Res (Router S) :=
  (injectMethod r path closure method).bind fun x =>
    .ok (if x.2 then { x.1 with routeCounter := addUsize r.routeCounter 1 } else x.1)

/-- `src/router.rs:460-467` `Route::add` with `route_counter += 1` (`:465`) wrapping around. -/
def addWrapped (r : Router S) (closure : Closure S) : Router S :=
  { add r closure with routeCounter := addUsize r.routeCounter 1 }

/-- `src/router.rs:237-247`, as `appendPaths`, with `v.data.index += self_count` (`:239`) wrapping around. -/
def appendPathsWrapped (inner : RequestMethod → PathNode.Order (Closures S)) (selfCount : Nat) :
    HMap RequestMethod (PathNode (Closures S)) → HMap RequestMethod (PathNode (Closures S)) →
    Res (HMap RequestMethod (PathNode (Closures S)))
  | [], paths => .ok paths
  | (method, tree) :: rest, paths =>
    match PathNode.ownedItems (inner method) tree with
    | none => .panic
    | some items =>
      let updated := items.map fun v =>
        { v with data := { v.data with index := addUsize v.data.index selfCount } }
      (match paths.get method with
        | some x => (PathNode.extend x updated).bind fun x' => .ok (paths.insert method x')
        | none => (PathNode.fromIter updated).bind fun x' => .ok (paths.insert method x')).bind
      fun paths' => appendPathsWrapped inner selfCount rest paths'

/-- `src/router.rs:234-255` `Router::append` with the additions of `:239`, `:251` and `:254` wrapping around. -/
def appendWrapped (ord : AppendOrder S) (self router : Router S) : Res (Router S) :=
  (appendPathsWrapped ord.inner self.routeCounter (ord.outer router.paths) self.paths).bind fun paths =>
    .ok { paths,
          middlewares := self.middlewares ++
            router.middlewares.map fun v => { v with index := addUsize v.index self.routeCounter },
          routeCounter := addUsize self.routeCounter router.routeCounter }

end Octane.Router
