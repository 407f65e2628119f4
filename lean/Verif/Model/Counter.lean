import Verif.Model.Router
/-
The public field `route_counter` of a router, and what happens at the largest number.

Everywhere else in the model a router is only set up by its methods, and its counter is the number of registrations.
Here a program may also write the field. Numbers then need not fit a `usize`; the additions are modelled as in a build
with overflow checks (`cargo build`, `cargo test`), where they panic. For a release build, where they wrap
around instead, see `Model/Wrap.lean`.
-/
namespace Octane.Router
variable {S : Type u}

/-- a write to `src/router.rs:214` `pub route_counter` -/
def writeCounter (r : Router S) (n : Nat) : Router S := { r with routeCounter := n }

/-- `src/router.rs:416-433` `inject_method!` with the check of `route_counter += 1` (`:431`). -/
def injectChecked (r : Router S) (path : Str) (closure : Closure S) (method : RequestMethod) : Res (Router S) :=
  (injectMethod r path closure method).bind fun x =>
    if x.2 = true ∧ 2 ^ 64 ≤ r.routeCounter + 1 then .panic else .ok x.1

/-- `src/router.rs:460-467` `Route::add` with the check of `route_counter += 1` (`:465`). -/
def addChecked (r : Router S) (closure : Closure S) : Res (Router S) :=
  if 2 ^ 64 ≤ r.routeCounter + 1 then .panic else .ok (add r closure)

/-- does one of the additions of `append` overflow? `v.data.index += self_count` (`src/router.rs:239`),
`v.index += self_count` (`:251`), `self.route_counter += other_count` (`:254`) -/
def appendOverflows (ord : AppendOrder S) (self router : Router S) : Bool :=
  ((ord.outer router.paths).any fun e =>
    match PathNode.ownedItems (ord.inner e.1) e.2 with
    | some items => items.any fun v => decide (2 ^ 64 ≤ v.data.index + self.routeCounter)
    | none => false) ||
  (router.middlewares.any fun v => decide (2 ^ 64 ≤ v.index + self.routeCounter)) ||
  decide (2 ^ 64 ≤ self.routeCounter + router.routeCounter)

/-- `src/router.rs:234-255` `Router::append` with these checks. -/
def appendChecked (ord : AppendOrder S) (self router : Router S) : Res (Router S) :=
  if appendOverflows ord self router then .panic else append ord self router

end Octane.Router
