import Verif.Model.Router
/-
How deep the code calls itself: `PathNode::dfs` (`src/path.rs:234-255`) is the only function that a request can make
call itself (`Router::run` and the parsers are loops).
-/
namespace Octane

/-- `src/path.rs:234-255` `PathNode::dfs`, returning beside its result how many calls of it are open at the same time
at most. -/
def PathNode.dfsD {T : Type u} (uv : Bool) : PathNode T → List Str → Res (List (PathData T)) × Nat
  | .leaf _, _ => (.panic, 1)
  | .node m, [] =>
    match HMap.get m .fin with
    | none => (.ok [], 1)
    | some (.leaf l) => (.ok l, 1)
    | some (.node _) => (.panic, 1)
  | .node m, c :: cs =>
    let a := match HMap.get m (.chunk c) with
      | some v => dfsD uv v cs
      | none => (.ok [], 0)
    match a.1 with
    | .panic => (.panic, 1 + a.2)
    | .ok ret =>
      if uv then
        let b := match HMap.get m .catchAll with
          | some v => dfsD uv v cs
          | none => (.ok [], 0)
        (b.1.bind fun found => .ok (ret ++ found), 1 + max a.2 b.2)
      else (.ok ret, 1 + a.2)
termination_by structural _ cs => cs

/-- `src/router.rs:263-273`: the open calls of `dfs` while one method is looked up; 0 without a tree. -/
def Router.methodDepth {S : Type u} (uv : Bool) (r : Router S) (method : RequestMethod) (path : PathBuf) : Nat :=
  match r.paths.get method with
  | none => 0
  | some functions => (PathNode.dfsD uv functions path).2

end Octane
