import Verif.Model.Basic
/-
Model of `src/path.rs` (paths, patterns and the route tree).
-/
namespace Octane

/-- `src/path.rs:13-15` `struct PathBuf`: its `chunks`. -/
abbrev PathBuf := List Str

namespace Path

/-- `src/path.rs:46-57`: the loop body of `PathBuf::parse` for one piece of `path.split('/')`.
`none` is the early `return Err(InvalidPathError)`. -/
def parseStep (chunks : PathBuf) (chunk : Str) : Option PathBuf :=
  if chunk = [] ∨ chunk = ['.'] then some chunks
  else if chunk = ['.', '.'] then
    -- `chunks.pop().is_none()`
    match chunks.getLast? with
    | none => none
    | some _ => some chunks.dropLast
  else some (chunks ++ [chunk])

/-- `src/path.rs:46-57`: the loop of `PathBuf::parse`. -/
def parseLoop : PathBuf → List Str → Option PathBuf
  | chunks, [] => some chunks
  | chunks, c :: cs =>
    match parseStep chunks c with
    | none => none
    | some chunks' => parseLoop chunks' cs

/-- `src/path.rs:44-59` `PathBuf::parse`; `none` models `Err(InvalidPathError)`.
`FromStr`, `TryFrom<String>` and `TryFrom<&str>` (`:137-143`, `:418-432`) call it. -/
def parse (path : Str) : Option PathBuf := parseLoop [] (splitChar '/' path)

/-- `src/path.rs:17-25` `impl Display for PathBuf`. -/
def display (p : PathBuf) : Str := p.flatMap fun chunk => chunk ++ ['/']

/-- `src/path.rs:36-42` `PathBuf::to_std_pathbuf`: the string handed to `StdPathBuf::from`. -/
def toStdPathbuf (p : PathBuf) : Str := p.flatMap fun chunk => chunk ++ ['/']

/-- `std::path::PathBuf::push` on Unix: an absolute argument replaces the path; otherwise a
separator is added unless the path is empty or already ends with one. -/
def stdPush (path component : Str) : Str :=
  if component.head? = some '/' then component
  else if path = [] ∨ path.getLast? = some '/' then path ++ component
  else path ++ '/' :: component

/-- `src/path.rs:131-135` `impl From<PathBuf> for StdPathBuf`: collecting pushes each chunk. -/
def intoStdPathbuf (p : PathBuf) : Str := p.foldl stdPush []

/-- `src/path.rs:61-68` `PathBuf::check_starts_with`: the loop over `zip`. -/
def checkStartsWith : PathBuf → PathBuf → Bool
  | a :: as, b :: bs => if a ≠ b then false else checkStartsWith as bs
  | _, _ => true

/-- `src/path.rs:79-85`: the loop of `PathBuf::check_matches` over `zip`.
`a.as_bytes()[0]` panics on an empty chunk. `Option` is the early `return None`. -/
def matchLoop : PathBuf → PathBuf → HMap Str Str → Res (Option (HMap Str Str))
  | a :: as, b :: bs, vars =>
    (firstByte a).bind fun fb =>
      if fb = 58 then -- b':'
        (sliceFrom 1 a).bind fun name => matchLoop as bs (vars.insert name b)
      else if a ≠ b then .ok none
      else matchLoop as bs vars
  | _, _, vars => .ok (some vars)

/-- `src/path.rs:70-87` `PathBuf::check_matches` with feature `url_variables`. -/
def checkMatches (self other : PathBuf) : Res (Option (HMap Str Str)) :=
  if self.length ≠ other.length then .ok none else matchLoop self other []

/-- `src/path.rs:89-95` `PathBuf::check_matches` without feature `url_variables`. -/
def checkMatchesPlain (self other : PathBuf) : Option Unit :=
  if self ≠ other then none else some ()

/-- `src/path.rs:97-107` `PathBuf::subtract`. -/
def subtract (self other : PathBuf) : Option PathBuf :=
  if self.length < other.length then none
  else if self.take other.length ≠ other then none
  else some (self.drop other.length)

/-- `src/path.rs:109-118` `PathBuf::concat_owned` and `:119-128` `PathBuf::concat`. -/
def concat (self other : PathBuf) : PathBuf := self ++ other

/-- `src/path.rs:440-442` `is_ctl`. -/
def isCtl (c : Char) : Bool := decide (c.toNat < 0x1f) || decide (c.toNat = 0x7f)

end Path

/-- `src/path.rs:145-149` `struct PathData<T>`. -/
structure PathData (T : Type u) where
  origPath : PathBuf
  data : T

/-- `src/path.rs:151-156` `struct MatchedPath<'a, T>`; without `url_variables` `vars` is empty. -/
structure MatchedPath (T : Type u) where
  vars : HMap Str Str
  data : T

/-- `src/path.rs:158-163` `enum PathChunk`. -/
inductive PathChunk where
  | chunk (s : Str)
  | catchAll
  | fin
  deriving DecidableEq

/-- `src/path.rs:165-169` `enum PathNode<T>`. -/
inductive PathNode (T : Type u) where
  | node (m : List (PathChunk × PathNode T))
  | leaf (l : List (PathData T))

namespace PathNode
variable {T : Type u}

/-- `src/path.rs:204-206` `PathNode::new` (also `Default`, `:435`). -/
def new : PathNode T := .node []

/-- `src/path.rs:213-223`: the key a pattern chunk is stored under; `as_bytes()[0]` panics on
an empty chunk. -/
def chunkKey (chunk : Str) : Res PathChunk :=
  (firstByte chunk).bind fun fb =>
    if fb = 58 then .ok .catchAll else .ok (.chunk chunk)

/-- `src/path.rs:208-232` `PathNode::insert`, recursively in the remaining chunks instead of
through a moving `&mut` cursor. `.panic` is `unwrap_node_mut`/`unwrap_leaf_mut` on the wrong
variant or `as_bytes()[0]` on an empty chunk. -/
def insertAt : PathNode T → List Str → PathData T → Res (PathNode T)
  | .leaf _, _, _ => .panic
  | .node m, [], d =>
    match HMap.get m .fin with
    | none => .ok (.node (HMap.insert m .fin (.leaf [d])))
    | some (.leaf l) => .ok (.node (HMap.insert m .fin (.leaf (l ++ [d]))))
    | some (.node _) => .panic
  | .node m, c :: cs, d =>
    (chunkKey c).bind fun key =>
      (insertAt ((HMap.get m key).getD new) cs d).bind fun child =>
        .ok (.node (HMap.insert m key child))
termination_by structural _ cs _ => cs

/-- `src/path.rs:208-232` `PathNode::insert`. -/
def insert (n : PathNode T) (path : PathBuf) (data : T) : Res (PathNode T) :=
  insertAt n path ⟨path, data⟩

/-- `src/path.rs:234-255` `PathNode::dfs`. `uv` is the cargo feature `url_variables`. -/
def dfs (uv : Bool) : PathNode T → List Str → Res (List (PathData T))
  | .leaf _, _ => .panic
  | .node m, [] =>
    match HMap.get m .fin with
    | none => .ok []
    | some (.leaf l) => .ok l
    | some (.node _) => .panic
  | .node m, c :: cs =>
    (match HMap.get m (.chunk c) with
      | some v => dfs uv v cs
      | none => .ok []).bind fun ret =>
    if uv then
      (match HMap.get m .catchAll with
        | some v => dfs uv v cs
        | none => .ok []).bind fun found => .ok (ret ++ found)
    else .ok ret
termination_by structural _ cs => cs

/-- `src/path.rs:257-273`: the `map` over the matched entries in `PathNode::get`. -/
def attachVars (uv : Bool) (path : PathBuf) : List (PathData T) → Res (List (MatchedPath T))
  | [] => .ok []
  | d :: ds =>
    (if uv then (Path.checkMatches d.origPath path).bind Res.unwrap else .ok []).bind fun vars =>
      (attachVars uv path ds).bind fun rest => .ok (⟨vars, d.data⟩ :: rest)

/-- `src/path.rs:257-273` `PathNode::get`. -/
def get (uv : Bool) (n : PathNode T) (path : PathBuf) : Res (List (MatchedPath T)) :=
  (dfs uv n path).bind (attachVars uv path)

/-- An enumeration order: the `k`-th hash map that is enumerated is enumerated in the order
`ord k m`. Only that it is a permutation of the entries may be assumed. -/
abbrev Order (T : Type u) := Nat → List (PathChunk × PathNode T) → List (PathChunk × PathNode T)

/-- `src/path.rs:282-288` `struct OwnedPathNodeIterator`: the stack (top first) of partially
consumed map iterators, the leaf being consumed, and the number of maps enumerated so far
(which only serves to pick the enumeration order of the next one). -/
structure OwnedIter (T : Type u) where
  stack : List (List (PathNode T))
  curvec : Option (List (PathData T))
  time : Nat

/-- one iteration of the `loop` in `next` -/
inductive IterStep (σ : Type u) (α : Type v) where
  | yield (a : α) (s : σ)
  | continue (s : σ)
  | done

/-- `src/path.rs:351-378`: one iteration of the loop in `OwnedPathNodeIterator::next`.
`v.pop()` takes the *last* element. -/
def OwnedIter.step (ord : Order T) (it : OwnedIter T) : IterStep (OwnedIter T) (PathData T) :=
  let rest : Unit → IterStep (OwnedIter T) (PathData T) := fun _ =>
    match it.stack with
    | [] => .done
    | top :: below =>
      match top with
      | [] => .continue { it with stack := below, curvec := none }
      | v :: top' =>
        match v with
        | .node n =>
          .continue { stack := (ord it.time n).map (·.2) :: top' :: below, curvec := none,
                      time := it.time + 1 }
        | .leaf l => .continue { stack := top' :: below, curvec := some l, time := it.time }
  match it.curvec with
  | some v =>
    match v.getLast? with
    | some x => .yield x { it with curvec := some v.dropLast }
    | none => rest ()
  | none => rest ()

/-- `src/path.rs:386-397` `PathNode::into_iter`. -/
def intoIter (ord : Order T) : PathNode T → OwnedIter T
  | .node n => { stack := [(ord 0 n).map (·.2)], curvec := none, time := 1 }
  | .leaf l => { stack := [], curvec := some l, time := 0 }

/-- `src/path.rs:276-280` `struct PathNodeIterator`. -/
structure RefIter (T : Type u) where
  stack : List (List (PathNode T))
  curvec : Option (List (PathData T))
  curind : Nat
  time : Nat

/-- `src/path.rs:295-325`: one iteration of the loop in `PathNodeIterator::next`. -/
def RefIter.step (ord : Order T) (it : RefIter T) : IterStep (RefIter T) (PathData T) :=
  let rest : Unit → IterStep (RefIter T) (PathData T) := fun _ =>
    match it.stack with
    | [] => .done
    | top :: below =>
      match top with
      | [] => .continue { it with stack := below, curvec := none, curind := 0 }
      | v :: top' =>
        match v with
        | .node n =>
          .continue { stack := (ord it.time n).map (·.2) :: top' :: below, curvec := none,
                      curind := 0, time := it.time + 1 }
        | .leaf l =>
          .continue { stack := top' :: below, curvec := some l, curind := 0, time := it.time }
  match it.curvec with
  | some v =>
    match v[it.curind]? with
    | some x => .yield x { it with curind := it.curind + 1 }
    | none => rest ()
  | none => rest ()

/-- `src/path.rs:330-343` `PathNode::iter`. -/
def iter (ord : Order T) : PathNode T → RefIter T
  | .node n => { stack := [(ord 0 n).map (·.2)], curvec := none, curind := 0, time := 1 }
  | .leaf l => { stack := [], curvec := some l, curind := 0, time := 0 }

/-- Running an iterator for at most `fuel` loop iterations, collecting what it yields;
`none` if it has not finished by then. -/
def drain {σ : Type u} {α : Type v} (step : σ → IterStep σ α) : Nat → σ → Option (List α)
  | 0, _ => none
  | fuel + 1, s =>
    match step s with
    | .yield a s' => (drain step fuel s').map (a :: ·)
    | .continue s' => drain step fuel s'
    | .done => some []

mutual
/-- An upper bound on the number of loop iterations needed to drain a tree (bookkeeping of
the model only: it provides the fuel of `drain`; see `Proof/Trie.lean` for its sufficiency). -/
def weight : PathNode T → Nat
  | .node m => 2 + weightL m
  | .leaf l => 1 + l.length
def weightL : List (PathChunk × PathNode T) → Nat
  | [] => 0
  | (_, n) :: m => weight n + weightL m
end

/-- `for x in node.into_iter()`: everything the consuming iterator yields, in order.
`none` would be non-termination (proved impossible in `Proof/Trie.lean`). -/
def ownedItems (ord : Order T) (n : PathNode T) : Option (List (PathData T)) :=
  drain (OwnedIter.step ord) (weight n + 1) (intoIter ord n)

/-- `for x in node.iter()`: everything the borrowing iterator yields, in order. -/
def refItems (ord : Order T) (n : PathNode T) : Option (List (PathData T)) :=
  drain (RefIter.step ord) (weight n + 1) (iter ord n)

/-- `src/path.rs:400-406` `Extend::extend`: insert every item. -/
def extend : PathNode T → List (PathData T) → Res (PathNode T)
  | n, [] => .ok n
  | n, d :: ds => (insert n d.origPath d.data).bind fun n' => extend n' ds

/-- `src/path.rs:408-416` `FromIterator::from_iter`. -/
def fromIter (ds : List (PathData T)) : Res (PathNode T) := extend new ds

end PathNode
end Octane
