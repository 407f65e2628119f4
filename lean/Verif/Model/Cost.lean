import Verif.Model.Server
/-
What the code spends: the functions of `Model/Util.lean`, `Model/Http1x.lean`, `Model/Request.lean`,
`Model/Path.lean` and `Model/Router.lean` again, each returning beside its result the number of its
elementary steps (which steps are counted is said at each). `Proof/Cost.lean` proves that the results are
those of the plain functions.
-/
namespace Octane

section
variable {T : Type u} [DecidableEq T]

/-- `octane_http/src/http1x/mod.rs:61-66`, counting the comparisons `haystack[i + j] != needle[j]`. -/
def matchLoopAtC (haystack needle : List T) (i : Nat) : Nat → Nat → Res Bool × Nat
  | _, 0 => (.ok true, 0)
  | j, k + 1 =>
    match haystack[i + j]?, needle[j]? with
    | some a, some b =>
      if a ≠ b then (.ok false, 1)
      else
        let r := matchLoopAtC haystack needle i (j + 1) k
        (r.1, 1 + r.2)
    | _, _ => (.panic, 0)

/-- `octane_http/src/http1x/mod.rs:59-70`, counting comparisons. -/
def findLoopC (haystack needle : List T) : Nat → Nat → Res (Option Nat) × Nat
  | _, 0 => (.ok none, 0)
  | i, k + 1 =>
    let m := matchLoopAtC haystack needle i 0 needle.length
    match m.1 with
    | .panic => (.panic, m.2)
    | .ok true => (.ok (some i), m.2)
    | .ok false =>
      let r := findLoopC haystack needle (i + 1) k
      (r.1, m.2 + r.2)

/-- `octane_http/src/http1x/mod.rs:54-72` `find_in_slice`, counting comparisons. -/
def findInSliceC (haystack needle : List T) : Res (Option Nat) × Nat :=
  if needle.length > haystack.length then (.ok none, 0)
  else findLoopC haystack needle 0 (haystack.length - needle.length + 1)

/-- `for tok in spliterator` (`src/util.rs:32-47`), counting the comparisons of `find_seq`. -/
def Spliterator.collectC : Nat → Spliterator T → Res (Option (List (List T))) × Nat
  | 0, _ => (.ok none, 0)
  | fuel + 1, s =>
    let c := if s.finished then 0 else (findInSliceC s.string s.seq).2
    match s.next with
    | .panic => (.panic, c)
    | .ok (none, _) => (.ok (some []), c)
    | .ok (some p, s') =>
      let r := collectC fuel s'
      (r.1.bind fun l => .ok (l.map (p :: ·)), c + r.2)

end

/-- What reading a head costs: the comparisons of `find_in_slice`, the calls of `read` that returned, and
the length `data` has in the end (it never shrinks). -/
structure HeadCost where
  compared : Nat
  reads : Nat
  held : Nat
  deriving DecidableEq

/-- `octane_http/src/http1x/mod.rs:26-44`, counting. -/
def readHeadLoopC : Nat → Bytes → Sock → Io HeadOut × HeadCost
  | 0, data, _ => (.panic, ⟨0, 0, data.length⟩)
  | fuel + 1, data, s =>
    match s.read 512 with
    | .error => (.panic, ⟨0, 1, data.length⟩)
    | .pending => (.pending, ⟨0, 0, data.length⟩)
    | .data b s' =>
      if b = [] then (.ok .badRequest, ⟨0, 1, data.length⟩)
      else
        let c := (findInSliceC (data ++ b) [13, 10, 13, 10]).2
        match headCheck (data ++ b) s' with
        | .panic => (.panic, ⟨c, 1, (data ++ b).length⟩)
        | .ok (some out) => (.ok out, ⟨c, 1, (data ++ b).length⟩)
        | .ok none =>
          let r := readHeadLoopC fuel (data ++ b) s'
          (r.1, ⟨c + r.2.compared, 1 + r.2.reads, r.2.held⟩)

/-- `octane_http/src/http1x/mod.rs:17-51` `Http1xReader::new`, counting. -/
def readHeadC (s : Sock) : Io HeadOut × HeadCost := readHeadLoopC (s.bytes.length + 1) [] s

/-- `src/request.rs:216-219`: the bytes written for one header into the map of values: `format!` writes
the old value, the separator and the new value; the first value of a name is copied. -/
def Headers.addParsedC (m : HMap Str Str) (h : Header) : Nat :=
  match HMap.get m (asciiLower h.name) with
  | some v => (utf8 (v ++ c!", " ++ h.value)).length
  | none => (utf8 h.value).length

/-- `src/request.rs:211-222`, counting the bytes written into the map of values. -/
def Headers.parseLoopC (faithful : Bool) : List Bytes → Headers → Option Headers × Nat
  | [], acc => (some acc, 0)
  | tok :: toks, acc =>
    match fromUtf8 tok with
    | none => (none, 0)
    | some s =>
      match Header.parse faithful s with
      | none => (none, 0)
      | some h =>
        let r := Headers.parseLoopC faithful toks
          { parsed := Headers.addParsed acc.parsed h, raw := acc.raw ++ [h] }
        (r.1, Headers.addParsedC acc.parsed h + r.2)

/-- What parsing the headers costs: comparisons while splitting, and bytes written into the map. -/
structure HeadersCost where
  compared : Nat
  written : Nat
  deriving DecidableEq

/-- `src/request.rs:206-230` `Headers::parse`, counting. (The loop of the code stops splitting at the first line that is
refused; the count goes on to the end of the text.) -/
def Headers.parseC (faithful : Bool) (request : Str) : Res (Option Headers) × HeadersCost :=
  let bytes := utf8 request
  let toks := Spliterator.collectC (bytes.length + 2) (Spliterator.new bytes [13, 10])
  match toks.1 with
  | .panic => (.panic, ⟨toks.2, 0⟩)
  | .ok none => (.panic, ⟨toks.2, 0⟩)
  | .ok (some l) =>
    let r := Headers.parseLoopC faithful l { parsed := [], raw := [] }
    (.ok r.1, ⟨toks.2, r.2⟩)

/-- `src/path.rs:234-255` `PathNode::dfs`, counting its calls (the nodes visited). -/
def PathNode.dfsC {T : Type u} (uv : Bool) : PathNode T → List Str → Res (List (PathData T)) × Nat
  | .leaf _, _ => (.panic, 1)
  | .node m, [] =>
    match HMap.get m .fin with
    | none => (.ok [], 1)
    | some (.leaf l) => (.ok l, 1)
    | some (.node _) => (.panic, 1)
  | .node m, c :: cs =>
    let a := match HMap.get m (.chunk c) with
      | some v => dfsC uv v cs
      | none => (.ok [], 0)
    match a.1 with
    | .panic => (.panic, 1 + a.2)
    | .ok ret =>
      if uv then
        let b := match HMap.get m .catchAll with
          | some v => dfsC uv v cs
          | none => (.ok [], 0)
        (b.1.bind fun found => .ok (ret ++ found), 1 + a.2 + b.2)
      else (.ok ret, 1 + a.2)
termination_by structural _ cs => cs

namespace Router
variable {S : Type u}

/-- What routing a request costs: the nodes of the trees that were visited, and the lists looked at in
the scans for the next handler. Sorting the matches and the handlers themselves are not counted. -/
structure Cost where
  visited : Nat
  scanned : Nat
  deriving DecidableEq

/-- `src/router.rs:263-273`: the nodes visited while looking up one method. -/
def methodVisits (uv : Bool) (r : Router S) (method : RequestMethod) (path : PathBuf) : Nat :=
  match r.paths.get method with
  | none => 0
  | some functions => (PathNode.dfsC uv functions path).2

/-- `src/router.rs:297-315`: the dispatch loop, counting the entries of `matches` that the scans
(`:298-305`) look at. -/
def dispatchC (req : Request) (mtch : List (List (MatchedPath (Closures S)))) :
    Nat → List Nat → S → Res S × Nat
  | 0, _, s => (.ok s, 0)
  | k + 1, indices, s =>
    let zs := mtch.zip indices
    let minind := (scanMin zs 0 (0, u64Max)).1
    match mtch[minind]?, indices[minind]? with
    | some v, some i =>
      match v[i]? with
      | some x =>
        match x.data.closure { request := req, vars := x.vars } s with
        | .panic => (.panic, zs.length)
        | .ok (s', flow) =>
          if flow.shouldContinue then
            let r := dispatchC req mtch k (indices.set minind (i + 1)) s'
            (r.1, zs.length + r.2)
          else (.ok s', zs.length)
      | none => (.panic, zs.length)
    | _, _ => (.panic, zs.length)

/-- `src/router.rs:259-316` `Router::run`, counting. -/
def runC (uv : Bool) (r : Router S) (req : Request) (s : S) : Res S × Cost :=
  let visited := methodVisits uv r req.requestLine.method req.requestLine.path +
    methodVisits uv r .all req.requestLine.path
  match collectMatches uv r req.requestLine with
  | .panic => (.panic, ⟨visited, 0⟩)
  | .ok mtch =>
    let d := dispatchC req mtch (mtch.map List.length).sum (List.replicate mtch.length 0) s
    (d.1, ⟨visited, d.2⟩)

end Router
end Octane
