import Verif.Model.Query
/-
What decoding and parsing a query costs: the functions of `Model/Query.lean` again, each returning beside its
result the number of its elementary steps (which steps are counted is said at each). `Proof/CostQuery.lean`
proves that the results are those of the plain functions.
-/
namespace Octane
namespace Query

/-- `src/query.rs:7-35`, counting the calls of `next` and `peek` on the `DoublePeek`. -/
def unescapeLoopC : Nat → DoublePeek → Str → Res Str × Nat
  | 0, _, _ => (.panic, 0)
  | fuel + 1, p, ret =>
    match p.next with
    | (none, _) => (.ok ret, 1)
    | (some val, p) =>
      if val ≠ '%' then
        let r := unescapeLoopC fuel p (ret ++ [val])
        (r.1, 1 + r.2)
      else
        match ({ p with unpeek := true } : DoublePeek).peek with
        | .panic => (.panic, 2)
        | .ok (none, p) =>
          let r := unescapeLoopC fuel p (ret ++ ['%'])
          (r.1, 2 + r.2)
        | .ok (some c1, p) =>
          match p.peek with
          | .panic => (.panic, 3)
          | .ok (none, p) =>
            let r := unescapeLoopC fuel p (ret ++ ['%'])
            (r.1, 3 + r.2)
          | .ok (some c2, p) =>
            match fromHex c1, fromHex c2 with
            | some h1, some h2 =>
              if h1 * 16 + h2 < 256 then
                let r := unescapeLoopC fuel p.next.2.next.2 (ret ++ [Char.ofNat (h1 * 16 + h2)])
                (r.1, 5 + r.2)
              else (.panic, 3)
            | _, _ =>
              let r := unescapeLoopC fuel p (ret ++ ['%'])
              (r.1, 3 + r.2)

/-- `src/query.rs:3-37` `unescape_hex`, counting the same. -/
def unescapeHexC (s : Str) : Res Str × Nat := unescapeLoopC (s.length + 1) (DoublePeek.new s) []

/-- The characters `str::find` (or one step of `str::split`) looks at until it has found `c`. -/
def findC (c : Char) : Str → Nat
  | [] => 0
  | d :: s => if d = c then 1 else 1 + findC c s

/-- The characters all steps of `str::split` together look at: each one once. -/
def splitC (s : Str) : Nat := s.length

/-- `src/query.rs:122-138`, counting, for every token: the characters `find` looks at, the steps of `unescape_hex`,
and one for `insert` with one for every byte of the key (which is hashed). -/
def parseQueryLoopC (faithful : Bool) : List Str → HMap Str Str → Res (HMap Str Str) × Nat
  | [], ret => (.ok ret, 0)
  | tok :: toks, ret =>
    if faithful ∧ tok = [] then parseQueryLoopC faithful toks ret
    else
      let c := findC '=' tok
      match findChar '=' tok with
      | some v =>
        match splitAtByte v tok with
        | .panic => (.panic, c)
        | .ok (name, val) =>
          if faithful ∧ name = [] then
            let r := parseQueryLoopC faithful toks ret
            (r.1, c + r.2)
          else
            let k := unescapeHexC name
            match k.1, sliceFrom 1 val with
            | .ok k', .ok v' =>
              let w := unescapeHexC v'
              match w.1 with
              | .panic => (.panic, c + k.2 + w.2)
              | .ok w' =>
                let r := parseQueryLoopC faithful toks (ret.insert k' w')
                (r.1, c + k.2 + w.2 + (1 + (utf8 k').length) + r.2)
            | _, _ => (.panic, c + k.2)
      | none =>
        let k := unescapeHexC tok
        match k.1 with
        | .panic => (.panic, c + k.2)
        | .ok k' =>
          let r := parseQueryLoopC faithful toks (ret.insert k' [])
          (r.1, c + k.2 + (1 + (utf8 k').length) + r.2)

/-- `src/query.rs:119-140` `parse_query`, counting also the characters looked at while splitting. -/
def parseQueryC (faithful : Bool) (query : Str) : Res (HMap Str Str) × Nat :=
  let r := parseQueryLoopC faithful (splitChar '&' query) []
  (r.1, splitC query + r.2)

/-- `src/query.rs:204-255`: the steps for one token of an extended query: the characters `find` looks at, the
steps of `unescape_hex`, the bytes the search for `[` looks at, the bytes copied for the outer and inner key, and
one for every operation on a map with one for every byte of its key. -/
def extStepC (faithful : Bool) (tok : Str) (ret : HMap Str QueryValue) : Nat :=
  if faithful ∧ tok = [] then 0
  else
    let c := findC '=' tok
    match findChar '=' tok with
    | none =>
      let k := unescapeHexC tok
      match k.1 with
      | .panic => c + k.2
      | .ok k' => c + k.2 + (1 + (utf8 k').length)
    | some v =>
      match splitAtByte v tok with
      | .panic => c
      | .ok (name, val) =>
        match sliceFrom 1 val with
        | .panic => c
        | .ok val1 =>
          let w := unescapeHexC val1
          let c := c + w.2
          if name = [] then c
          else
            let bytes := utf8 name
            let bytelen := bytes.length
            let plain : Nat :=
              let k := unescapeHexC name
              match k.1 with
              | .panic => k.2
              | .ok k' => k.2 + (1 + (utf8 k').length)
            match bytes[bytelen - 1]? with
            | none => c
            | some last =>
              if last = 93 then
                match revPosition bytes 91 with
                | some i =>
                  let ind := bytelen - i - 1
                  let c := c + (i + 1) + ind
                  match fromUtf8 (bytes.take ind) with
                  | none => c
                  | some outside =>
                    let inner := (bytes.take (bytelen - 1)).drop (ind + 1)
                    let c := c + inner.length
                    match fromUtf8 inner with
                    | none => c
                    | some inside =>
                      let op := 1 + (utf8 outside).length
                      -- `get`, perhaps `insert`, `get_mut`
                      let c := c + op + (if (ret.get outside).isNone then op else 0) + op
                      -- `push`, or `insert` into the object
                      if inside = [] then c + 1 else c + (1 + (utf8 inside).length)
                | none => c + bytelen + plain
              else c + plain

/-- `src/query.rs:200-256`, counting. -/
def extLoopC (faithful : Bool) : List Str → HMap Str QueryValue → Res (HMap Str QueryValue) × Nat
  | [], ret => (.ok ret, 0)
  | tok :: toks, ret =>
    let c := extStepC faithful tok ret
    match extStep faithful tok ret with
    | .panic => (.panic, c)
    | .ok ret' =>
      let r := extLoopC faithful toks ret'
      (r.1, c + r.2)

/-- `src/query.rs:197-258` `parse_extended_query`, counting also the characters looked at while splitting. -/
def parseExtendedQueryC (faithful : Bool) (query : Str) : Res (HMap Str QueryValue) × Nat :=
  let r := extLoopC faithful (splitChar '&' query) []
  (r.1, splitC query + r.2)

end Query
end Octane
