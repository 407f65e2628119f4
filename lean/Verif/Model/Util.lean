import Verif.Model.Basic
/-
Model of `octane_http/src/http1x/mod.rs:54-72` (`find_in_slice`) and of `src/util.rs:9-50`
(`Spliterator`).
-/
namespace Octane
variable {T : Type u} [DecidableEq T]

/-- `octane_http/src/http1x/mod.rs:61-66`: the inner loop over `j`, `k` iterations left.
Out-of-bounds indexing panics. -/
def matchLoopAt (haystack needle : List T) (i : Nat) : Nat → Nat → Res Bool
  | _, 0 => .ok true
  | j, k + 1 =>
    match haystack[i + j]?, needle[j]? with
    | some a, some b =>
      if a ≠ b then .ok false else matchLoopAt haystack needle i (j + 1) k
    | _, _ => .panic

/-- `octane_http/src/http1x/mod.rs:59-70`: the outer loop over `i`, `k` iterations left. -/
def findLoop (haystack needle : List T) : Nat → Nat → Res (Option Nat)
  | _, 0 => .ok none
  | i, k + 1 =>
    (matchLoopAt haystack needle i 0 needle.length).bind fun matching =>
      if matching then .ok (some i) else findLoop haystack needle (i + 1) k

/-- `octane_http/src/http1x/mod.rs:54-72` `find_in_slice`. `0..=h-n` has `h-n+1` iterations. -/
def findInSlice (haystack needle : List T) : Res (Option Nat) :=
  if needle.length > haystack.length then .ok none
  else findLoop haystack needle 0 (haystack.length - needle.length + 1)

/-- `src/util.rs:9-13` `struct Spliterator`. -/
structure Spliterator (T : Type u) where
  string : List T
  finished : Bool
  seq : List T

namespace Spliterator

/-- `src/util.rs:16-22` `Spliterator::new`. -/
def new (string seq : List T) : Spliterator T := { string, finished := false, seq }

/-- `src/util.rs:32-47` `Iterator::next` for `Spliterator`. -/
def next (s : Spliterator T) : Res (Option (List T) × Spliterator T) :=
  if s.finished then .ok (none, s)
  else
    (findInSlice s.string s.seq).bind fun
      | some v =>
        -- `split_at(v)` panics if `v > len`; `&rest[seq.len()..]` panics if too short
        if v ≤ s.string.length ∧ s.seq.length ≤ (s.string.drop v).length then
          .ok (some (s.string.take v), { s with string := (s.string.drop v).drop s.seq.length })
        else .panic
      | none => .ok (some s.string, { s with finished := true })

/-- `for tok in spliterator`, for at most `fuel` calls of `next`; `ok none` if it has not
ended by then. -/
def collect : Nat → Spliterator T → Res (Option (List (List T)))
  | 0, _ => .ok none
  | fuel + 1, s =>
    (next s).bind fun
      | (none, _) => .ok (some [])
      | (some p, s') => (collect fuel s').bind fun r => .ok (r.map (p :: ·))

end Spliterator
end Octane
