import Verif.Proof.CostQuery
/-
C118: decoding and parsing a query takes time in proportion to its length.
-/
namespace Octane
open Query

/-- What is counted is what the code does. -/
theorem C118_same (faithful : Bool) (s : Str) :
    (unescapeHexC s).1 = unescapeHex s ∧ (parseQueryC faithful s).1 = parseQuery faithful s ∧
      (parseExtendedQueryC faithful s).1 = parseExtendedQuery faithful s :=
  ⟨unescapeHexC_same s, parseQueryLoopC_same faithful _ _, extLoopC_same faithful _ _⟩

/-- C118: decoding calls the iterator at most three times for every character, and once at the end. -/
theorem C118_decode (s : Str) : (unescapeHexC s).2 ≤ 3 * s.length + 1 := by
  have := unescapeLoopC_le (s.length + 1) (DoublePeek.new s) [] (by simp [DoublePeek.new])
  exact this

/-- Exactly: one call for every character and one for the end, and two looks ahead at every `%`, but one at a `%` that
comes last. -/
theorem C118_decode_exact (s : Str) :
    (unescapeHexC s).2 = s.length + 1 + 2 * s.count '%' - (if s.getLast? = some '%' then 1 else 0) := by
  have := unescapeLoopC_eq (s.length + 1) (DoublePeek.new s) [] (by simp [DoublePeek.new]) (Nat.lt_succ_self _)
  have h : (DoublePeek.new s).content = s := rfl
  rw [h] at this
  unfold unescapeHexC
  unfold lastPercent at this
  omega

/-- an escape, a `%` that is none, and one at the end -/
example : (unescapeHexC c!"%41%zz%").2 = 13 ∧ (unescapeHexC c!"%41%zz").2 = 11 := by decide +kernel

/-- three calls for every `%` in a row of them -/
example : (unescapeHexC c!"a").2 = 2 ∧ (unescapeHexC c!"%%%").2 = 9 ∧ (unescapeHexC c!"%%%%").2 = 12 := by
  decide +kernel

/-- C118: parsing a query of `n` bytes takes at most `6 (n + 1)` steps. -/
theorem C118_query (faithful : Bool) (query : Str) :
    (parseQueryC faithful query).2 ≤ 6 * ((utf8 query).length + 1) := by
  have h := parseQueryLoopC_le faithful (splitChar '&' query) []
  rw [sum_splitChar (by decide)] at h
  have := length_le_utf8 query
  simp only [parseQueryC, splitC]
  omega

/-- C118: parsing an extended query of `n` bytes takes at most `7 (n + 1)` steps. -/
theorem C118_extended (faithful : Bool) (query : Str) :
    (parseExtendedQueryC faithful query).2 ≤ 7 * ((utf8 query).length + 1) := by
  have h := extLoopC_le faithful (splitChar '&' query) []
  rw [sum_splitChar (by decide)] at h
  have := length_le_utf8 query
  simp only [parseExtendedQueryC, splitC]
  omega

/-- C118 from below: without the feature `faithful` every character is looked at at least twice, once for splitting and
once for decoding, and each part of the query costs at least two steps more. -/
theorem C118_query_least (query : Str) :
    2 * query.length + 1 + (splitChar '&' query).length ≤ (parseQueryC false query).2 := by
  have h := parseQueryLoopC_ge (splitChar '&' query) []
  rw [length_splitChar] at h
  simp only [parseQueryC, splitC]
  omega

/-- The same of extended queries that can be parsed. -/
theorem C118_extended_least (query : Str) (hp : parseExtendedQuery false query ≠ .panic) :
    2 * query.length + 1 ≤ (parseExtendedQueryC false query).2 := by
  have h := extLoopC_ge (splitChar '&' query) [] hp
  rw [length_splitChar] at h
  simp only [parseExtendedQueryC, splitC]
  omega

/-- reached by empty parts and by values without a name; with the feature these are passed over -/
example : (parseQueryC false c!"&&").2 = 2 * 2 + 1 + 3 ∧ (parseExtendedQueryC false c!"=a&=b").2 = 2 * 5 + 1 ∧
    parseExtendedQuery false c!"=a&=b" ≠ .panic ∧ (parseQueryC true c!"&&").2 = 2 := by decide +kernel

/-- what is counted for a short query -/
example : (parseQueryC true c!"a=%41&b").2 = 24 ∧ (parseExtendedQueryC true c!"a[]=1&a[x]=2").2 = 46 := by
  decide +kernel
end Octane
