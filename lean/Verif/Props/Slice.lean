import Verif.Proof.Slice
/-
Properties C23 and C24: searching and splitting slices.
-/
namespace Octane
open Spec
variable {T : Type u} [DecidableEq T]

/-- C23: the search never indexes out of bounds; it returns the smallest position at which the
needle occurs, and nothing only if it does not occur. -/
theorem C23_first_occurrence (haystack needle : List T) :
    ∃ r, findInSlice haystack needle = .ok r ∧
      (∀ i, r = some i ↔ OccursAt haystack needle i ∧ ∀ j, j < i → ¬ OccursAt haystack needle j) ∧
      (r = none ↔ ¬ Occurs haystack needle) := by
  obtain ⟨r, h1, h2, h3⟩ := findInSlice_ok haystack needle
  refine ⟨r, h1, fun i => ⟨h2 i, fun ⟨ho, hmin⟩ => ?_⟩, h3, fun hno => ?_⟩
  · cases r with
    | none => exact absurd ⟨i, ho⟩ (h3 rfl)
    | some v =>
      obtain ⟨hv, hvm⟩ := h2 v rfl
      have h4 : ¬ v < i := fun h => hmin v h hv
      have h5 : ¬ i < v := fun h => hvm i h ho
      congr 1; omega
  · cases r with
    | none => rfl
    | some v => exact absurd ⟨v, (h2 v rfl).1⟩ hno

example : findInSlice [1, 2, 1, 2, 3] [1, 2, 3] = .ok (some 2) := by decide
example : findInSlice [1, 2, 1, 2] [2, 2] = .ok none := by decide
example : findInSlice [1, 2] ([] : List Nat) = .ok (some 0) := by decide

/-- C24: iterating the splitter with a non-empty separator ends after at most `length + 2` calls of
`next` (asking for more changes nothing); the pieces joined by the separator are the original
slice, and no piece contains the separator. -/
theorem C24_split_lossless (s seq : List T) (hseq : seq ≠ []) :
    ∃ ps, (∀ fuel, s.length + 2 ≤ fuel →
        Spliterator.collect fuel (Spliterator.new s seq) = .ok (some ps)) ∧
      seq.intercalate ps = s ∧ ∀ p ∈ ps, ¬ Occurs p seq := by
  obtain ⟨ps, h1, -, h3, h4⟩ := Spliterator.collect_ok seq hseq s (s.length + 2) (Nat.le_refl _)
  refine ⟨ps, fun fuel hf => ?_, h3, h4⟩
  have hmono : ∀ (f : Nat) (sp : Spliterator T) (r : List (List T)),
      Spliterator.collect f sp = .ok (some r) → Spliterator.collect (f + 1) sp = .ok (some r) := by
    intro f
    induction f with
    | zero => intro sp r h; simp [Spliterator.collect] at h
    | succ f ih =>
      intro sp r h
      unfold Spliterator.collect at h ⊢
      cases hn : sp.next with
      | panic => simp [hn] at h
      | ok x =>
        obtain ⟨o, sp'⟩ := x
        rw [hn, Res.bind_ok'] at h
        rw [Res.bind_ok']
        cases o with
        | none => exact h
        | some p =>
          simp only at h ⊢
          cases hc : Spliterator.collect f sp' with
          | panic => simp [hc] at h
          | ok o =>
            cases o with
            | none => simp [hc] at h
            | some l => rw [hc] at h; rw [ih _ _ hc]; exact h
  obtain ⟨d, rfl⟩ : ∃ d, fuel = s.length + 2 + d := ⟨fuel - (s.length + 2), by omega⟩
  clear hf
  induction d with
  | zero => exact h1
  | succ d ih => exact hmono _ _ _ ih

/-- C24: why the separator must be non-empty: with an empty one the iterator never ends. -/
theorem C24_empty_separator_diverges (s : List T) (fuel : Nat) :
    Spliterator.collect fuel (Spliterator.new s []) = .ok none := by
  induction fuel with
  | zero => rfl
  | succ fuel ih =>
    have hn : Spliterator.next (Spliterator.new s []) = .ok (some [], Spliterator.new s []) := by
      rcases Spliterator.next_ok s ([] : List T) with ⟨a, b, hs, hmin, hn⟩ | ⟨hno, -⟩
      · have ha : a = [] := by
          cases a with
          | nil => rfl
          | cons x a => exact absurd ⟨[], s, by simp, rfl⟩ (hmin 0 (by simp))
        subst ha
        simp only [List.append_nil, List.nil_append] at hs
        subst hs
        exact hn
      · exact absurd ⟨0, [], s, by simp, rfl⟩ hno
    simp [Spliterator.collect, hn, ih]

example : Spliterator.collect 10 (Spliterator.new [1, 0, 0, 2, 0, 0, 0, 3] [0, 0]) =
    .ok (some [[1], [2], [0, 3]]) := by decide

example := C24_split_lossless [1, 0, 0, 2, 0, 0, 0, 3] [0, 0] (by decide)

end Octane
