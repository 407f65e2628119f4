import Verif.Spec.Http
import Verif.Spec.Path
/-
Decision procedures for the specifications of substrings and paths, so that the cases in `Check/Cases*.lean` can be computed.
-/
namespace Octane.Spec
variable {T : Type u} [DecidableEq T]

theorem occursAt_iff (h n : List T) (i : Nat) :
    OccursAt h n i ↔ i + n.length ≤ h.length ∧ (h.drop i).take n.length = n := by
  constructor
  · rintro ⟨a, b, rfl, rfl⟩
    simp [List.append_assoc]
  · rintro ⟨h1, h2⟩
    refine ⟨h.take i, (h.drop i).drop n.length, ?_, by simp; omega⟩
    have h3 : (h.drop i).take n.length ++ (h.drop i).drop n.length = h.drop i := List.take_append_drop _ _
    rw [List.append_assoc, ← h2, List.length_take, List.length_drop, Nat.min_eq_left (by omega)]
    rw [h3, List.take_append_drop]

instance (h n : List T) (i : Nat) : Decidable (OccursAt h n i) := decidable_of_iff _ (occursAt_iff h n i).symm

theorem occurs_iff (h n : List T) : Occurs h n ↔ ∃ i, i < h.length + 1 ∧ OccursAt h n i := by
  constructor
  · rintro ⟨i, hi⟩
    exact ⟨i, by have := (occursAt_iff h n i).1 hi; omega, hi⟩
  · rintro ⟨i, -, hi⟩; exact ⟨i, hi⟩

instance (h n : List T) : Decidable (Occurs h n) := decidable_of_iff _ (occurs_iff h n).symm

instance (s sep a b : List T) : Decidable (FirstSplit s sep a b) := by unfold FirstSplit; infer_instance

theorem climbs_iff (p : List (List Char)) : Climbs p ↔
    ∃ k, k < p.length + 1 ∧ ((p.take k).countP isName) < ((p.take k).countP isUp) := by
  constructor
  · rintro ⟨k, hk⟩
    by_cases h : k ≤ p.length
    · exact ⟨k, by omega, hk⟩
    · refine ⟨p.length, by omega, ?_⟩
      rwa [List.take_of_length_le (by omega)] at hk ⊢
  · rintro ⟨k, -, hk⟩; exact ⟨k, hk⟩

instance (p : List (List Char)) : Decidable (Climbs p) := decidable_of_iff _ (climbs_iff p).symm

end Octane.Spec
