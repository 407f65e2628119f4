import Verif.Model.Util
import Verif.Spec.Slice
import Verif.Proof.Basic
namespace Octane
open Spec
variable {T : Type u}

theorem occursAt_iff_prefix {h n : List T} {i : Nat} :
    OccursAt h n i ↔ i + n.length ≤ h.length ∧ n <+: h.drop i := by
  constructor
  · rintro ⟨a, b, rfl, rfl⟩
    refine ⟨by simp, ?_⟩
    rw [List.append_assoc, List.drop_left]
    exact List.prefix_append _ _
  · rintro ⟨hl, t, ht⟩
    refine ⟨h.take i, t, ?_, by simp; omega⟩
    rw [List.append_assoc, ht, List.take_append_drop]

variable [DecidableEq T]

theorem matchLoopAt_ok (h n : List T) (i : Nat) (hi : i + n.length ≤ h.length) (j k : Nat)
    (hk : j + k = n.length) :
    ∃ b, matchLoopAt h n i j k = .ok b ∧ (b = true ↔ n.drop j <+: h.drop (i + j)) := by
  induction k generalizing j with
  | zero =>
    refine ⟨true, rfl, ?_⟩
    have : n.drop j = [] := by simp; omega
    simp [this]
  | succ k ih =>
    have h1 : i + j < h.length := by omega
    have h2 : j < n.length := by omega
    unfold matchLoopAt
    rw [List.getElem?_eq_getElem h1, List.getElem?_eq_getElem h2]
    obtain ⟨b, hb, hb'⟩ := ih (j + 1) (by omega)
    have e1 : n.drop j = n[j] :: n.drop (j + 1) := List.drop_eq_getElem_cons h2
    have e2 : h.drop (i + j) = h[i + j] :: h.drop (i + (j + 1)) := List.drop_eq_getElem_cons h1
    by_cases he : h[i + j] = n[j]
    · refine ⟨b, by simp [he, hb], ?_⟩
      rw [hb', e1, e2, List.cons_prefix_cons]
      simp [he]
    · refine ⟨false, by simp [he], ?_⟩
      rw [e1, e2, List.cons_prefix_cons]
      simp; intro h'; exact absurd h'.symm he

theorem findLoop_ok (h n : List T) (i k : Nat) (hik : i + k + n.length = h.length + 1) :
    ∃ r, findLoop h n i k = .ok r ∧
      (∀ v, r = some v → OccursAt h n v ∧ i ≤ v ∧ ∀ j, i ≤ j → j < v → ¬ OccursAt h n j) ∧
      (r = none → ∀ j, i ≤ j → ¬ OccursAt h n j) := by
  induction k generalizing i with
  | zero =>
    refine ⟨none, rfl, by simp, fun _ j hj ho => ?_⟩
    have := (occursAt_iff_prefix.1 ho).1
    omega
  | succ k ih =>
    unfold findLoop
    obtain ⟨b, hb, hb'⟩ := matchLoopAt_ok h n i (by omega) 0 n.length (by omega)
    rw [hb, Res.bind_ok']
    simp only [List.drop_zero, Nat.add_zero] at hb'
    cases b with
    | true =>
      refine ⟨some i, rfl, ?_, by simp⟩
      rintro v rfl'
      simp only [Option.some.injEq] at rfl'
      subst rfl'
      exact ⟨occursAt_iff_prefix.2 ⟨by omega, hb'.1 rfl⟩, Nat.le_refl _, fun j h1 h2 => by omega⟩
    | false =>
      have hno : ¬ OccursAt h n i := fun ho => by
        have := hb'.2 (occursAt_iff_prefix.1 ho).2
        simp at this
      obtain ⟨r, h1, h2, h3⟩ := ih (i + 1) (by omega)
      refine ⟨r, by simp [h1], ?_, ?_⟩
      · intro v hv
        obtain ⟨a, b, c⟩ := h2 v hv
        refine ⟨a, by omega, fun j hj hjv => ?_⟩
        by_cases hji : j = i
        · exact hji ▸ hno
        · exact c j (by omega) hjv
      · intro hr j hj
        by_cases hji : j = i
        · exact hji ▸ hno
        · exact h3 hr j (by omega)

theorem findInSlice_ok (h n : List T) :
    ∃ r, findInSlice h n = .ok r ∧
      (∀ v, r = some v → OccursAt h n v ∧ ∀ j, j < v → ¬ OccursAt h n j) ∧
      (r = none → ¬ Occurs h n) := by
  unfold findInSlice
  split
  · refine ⟨none, rfl, by simp, fun _ => ?_⟩
    rintro ⟨i, ho⟩
    have := (occursAt_iff_prefix.1 ho).1
    omega
  · obtain ⟨r, h1, h2, h3⟩ := findLoop_ok h n 0 (h.length - n.length + 1) (by omega)
    refine ⟨r, h1, fun v hv => ⟨(h2 v hv).1, fun j hj => (h2 v hv).2.2 j (by omega) hj⟩, ?_⟩
    rintro hr ⟨i, ho⟩
    exact h3 hr i (by omega) ho

namespace Spliterator

theorem next_ok (s : List T) (seq : List T) :
    (∃ a b, s = a ++ seq ++ b ∧ (∀ j, j < a.length → ¬ OccursAt s seq j) ∧
        next ⟨s, false, seq⟩ = .ok (some a, ⟨b, false, seq⟩)) ∨
    (¬ Occurs s seq ∧ next ⟨s, false, seq⟩ = .ok (some s, ⟨s, true, seq⟩)) := by
  obtain ⟨r, h1, h2, h3⟩ := findInSlice_ok s seq
  unfold next
  simp only [Bool.false_eq_true, if_false, h1, Res.bind_ok']
  cases r with
  | none => exact .inr ⟨h3 rfl, rfl⟩
  | some v =>
    obtain ⟨⟨a, b, hs, ha⟩, hmin⟩ := h2 v rfl
    subst ha
    refine .inl ⟨a, b, hs, hmin, ?_⟩
    subst hs
    have : a.length ≤ (a ++ seq ++ b).length ∧ seq.length ≤ ((a ++ seq ++ b).drop a.length).length := by
      simp
    simp only [this, and_self, if_true]
    simp

theorem collect_ok (seq : List T) (hseq : seq ≠ []) (s : List T) (fuel : Nat)
    (hf : s.length + 2 ≤ fuel) :
    ∃ ps, collect fuel ⟨s, false, seq⟩ = .ok (some ps) ∧ ps ≠ [] ∧ seq.intercalate ps = s ∧
      ∀ p ∈ ps, ¬ Occurs p seq := by
  induction fuel generalizing s with
  | zero => omega
  | succ fuel ih =>
    unfold collect
    rcases next_ok s seq with ⟨a, b, hs, hmin, hn⟩ | ⟨hno, hn⟩
    · have hpos : 0 < seq.length := List.length_pos_iff.2 hseq
      have hlen : s.length = a.length + seq.length + b.length := by rw [hs]; simp; omega
      obtain ⟨ps, h1, h2, h3, h4⟩ := ih b (by omega)
      refine ⟨a :: ps, by simp [hn, h1], by simp, ?_, ?_⟩
      · cases ps with
        | nil => exact absurd rfl h2
        | cons q ps =>
          simp only [List.intercalate, List.intersperse_cons_cons, List.flatten_cons] at h3 ⊢
          rw [h3, hs, List.append_assoc]
      · intro p hp
        rcases List.mem_cons.1 hp with rfl | hp
        · rintro ⟨i, x, y, hxy, hi⟩
          apply hmin i
          · rw [hxy]; simp; omega
          · exact ⟨x, y ++ seq ++ b, by rw [hs, hxy]; simp, hi⟩
        · exact h4 p hp
    · refine ⟨[s], ?_, by simp, by simp [List.intercalate], ?_⟩
      · obtain ⟨f, rfl⟩ : ∃ f, fuel = f + 1 := ⟨fuel - 1, by omega⟩
        have h2 : next (⟨s, true, seq⟩ : Spliterator T) = .ok (none, ⟨s, true, seq⟩) := rfl
        simp [hn, collect, h2]
      · intro p hp
        rw [List.mem_singleton.1 hp]; exact hno

end Spliterator
end Octane
