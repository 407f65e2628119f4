import Verif.Model.Basic
/-
Helper lemmas about printed integers.
-/
namespace Octane

theorem digitChar_facts (n : Nat) (h : n < 10) :
    (digitChar n).toNat = 48 + n ∧ (digitChar n).utf8Size = 1 ∧
      String.utf8EncodeChar (digitChar n) = [UInt8.ofNat (48 + n)] := by
  have : n = 0 ∨ n = 1 ∨ n = 2 ∨ n = 3 ∨ n = 4 ∨ n = 5 ∨ n = 6 ∨ n = 7 ∨ n = 8 ∨ n = 9 := by omega
  rcases this with rfl | rfl | rfl | rfl | rfl | rfl | rfl | rfl | rfl | rfl <;> decide +kernel

theorem showNat_lt {n : Nat} (h : n < 10) : showNat n = [digitChar n] := by
  rw [showNat, if_pos h]

theorem showNat_ge {n : Nat} (h : ¬ n < 10) :
    showNat n = showNat (n / 10) ++ [digitChar (n % 10)] := by
  rw [showNat, if_neg h]

theorem showNat_ne_nil (n : Nat) : showNat n ≠ [] := by
  by_cases h : n < 10
  · rw [showNat_lt h]; simp
  · rw [showNat_ge h]; simp

theorem showNat_digits (n : Nat) : ∀ c ∈ showNat n, 48 ≤ c.toNat ∧ c.toNat ≤ 57 := by
  induction n using Nat.strongRecOn with
  | ind n ih =>
    intro c hc
    by_cases h : n < 10
    · rw [showNat_lt h] at hc
      simp at hc
      rw [hc, (digitChar_facts n h).1]; omega
    · rw [showNat_ge h, List.mem_append] at hc
      rcases hc with hc | hc
      · exact ih _ (by omega) c hc
      · simp at hc
        rw [hc, (digitChar_facts (n % 10) (by omega)).1]; omega

theorem showNat_val (n : Nat) :
    (showNat n).foldl (fun a c => 10 * a + (c.toNat - 48)) 0 = n := by
  induction n using Nat.strongRecOn with
  | ind n ih =>
    by_cases h : n < 10
    · rw [showNat_lt h]
      simp [(digitChar_facts n h).1]
    · rw [showNat_ge h, List.foldl_append, ih _ (by omega)]
      simp [(digitChar_facts (n % 10) (by omega)).1]
      omega

theorem showNat_inj {a b : Nat} (h : showNat a = showNat b) : a = b := by
  rw [← showNat_val a, h, showNat_val]

theorem showNat_length (n k : Nat) (h1 : 10 ^ k ≤ n) (h2 : n < 10 ^ (k + 1)) :
    (showNat n).length = k + 1 := by
  induction k generalizing n with
  | zero => rw [showNat_lt (by simpa using h2)]; rfl
  | succ k ih =>
    have hk : 0 < 10 ^ k := Nat.pow_pos (by decide)
    rw [Nat.pow_succ] at h1 h2
    rw [showNat_ge (by omega), List.length_append, ih (n / 10)]
    · rfl
    · omega
    · rw [Nat.pow_succ] at h2 ⊢; omega

theorem showInt_nonneg {n : Int} (h : 0 ≤ n) : showInt n = showNat n.toNat := by
  cases n with
  | ofNat n => rfl
  | negSucc n => omega

theorem showInt_neg {n : Int} (h : n < 0) : showInt n = '-' :: showNat n.natAbs := by
  cases n with
  | ofNat n => exact absurd h (by simp)
  | negSucc n => rfl

theorem showInt_inj {a b : Int} (h : showInt a = showInt b) : a = b := by
  have key : ∀ (x : Int) (n : Nat), x < 0 → showInt x = showNat n → False := by
    intro x n hx he
    rw [showInt_neg hx] at he
    have := showNat_digits n '-' (by rw [← he]; simp)
    revert this; decide
  by_cases ha : 0 ≤ a <;> by_cases hb : 0 ≤ b
  · rw [showInt_nonneg ha, showInt_nonneg hb] at h
    have := showNat_inj h; omega
  · exact (key b a.toNat (by omega) (by rw [← h, showInt_nonneg ha])).elim
  · exact (key a b.toNat (by omega) (by rw [h, showInt_nonneg hb])).elim
  · rw [showInt_neg (by omega), showInt_neg (by omega)] at h
    have := showNat_inj (List.cons.inj h).2
    omega

theorem showNat_pair {n : Nat} (h1 : 10 ≤ n) (h2 : n < 100) :
    showNat n = [digitChar (n / 10), digitChar (n % 10)] := by
  rw [showNat_ge (by omega), showNat_lt (by omega)]; rfl

end Octane
