import Verif.Proof.Query
/-
Lemmas for the size of what a query is parsed into (`Props/QuerySize.lean`).
-/
namespace Octane
open Spec Query

/-! ### sums over a map -/

section
variable {K : Type u} {V : Type v} [DecidableEq K]

theorem sum_insert_le (f : K × V → Nat) (m : HMap K V) (k : K) (v : V) :
    ((m.insert k v).map f).sum ≤ (m.map f).sum + f (k, v) := by
  induction m with
  | nil => simp [HMap.insert]
  | cons e m ih =>
    obtain ⟨k', v'⟩ := e
    unfold HMap.insert
    split
    · simp only [List.map_cons, List.sum_cons]; omega
    · simp only [List.map_cons, List.sum_cons]; omega

theorem sum_insert_get (f : K × V → Nat) (m : HMap K V) (k : K) (v v' : V)
    (h : m.get k = some v') :
    ((m.insert k v).map f).sum + f (k, v') = (m.map f).sum + f (k, v) := by
  induction m with
  | nil => simp [HMap.get] at h
  | cons e m ih =>
    obtain ⟨k₁, v₁⟩ := e
    unfold HMap.get at h
    unfold HMap.insert
    split at h
    · rename_i hk
      rw [if_pos hk]
      injection h with h
      subst hk h
      simp only [List.map_cons, List.sum_cons]; omega
    · rename_i hk
      rw [if_neg hk]
      have := ih h
      simp only [List.map_cons, List.sum_cons]; omega

end

/-! ### decoding -/

theorem encode_length_pos (c : Char) : 1 ≤ (String.utf8EncodeChar c).length := by
  rw [String.length_utf8EncodeChar]; exact Char.utf8Size_pos c

theorem hexVal_lt {c : Char} {n : Nat} (h : hexVal c = some n) : n < 16 := by
  unfold hexVal at h
  have hl : ∀ (l : Str) (n : Nat), l.length = 16 → l.idxOf? c = some n → n < 16 := by
    intro l n hl hn
    have := List.idxOf?_eq_some_iff.1 hn
    obtain ⟨h1, _⟩ := this
    omega
  split at h
  · rename_i m hm
    injection h with h
    subst h
    exact hl _ _ rfl hm
  · exact hl _ _ rfl h

theorem encode_length_two {n : Nat} (h : n < 256) :
    (String.utf8EncodeChar (Char.ofNat n)).length ≤ 2 := by
  have : ∀ m : Fin 256, (String.utf8EncodeChar (Char.ofNat m.val)).length ≤ 2 := by
    decide +kernel
  exact this ⟨n, h⟩

theorem size_decode (s : Str) : (utf8 (decode s)).length ≤ (utf8 s).length := by
  fun_induction decode s with
  | case1 => exact Nat.le_refl _
  | case2 => exact Nat.le_refl _
  | case3 => exact Nat.le_refl _
  | case4 a b r x y hx hy ih =>
    have := encode_length_two (n := 16 * x + y) (by have := hexVal_lt hx; have := hexVal_lt hy; omega)
    have := encode_length_pos a
    have := encode_length_pos b
    have := encode_length_pos '%'
    simp only [utf8_cons, List.length_append] at *
    omega
  | case5 a b r _ ih =>
    simp only [utf8_cons, List.length_append] at *
    omega
  | case6 c a b r _ ih =>
    simp only [utf8_cons, List.length_append] at *
    omega

/-! ### tokens -/

theorem size_token (tok : Str) :
    (utf8 (tok.takeWhile (· != '='))).length +
      (utf8 ((tok.dropWhile (· != '=')).drop 1)).length ≤ (utf8 tok).length := by
  have h : utf8 tok = utf8 (tok.takeWhile (· != '=')) ++ utf8 (tok.dropWhile (· != '=')) := by
    rw [← utf8_append, List.takeWhile_append_dropWhile]
  rw [h, List.length_append]
  have : (utf8 ((tok.dropWhile (· != '=')).drop 1)).length ≤
      (utf8 (tok.dropWhile (· != '='))).length := by
    cases tok.dropWhile (· != '=') with
    | nil => simp
    | cons c r => simp
  omega

theorem dropWhile_ne_nil {tok : Str} (h : '=' ∈ tok) : tok.dropWhile (· != '=') ≠ [] := by
  induction tok with
  | nil => cases h
  | cons c r ih =>
    by_cases hc : c = '='
    · simp [hc]
    · have : '=' ∈ r := by
        rcases List.mem_cons.1 h with h | h
        · exact absurd h.symm hc
        · exact h
      rw [List.dropWhile_cons, if_pos (by simpa using hc)]
      exact ih this

theorem size_token_eq {tok : Str} (h : '=' ∈ tok) :
    (utf8 (tok.takeWhile (· != '='))).length +
      (utf8 ((tok.dropWhile (· != '=')).drop 1)).length + 1 ≤ (utf8 tok).length := by
  have e : utf8 tok = utf8 (tok.takeWhile (· != '=')) ++ utf8 (tok.dropWhile (· != '=')) := by
    rw [← utf8_append, List.takeWhile_append_dropWhile]
  rw [e, List.length_append]
  cases hd : tok.dropWhile (· != '=') with
  | nil =>
    exact absurd hd (dropWhile_ne_nil h)
  | cons c r =>
    have := encode_length_pos c
    simp only [List.drop_succ_cons, List.drop_zero, utf8_cons, List.length_append]
    omega

theorem sum_splitChar {c : Char} (hc : (String.utf8EncodeChar c).length = 1) (s : Str) :
    ((splitChar c s).map fun t => (utf8 t).length + 1).sum = (utf8 s).length + 1 := by
  induction s with
  | nil => simp
  | cons d s ih =>
    by_cases h : d = c
    · subst h
      rw [splitChar_cons_eq]
      simp only [List.map_cons, List.sum_cons, ih, utf8_cons, List.length_append, hc]
      simp
      omega
    · obtain ⟨p, ps, h1, h2⟩ := splitChar_cons_ne s h
      rw [h1] at ih
      rw [h2]
      simp only [List.map_cons, List.sum_cons, utf8_cons, List.length_append] at *
      omega

end Octane
