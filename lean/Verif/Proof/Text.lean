import Verif.Spec.Text
import Verif.Proof.Show
/-
The model's text operations meet their specifications.
-/
namespace Octane
open Spec

theorem asciiUpperC_eq (c : Char) : asciiUpperC c = capital c := by
  simp only [asciiUpperC, capital, isLower, Char.le_def, UInt32.le_iff_toNat_le]; rfl
theorem asciiLowerC_eq (c : Char) : asciiLowerC c = small c := by
  simp only [asciiLowerC, small, isUpper, Char.le_def, UInt32.le_iff_toNat_le]; rfl
theorem asciiUpper_eq (s : Str) : asciiUpper s = capitals s :=
  List.map_congr_left fun c _ => asciiUpperC_eq c
theorem asciiLower_eq (s : Str) : asciiLower s = lowered s :=
  List.map_congr_left fun c _ => asciiLowerC_eq c

theorem isWhitespace_iff (c : Char) : isWhitespace c = true ↔ c ∈ whiteSpace := by
  have key : c ∈ whiteSpace ↔ c.toNat ∈ whiteSpace.map Char.toNat := by
    constructor
    · exact fun h => List.mem_map_of_mem h
    · intro h
      obtain ⟨d, hd, he⟩ := List.mem_map.1 h
      have : d = c := Char.ext (UInt32.toNat_inj.1 he)
      exact this ▸ hd
  rw [key]
  have e : whiteSpace.map Char.toNat = [9, 10, 11, 12, 13, 32, 0x85, 0xA0, 0x1680, 0x2000, 0x2001,
    0x2002, 0x2003, 0x2004, 0x2005, 0x2006, 0x2007, 0x2008, 0x2009, 0x200A, 0x2028, 0x2029, 0x202F,
    0x205F, 0x3000] := by decide +kernel
  rw [e]
  simp only [isWhitespace, Bool.or_eq_true, Bool.and_eq_true, decide_eq_true_eq, beq_iff_eq,
    List.mem_cons, List.not_mem_nil, or_false]
  omega

theorem isWhitespace_false (c : Char) : isWhitespace c = false ↔ c ∉ whiteSpace := by
  rw [← isWhitespace_iff]; cases isWhitespace c <;> simp

theorem dropWhile_spec (p : Char → Bool) (s : Str) :
    ∃ a, s = a ++ s.dropWhile p ∧ (∀ c ∈ a, p c = true) ∧
      ∀ c, (s.dropWhile p).head? = some c → p c = false := by
  induction s with
  | nil => exact ⟨[], by simp⟩
  | cons d s ih =>
    rw [List.dropWhile_cons]
    by_cases h : p d = true
    · obtain ⟨a, h1, h2, h3⟩ := ih
      refine ⟨d :: a, ?_, ?_, ?_⟩
      · rw [if_pos h, List.cons_append, ← h1]
      · intro c hc
        rcases List.mem_cons.1 hc with rfl | hc
        · exact h
        · exact h2 c hc
      · rw [if_pos h]; exact h3
    · refine ⟨[], by rw [if_neg h]; rfl, by simp, ?_⟩
      rw [if_neg h]; intro c hc
      simp at hc; subst hc; simpa using h

theorem dropWhile_append_all (p : Char → Bool) (a s : Str) (h : ∀ c ∈ a, p c = true) :
    (a ++ s).dropWhile p = s.dropWhile p := by
  induction a with
  | nil => rfl
  | cons d a ih =>
    rw [List.cons_append, List.dropWhile_cons, if_pos (h d (by simp)),
      ih fun c hc => h c (List.mem_cons_of_mem _ hc)]

theorem dropWhile_stop (p : Char → Bool) (s : Str) (h : ∀ c, s.head? = some c → p c = false) :
    s.dropWhile p = s := by
  cases s with
  | nil => rfl
  | cons d s => rw [List.dropWhile_cons, if_neg]; simp [h d rfl]

theorem trim_trimmed (s : Str) : Trimmed s (trim s) := by
  obtain ⟨a, h1, h2, h3⟩ := dropWhile_spec isWhitespace s
  obtain ⟨b, h4, h5, h6⟩ := dropWhile_spec isWhitespace (s.dropWhile isWhitespace).reverse
  have e : s.dropWhile isWhitespace = trim s ++ b.reverse := by
    have := congrArg List.reverse h4
    rw [List.reverse_reverse, List.reverse_append] at this
    exact this
  refine ⟨a, b.reverse, by rw [List.append_assoc, ← e]; exact h1, ?_, ?_, ?_⟩
  · intro c hc
    rw [← isWhitespace_iff]
    rcases List.mem_append.1 hc with hc | hc
    · exact h2 c hc
    · exact h5 c (List.mem_reverse.1 hc)
  · intro c hc
    rw [← isWhitespace_false]
    refine h3 c ?_
    rw [e]
    cases ht : trim s with
    | nil => rw [ht] at hc; simp at hc
    | cons d t => rw [ht] at hc; simpa using hc
  · intro c hc
    rw [← isWhitespace_false]
    refine h6 c ?_
    unfold trim at hc
    rw [List.getLast?_reverse] at hc
    exact hc

theorem trimmed_iff (s t : Str) : Trimmed s t ↔ trim s = t := by
  constructor
  · rintro ⟨a, b, rfl, h1, h2, h3⟩
    by_cases ht : t = []
    · subst ht
      have : ∀ c ∈ a ++ [] ++ b, isWhitespace c = true := by
        intro c hc
        rw [List.append_nil] at hc
        exact (isWhitespace_iff c).2 (h1 c hc)
      unfold trim
      have e := dropWhile_append_all isWhitespace _ [] this
      rw [List.append_nil] at e
      rw [e]; rfl
    · unfold trim
      rw [List.append_assoc, dropWhile_append_all _ _ _ fun c hc =>
        (isWhitespace_iff c).2 (h1 c (List.mem_append_left _ hc))]
      rw [dropWhile_stop _ (t ++ b), List.reverse_append, dropWhile_append_all _ _ _ fun c hc =>
        (isWhitespace_iff c).2 (h1 c (List.mem_append_right _ (List.mem_reverse.1 hc))),
        dropWhile_stop, List.reverse_reverse]
      · intro c hc
        rw [List.head?_reverse] at hc
        exact (isWhitespace_false c).2 (h3 c hc)
      · intro c hc
        cases t with
        | nil => exact absurd rfl ht
        | cons d t => exact (isWhitespace_false c).2 (h2 c (by simpa using hc))
  · rintro rfl; exact trim_trimmed s

theorem showNat_head (n : Nat) (h : (showNat n).head? = some '0') : n = 0 := by
  induction n using Nat.strongRecOn with
  | _ n ih =>
    by_cases h10 : n < 10
    · rw [showNat_lt h10] at h
      simp only [List.head?_cons, Option.some.injEq] at h
      have := (digitChar_facts n h10).1
      rw [h] at this
      have e : ('0' : Char).toNat = 48 := rfl
      omega
    · rw [showNat_ge h10] at h
      have hne := showNat_ne_nil (n / 10)
      have : (showNat (n / 10)).head? = some '0' := by
        cases hs : showNat (n / 10) with
        | nil => exact absurd hs hne
        | cons d t => rw [hs] at h; simpa using h
      have := ih (n / 10) (by omega) this
      omega

theorem showNat_numeral (n : Nat) : Numeral n (showNat n) := by
  refine ⟨showNat_ne_nil n, ?_, ?_, showNat_val n⟩
  · intro c hc
    have := showNat_digits n c hc
    simp only [Char.le_def, UInt32.le_iff_toNat_le]
    exact this
  · intro h
    rw [showNat_head n h, showNat_lt (by omega)]; rfl

theorem showInt_numeral (n : Int) : IntNumeral n (showInt n) := by
  rcases Int.lt_or_le n 0 with h | h
  · exact Or.inr ⟨h, _, showInt_neg h, showNat_numeral _⟩
  · exact Or.inl ⟨h, by rw [showInt_nonneg h]; exact showNat_numeral _⟩

/-- there is only one numeral of a number -/
theorem Spec.Numeral.eq {n : Nat} {s : Str} (h : Numeral n s) : s = showNat n := by
  obtain ⟨h1, h2, h3, h4⟩ := h
  induction hk : s.length generalizing s n with
  | zero => exact absurd (List.length_eq_zero_iff.1 hk) h1
  | succ k ih =>
    obtain ⟨t, c, rfl⟩ : ∃ t c, s = t ++ [c] :=
      ⟨_, _, (List.dropLast_concat_getLast h1).symm⟩
    have hc := h2 c (by simp)
    simp only [Char.le_def, UInt32.le_iff_toNat_le] at hc
    have hc1 : 48 ≤ c.toNat := hc.1
    have hc2 : c.toNat ≤ 57 := hc.2
    have hd : digitChar (c.toNat - 48) = c := by
      refine Char.ext (UInt32.toNat_inj.1 ?_)
      have := (digitChar_facts (c.toNat - 48) (by omega)).1
      show (digitChar (c.toNat - 48)).toNat = c.toNat
      omega
    rw [List.foldl_append] at h4
    simp only [List.foldl_cons, List.foldl_nil] at h4
    cases t with
    | nil =>
      simp only [List.foldl_nil, Nat.mul_zero, Nat.zero_add] at h4
      rw [List.nil_append, showNat_lt (by omega), ← h4, hd]
    | cons d t =>
      have hd0 : d ≠ '0' := by
        rintro rfl
        have := h3 rfl
        simp at this
      have h0 : (d :: t).head? = some '0' → d :: t = ['0'] := by
        intro h
        rw [List.head?_cons] at h
        exact absurd (Option.some.inj h) hd0
      generalize hm' : (d :: t).foldl (fun a c => 10 * a + (c.toNat - 48)) 0 = m at h4
      have e := ih (List.cons_ne_nil d t) (fun x hx => h2 x (List.mem_append_left _ hx)) h0 hm'
        (by simp only [List.length_append, List.length_cons, List.length_nil] at hk ⊢; omega)
      have hm : m ≠ 0 := by
        rintro rfl
        rw [showNat_lt (by omega)] at e
        exact hd0 (List.cons.inj e).1
      rw [e, showNat_ge (n := n) (by omega)]
      have e1 : n / 10 = m := by omega
      have e2 : n % 10 = c.toNat - 48 := by omega
      rw [e1, e2, hd]

theorem Spec.IntNumeral.eq {n : Int} {s : Str} (h : IntNumeral n s) : s = showInt n := by
  rcases h with ⟨h1, h2⟩ | ⟨h1, t, rfl, h2⟩
  · rw [showInt_nonneg h1]; exact h2.eq
  · rw [showInt_neg h1, ← h2.eq]

end Octane
