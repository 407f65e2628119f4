import Verif.Model.Unicode
import Verif.Spec.Quoted
/-
Lemmas about quoting: `{:?}` prints Rust literals; both notations are unambiguous.
-/
namespace Octane
open Spec

theorem hexDigit_unique {c : Char} {n m : Nat} (h : HexDigit c n) (h' : HexDigit c m) : n = m := by
  unfold HexDigit at h h'
  simp only [Char.le_def] at h h'
  have e : c.toNat = c.val.toNat := rfl
  simp only [UInt32.le_iff_toNat_le] at h h'
  have h0 : '0'.val.toNat = 48 := rfl
  have h9 : '9'.val.toNat = 57 := rfl
  have ha : 'a'.val.toNat = 97 := rfl
  have hf : 'f'.val.toNat = 102 := rfl
  have hA : 'A'.val.toNat = 65 := rfl
  have hF : 'F'.val.toNat = 70 := rfl
  rw [h0, h9, ha, hf, hA, hF] at h h'
  rcases h with h | h | h <;> rcases h' with h' | h' | h' <;> omega

theorem hexDigit_not_brace {n : Nat} : ¬ HexDigit '}' n := by
  unfold HexDigit
  simp only [Char.le_def]
  rintro (h | h | h)
  · exact absurd h.2.1 (by decide)
  · exact absurd h.2.1 (by decide)
  · exact absurd h.2.1 (by decide)

theorem hexNumeral_ne_nil {ds : Str} {n : Nat} (h : HexNumeral ds n) : ds ≠ [] := by
  cases h <;> simp

theorem hexNumeral_no_brace {ds : Str} {n : Nat} (h : HexNumeral ds n) : '}' ∉ ds := by
  induction h with
  | one hd =>
    simp only [List.mem_singleton]
    rintro rfl
    exact hexDigit_not_brace hd
  | snoc _ hd ih =>
    simp only [List.mem_append, List.mem_singleton, not_or]
    refine ⟨ih, ?_⟩
    rintro rfl
    exact hexDigit_not_brace hd

theorem hexNumeral_unique {ds : Str} {n m : Nat} (h : HexNumeral ds n) (h' : HexNumeral ds m) : n = m := by
  induction h generalizing m with
  | @one c n hd =>
    generalize e : [c] = l at h'
    cases h' with
    | one hd' =>
      injection e with e1 _
      subst e1
      exact hexDigit_unique hd hd'
    | @snoc ds' n' c' m' hn hd' =>
      have hl := congrArg List.length e
      have := List.length_pos_iff.2 (hexNumeral_ne_nil hn)
      simp at hl
      exact absurd hl (hexNumeral_ne_nil hn)
  | @snoc ds n c k hn hd ih =>
    generalize e : ds ++ [c] = l at h'
    cases h' with
    | one hd' =>
      have hl := congrArg List.length e
      simp at hl
      exact absurd hl (hexNumeral_ne_nil hn)
    | @snoc ds' n' c' m' hn' hd' =>
      obtain ⟨e1, e2⟩ := List.append_inj' e rfl
      injection e2 with e2 _
      subst e1 e2
      rw [ih hn', hexDigit_unique hd hd']

theorem split_brace {a b t t' : Str} (ha : '}' ∉ a) (hb : '}' ∉ b) (h : a ++ '}' :: t = b ++ '}' :: t') :
    a = b ∧ t = t' := by
  induction a generalizing b with
  | nil =>
    cases b with
    | nil => exact ⟨rfl, by simpa using h⟩
    | cons c b =>
      simp only [List.nil_append, List.cons_append, List.cons.injEq] at h
      exact absurd (h.1 ▸ List.mem_cons_self ..) hb
  | cons c a ih =>
    cases b with
    | nil =>
      simp only [List.nil_append, List.cons_append, List.cons.injEq] at h
      exact absurd (h.1 ▸ List.mem_cons_self ..) ha
    | cons d b =>
      simp only [List.cons_append, List.cons.injEq] at h
      obtain ⟨e1, e2⟩ := ih (fun hm => ha (List.mem_cons_of_mem _ hm))
        (fun hm => hb (List.mem_cons_of_mem _ hm)) h.2
      exact ⟨by rw [h.1, e1], e2⟩

/-- A Rust literal denotes one string. -/
theorem rustQuoted_unique {t s s' : Str} (h : RustQuoted t s) (h' : RustQuoted t s') : s = s' := by
  induction h generalizing s' with
  | nil => cases h'; rfl
  | @text c t s h1 h2 h3 _ ih =>
    generalize e : c :: t = l at h'
    cases h' with
    | nil => cases e
    | text _ _ _ ht => injection e with e1 e2; subst e1 e2; rw [ih ht]
    | escape _ _ => injection e with e1 _; exact absurd e1 h2
    | unicode _ _ _ _ => injection e with e1 _; exact absurd e1 h2
  | @escape k c t s hk _ ih =>
    generalize e : '\\' :: k :: t = l at h'
    cases h' with
    | nil => cases e
    | text _ h2 _ _ => injection e with e1 _; exact absurd e1.symm h2
    | @escape k' c' t' s' hk' ht' =>
      injection e with _ e; injection e with e1 e2
      subst e1 e2
      rw [ih ht']
      congr 1
      simp only [List.mem_cons, Prod.mk.injEq, List.not_mem_nil, or_false] at hk hk'
      rcases hk with ⟨rfl, rfl⟩ | ⟨rfl, rfl⟩ | ⟨rfl, rfl⟩ | ⟨rfl, rfl⟩ | ⟨rfl, rfl⟩ | ⟨rfl, rfl⟩ |
        ⟨rfl, rfl⟩ <;> simp at hk' <;> simp [hk']
    | unicode _ _ _ _ =>
      simp only [List.cons_append] at e
      injection e with _ e; injection e with e1 e2
      subst e1
      simp at hk
  | @unicode ds n t s hn hl hv _ ih =>
    generalize e : '\\' :: 'u' :: '{' :: ds ++ '}' :: t = l at h'
    cases h' with
    | nil => cases e
    | text _ h2 _ _ => simp only [List.cons_append] at e; injection e with e1 _; exact absurd e1.symm h2
    | escape hk' _ =>
      simp only [List.cons_append] at e
      injection e with _ e; injection e with e1 e2
      subst e1
      simp at hk'
    | @unicode ds' n' t' s' hn' _ _ ht' =>
      simp only [List.cons_append] at e
      injection e with _ e; injection e with _ e; injection e with _ e
      obtain ⟨e1, e2⟩ := split_brace (hexNumeral_no_brace hn) (hexNumeral_no_brace hn') e
      subst e1 e2
      rw [ih ht', hexNumeral_unique hn hn']

/-- An HTTP quoted string denotes one string. -/
theorem httpQuoted_unique {t s s' : Str} (h : HttpQuoted t s) (h' : HttpQuoted t s') : s = s' := by
  induction h generalizing s' with
  | nil => cases h'; rfl
  | @text c t s h1 h2 h3 _ ih =>
    generalize e : c :: t = l at h'
    cases h' with
    | nil => cases e
    | text _ _ _ ht => injection e with e1 e2; subst e1 e2; rw [ih ht]
    | pair _ _ => injection e with e1 _; exact absurd e1 h2
  | @pair c t s h1 _ ih =>
    generalize e : '\\' :: c :: t = l at h'
    cases h' with
    | nil => cases e
    | text _ h2 _ _ => injection e with e1 _; exact absurd e1.symm h2
    | pair _ ht => injection e with _ e; injection e with e1 e2; subst e1 e2; rw [ih ht]

/-! ### `{:?}` -/

theorem hexDigit_of (n : Nat) (h : n < 16) : HexDigit (c!"0123456789abcdef".getD n '0') n := by
  have key : ∀ n < 16, (let c := c!"0123456789abcdef".getD n '0'
      ('0' ≤ c ∧ c ≤ '9' ∧ n = c.toNat - 48) ∨ ('a' ≤ c ∧ c ≤ 'f' ∧ n = c.toNat - 87) ∨
      ('A' ≤ c ∧ c ≤ 'F' ∧ n = c.toNat - 55)) := by decide
  exact key n h

theorem hexDigits_numeral (n : Nat) : HexNumeral (hexDigits n) n := by
  induction n using Nat.strongRecOn with
  | _ n ih =>
    rw [hexDigits]
    split
    · exact .one (hexDigit_of n ‹_›)
    · have := HexNumeral.snoc (ih (n / 16) (by omega)) (hexDigit_of (n % 16) (Nat.mod_lt _ (by omega)))
      rwa [Nat.div_add_mod] at this

theorem hexDigits_length (k n : Nat) (h : n < 16 ^ (k + 1)) : (hexDigits n).length ≤ k + 1 := by
  induction k generalizing n with
  | zero => rw [hexDigits, if_pos (by simpa using h)]; simp
  | succ k ih =>
    rw [hexDigits]
    split
    · simp
    · simp only [List.length_append, List.length_singleton]
      have := ih (n / 16) (by rw [Nat.pow_succ] at h; omega)
      omega

theorem debugChar_rust (U : Unicode) (c : Char) (t s : Str) (h : RustQuoted t s) :
    RustQuoted (U.debugChar c ++ t) (c :: s) := by
  unfold Unicode.debugChar
  split
  · subst_vars; exact .escape (by simp) h
  split
  · subst_vars; exact .escape (by simp) h
  split
  · subst_vars; exact .escape (by simp) h
  split
  · subst_vars; exact .escape (by simp) h
  split
  · subst_vars; exact .escape (by simp) h
  split
  · subst_vars; exact .escape (by simp) h
  rename_i h0 h1 h2 h3 h4 h5
  split
  · have hlt : c.toNat < 16 ^ 6 := by
      have := c.valid
      have e : c.toNat = c.val.toNat := rfl
      rcases this with h | h <;> omega
    have := RustQuoted.unicode (hexDigits_numeral c.toNat) (hexDigits_length 5 _ hlt) c.valid h
    rw [Char.ofNat_toNat] at this
    simpa using this
  · exact .text h5 h4 h2 h

/-- What `{:?}` prints is a Rust literal of the string. -/
theorem debug_literal (U : Unicode) (s : Str) : RustLiteral (U.debug s) s := by
  refine ⟨s.flatMap U.debugChar, rfl, ?_⟩
  induction s with
  | nil => exact .nil
  | cons c s ih => exact debugChar_rust U c _ _ ih

theorem rustLiteral_unique {lit s s' : Str} (h : RustLiteral lit s) (h' : RustLiteral lit s') : s = s' := by
  obtain ⟨t, e, h⟩ := h
  obtain ⟨t', e', h'⟩ := h'
  rw [e] at e'
  simp only [List.cons_append, List.cons.injEq, true_and] at e'
  rw [List.append_cancel_right e'] at h
  exact rustQuoted_unique h h'

theorem debug_injective (U : Unicode) {a b : Str} (h : U.debug a = U.debug b) : a = b :=
  rustLiteral_unique (debug_literal U a) (h ▸ debug_literal U b)

end Octane
