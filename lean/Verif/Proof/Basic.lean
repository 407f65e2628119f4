import Verif.Model.Basic
/-
Lemmas about the models of standard-library operations.
-/
namespace Octane

/-! ### `splitChar` -/

theorem splitChar_ne_nil (c : Char) (s : Str) : splitChar c s ≠ [] := by
  induction s with
  | nil => simp [splitChar]
  | cons d s ih =>
    unfold splitChar
    split
    · simp
    · split <;> simp

theorem splitChar_cons_ne {c d : Char} (s : Str) (h : d ≠ c) :
    ∃ p ps, splitChar c s = p :: ps ∧ splitChar c (d :: s) = (d :: p) :: ps := by
  cases hs : splitChar c s with
  | nil => exact absurd hs (splitChar_ne_nil c s)
  | cons p ps => exact ⟨p, ps, rfl, by simp [splitChar, h, hs]⟩

@[simp] theorem splitChar_cons_eq (c : Char) (s : Str) : splitChar c (c :: s) = [] :: splitChar c s := by
  simp [splitChar]

@[simp] theorem splitChar_nil (c : Char) : splitChar c [] = [[]] := rfl

theorem splitChar_not_mem (c : Char) (s : Str) : ∀ p ∈ splitChar c s, c ∉ p := by
  induction s with
  | nil => simp [splitChar]
  | cons d s ih =>
    by_cases h : d = c
    · subst h; simpa using ih
    · obtain ⟨p, ps, h1, h2⟩ := splitChar_cons_ne s h
      rw [h2]; rw [h1] at ih
      intro q hq
      rcases List.mem_cons.1 hq with rfl | hq
      · simp only [List.mem_cons, not_or]
        exact ⟨fun h' => h h'.symm, ih _ List.mem_cons_self⟩
      · exact ih _ (List.mem_cons_of_mem _ hq)

theorem splitChar_intercalate (c : Char) (s : Str) : [c].intercalate (splitChar c s) = s := by
  induction s with
  | nil => simp [splitChar, List.intercalate]
  | cons d s ih =>
    by_cases h : d = c
    · subst h
      cases hs : splitChar d s with
      | nil => exact absurd hs (splitChar_ne_nil d s)
      | cons p ps =>
        rw [splitChar_cons_eq, hs]; rw [hs] at ih
        simp only [List.intercalate, List.intersperse_cons_cons, List.flatten_cons, List.nil_append,
          List.singleton_append] at ih ⊢
        rw [ih]
    · obtain ⟨p, ps, h1, h2⟩ := splitChar_cons_ne s h
      rw [h2]; rw [h1] at ih
      cases ps with
      | nil => simpa [List.intercalate] using ih
      | cons q qs => simpa [List.intercalate] using ih

theorem splitChar_append_of_not_mem {c : Char} {p : Str} (h : c ∉ p) (s : Str) :
    splitChar c (p ++ c :: s) = p :: splitChar c s := by
  induction p with
  | nil => simp
  | cons d p ih =>
    simp only [List.mem_cons, not_or] at h
    obtain ⟨h1, h2⟩ := h
    have := ih h2
    simp [splitChar, Ne.symm h1, this]

theorem splitChar_of_not_mem {c : Char} {p : Str} (h : c ∉ p) : splitChar c p = [p] := by
  induction p with
  | nil => simp
  | cons d p ih =>
    simp only [List.mem_cons, not_or] at h
    simp [splitChar, Ne.symm h.1, ih h.2]

theorem splitChar_append_sep (c : Char) (a b : Str) :
    splitChar c (a ++ c :: b) = splitChar c a ++ splitChar c b := by
  induction a with
  | nil => simp
  | cons d a ih =>
    by_cases h : d = c
    · subst h; simp [ih]
    · obtain ⟨p, ps, h1, h2⟩ := splitChar_cons_ne a h
      rw [h2]
      simp only [List.cons_append, splitChar, h, if_false, ih, h1]

/-- Splitting is the inverse of joining pieces that do not contain the separator. -/
theorem splitChar_join {c : Char} {ps : List Str} (hne : ps ≠ []) (h : ∀ p ∈ ps, c ∉ p) :
    splitChar c ([c].intercalate ps) = ps := by
  induction ps with
  | nil => exact absurd rfl hne
  | cons p ps ih =>
    cases ps with
    | nil => simpa [List.intercalate] using splitChar_of_not_mem (h p (by simp))
    | cons q qs =>
      have h1 := ih (by simp) (fun x hx => h x (List.mem_cons_of_mem _ hx))
      have h2 : [c].intercalate (p :: q :: qs) = p ++ c :: [c].intercalate (q :: qs) := by
        simp [List.intercalate]
      rw [h2, splitChar_append_of_not_mem (h p (by simp)), h1]

/-! ### `HMap` -/

namespace HMap
variable {K : Type u} {V : Type v} [DecidableEq K]

@[simp] theorem get_nil (k : K) : get ([] : HMap K V) k = none := rfl

theorem get_insert (m : HMap K V) (k k' : K) (v : V) :
    get (insert m k v) k' = if k = k' then some v else get m k' := by
  induction m with
  | nil => simp [insert, get]
  | cons e m ih =>
    obtain ⟨k0, v0⟩ := e
    unfold insert
    by_cases h : k0 = k
    · subst h
      by_cases h' : k0 = k' <;> simp [get, h']
    · simp only [h, if_false]
      unfold get
      by_cases h' : k0 = k'
      · subst h'; simp [Ne.symm h]
      · simp [h', ih]

@[simp] theorem get_insert_self (m : HMap K V) (k : K) (v : V) : get (insert m k v) k = some v := by
  simp [get_insert]

theorem get_insert_ne (m : HMap K V) {k k' : K} (v : V) (h : k ≠ k') :
    get (insert m k v) k' = get m k' := by
  simp [get_insert, h]

theorem mem_keys_insert (m : HMap K V) (k k' : K) (v : V) :
    k' ∈ (insert m k v).map (·.1) ↔ k' = k ∨ k' ∈ m.map (·.1) := by
  induction m with
  | nil => simp [insert]
  | cons e m ih =>
    obtain ⟨k0, v0⟩ := e
    unfold insert
    by_cases h : k0 = k
    · subst h; simp
    · simp only [h, if_false, List.map_cons, List.mem_cons, ih]
      constructor
      · rintro (h | h | h) <;> simp [h]
      · rintro (h | h | h) <;> simp [h]

omit [DecidableEq K] in
theorem Uniq.nil : Uniq ([] : HMap K V) := by simp [Uniq]

theorem Uniq.insert {m : HMap K V} (hm : Uniq m) (k : K) (v : V) : Uniq (insert m k v) := by
  induction m with
  | nil => simp [HMap.insert, Uniq]
  | cons e m ih =>
    obtain ⟨k0, v0⟩ := e
    unfold HMap.insert
    simp only [Uniq, List.map_cons, List.nodup_cons] at hm
    by_cases h : k0 = k
    · subst h; simpa [Uniq] using hm
    · rw [if_neg h, Uniq, List.map_cons, List.nodup_cons, mem_keys_insert]
      exact ⟨fun h' => h'.elim h hm.1, ih hm.2⟩

theorem mem_of_get {m : HMap K V} {k : K} {v : V} (h : get m k = some v) : (k, v) ∈ m := by
  induction m with
  | nil => simp at h
  | cons e m ih =>
    obtain ⟨k0, v0⟩ := e
    unfold get at h
    split at h
    · simp_all
    · exact List.mem_cons_of_mem _ (ih h)

theorem get_of_mem {m : HMap K V} (hm : Uniq m) {k : K} {v : V} (h : (k, v) ∈ m) :
    get m k = some v := by
  induction m with
  | nil => simp at h
  | cons e m ih =>
    obtain ⟨k0, v0⟩ := e
    simp only [Uniq, List.map_cons, List.nodup_cons] at hm
    rcases List.mem_cons.1 h with h | h
    · cases h; simp [get]
    · have : k0 ≠ k := by
        rintro rfl
        exact hm.1 (List.mem_map.2 ⟨_, h, rfl⟩)
      simp [get, this, ih hm.2 h]

theorem get_eq_some_iff {m : HMap K V} (hm : Uniq m) {k : K} {v : V} :
    get m k = some v ↔ (k, v) ∈ m := ⟨mem_of_get, get_of_mem hm⟩

theorem get_eq_none_iff {m : HMap K V} {k : K} : get m k = none ↔ k ∉ m.map (·.1) := by
  induction m with
  | nil => simp
  | cons e m ih =>
    obtain ⟨k0, v0⟩ := e
    unfold get
    by_cases h : k0 = k
    · simp [h]
    · simp only [h, if_false, ih, List.map_cons, List.mem_cons, not_or]
      exact ⟨fun h' => ⟨Ne.symm h, h'⟩, fun h' => h'.2⟩

theorem get_remove {m : HMap K V} (hm : Uniq m) (k k' : K) :
    get (remove m k) k' = if k = k' then none else get m k' := by
  induction m with
  | nil => simp [remove]
  | cons e m ih =>
    obtain ⟨a, v⟩ := e
    have hm' : Uniq m ∧ a ∉ m.map (·.1) := by
      simp only [Uniq, List.map_cons, List.nodup_cons] at hm ⊢; exact ⟨hm.2, hm.1⟩
    by_cases h : a = k
    · subst h
      simp only [remove, if_true]
      by_cases h2 : a = k'
      · subst h2; rw [if_pos rfl]; exact get_eq_none_iff.2 hm'.2
      · simp [get, h2]
    · simp only [remove, if_neg h, get]
      rw [ih hm'.1]
      by_cases h2 : a = k'
      · subst h2
        rw [if_pos rfl, if_pos rfl, if_neg (fun h3 => h h3.symm)]
      · simp [h2]

theorem mem_keys_remove {m : HMap K V} {k a : K} (h : a ∈ (remove m k).map (·.1)) :
    a ∈ m.map (·.1) := by
  induction m with
  | nil => exact h
  | cons e m ih =>
    obtain ⟨b, v⟩ := e
    by_cases hb : b = k
    · simp only [remove, if_pos hb] at h
      simp only [List.map_cons, List.mem_cons]; exact Or.inr h
    · simp only [remove, if_neg hb, List.map_cons, List.mem_cons] at h ⊢
      exact h.imp id ih

theorem Uniq.remove {m : HMap K V} (hm : Uniq m) (k : K) : Uniq (remove m k) := by
  induction m with
  | nil => exact hm
  | cons e m ih =>
    obtain ⟨b, v⟩ := e
    simp only [Uniq, List.map_cons, List.nodup_cons] at hm
    by_cases hb : b = k
    · simp only [HMap.remove, if_pos hb]; exact hm.2
    · simp only [HMap.remove, if_neg hb, Uniq, List.map_cons, List.nodup_cons]
      exact ⟨fun h => hm.1 (mem_keys_remove h), ih hm.2⟩

omit [DecidableEq K] in
theorem Uniq.perm {m m' : HMap K V} (hm : Uniq m) (h : m'.Perm m) : Uniq m' :=
  (h.map Prod.fst).nodup_iff.2 hm

theorem get_perm {m m' : HMap K V} (hm : Uniq m) (h : m'.Perm m) (k : K) : get m' k = get m k := by
  cases hg : get m k with
  | none =>
    rw [get_eq_none_iff] at hg ⊢
    exact fun h' => hg ((h.map (·.1)).mem_iff.1 h')
  | some v =>
    rw [get_eq_some_iff hm] at hg
    rw [get_eq_some_iff (hm.perm h)]
    exact h.mem_iff.2 hg

/-- Inserting under an existing key splits the list at that entry. -/
theorem insert_eq_of_get {m : HMap K V} {k : K} {v : V} (h : get m k = some v) (w : V) :
    ∃ a b, m = a ++ (k, v) :: b ∧ insert m k w = a ++ (k, w) :: b ∧ k ∉ a.map (·.1) := by
  induction m with
  | nil => simp at h
  | cons e m ih =>
    obtain ⟨k0, v0⟩ := e
    by_cases hk : k0 = k
    · subst hk
      simp [get] at h; subst h
      exact ⟨[], m, by simp, by simp [insert], by simp⟩
    · simp only [get, hk, if_false] at h
      obtain ⟨a, b, h1, h2, h3⟩ := ih h
      refine ⟨(k0, v0) :: a, b, by simp [h1], by simp [insert, hk, h2], ?_⟩
      simp only [List.map_cons, List.mem_cons, not_or]
      exact ⟨Ne.symm hk, h3⟩

theorem insert_eq_of_get_none {m : HMap K V} {k : K} (h : get m k = none) (w : V) :
    insert m k w = m ++ [(k, w)] := by
  induction m with
  | nil => simp [insert]
  | cons e m ih =>
    obtain ⟨k0, v0⟩ := e
    by_cases hk : k0 = k
    · subst hk; simp [get] at h
    · simp only [get, hk, if_false] at h
      simp [insert, hk, ih h]

end HMap

/-! ### UTF-8 -/

@[simp] theorem utf8_nil : utf8 [] = [] := rfl
@[simp] theorem utf8_cons (c : Char) (s : Str) : utf8 (c :: s) = String.utf8EncodeChar c ++ utf8 s := rfl
theorem utf8_append (s t : Str) : utf8 (s ++ t) = utf8 s ++ utf8 t := by
  simp [utf8]

theorem utf8_eq_data (s : Str) : (utf8 s).toByteArray = List.utf8Encode s := rfl

theorem fromUtf8_utf8 (s : Str) : fromUtf8 (utf8 s) = some s := by
  simp [fromUtf8, utf8_eq_data]

theorem utf8_of_fromUtf8 {b : Bytes} {s : Str} (h : fromUtf8 b = some s) : utf8 s = b := by
  unfold fromUtf8 at h
  rw [Option.map_eq_some_iff] at h
  obtain ⟨a, ha, rfl⟩ := h
  have h1 : b.toByteArray.utf8Decode?.isSome := by simp [ha]
  have h2 := ByteArray.utf8Encode_get_utf8Decode? (b := b.toByteArray) (h := h1)
  simp only [ha, Option.get_some] at h2
  rw [← utf8_eq_data] at h2
  have h3 := congrArg (fun x => x.data.toList) h2
  simpa using h3

theorem utf8_injective {s t : Str} (h : utf8 s = utf8 t) : s = t := by
  have := congrArg fromUtf8 h
  simpa [fromUtf8_utf8] using this

/-- the bytes of a character below 128: itself; otherwise every byte is at least 128 -/
theorem utf8EncodeChar_ascii {c : Char} (h : c.toNat < 128) :
    String.utf8EncodeChar c = [UInt8.ofNat c.toNat] := by
  have : c.val.toNat ≤ 127 := Nat.le_of_lt_succ h
  unfold String.utf8EncodeChar
  simp only [this, if_true]
  rfl

theorem utf8EncodeChar_ge {c : Char} (h : 128 ≤ c.toNat) :
    ∀ b ∈ String.utf8EncodeChar c, 128 ≤ b.toNat := by
  have h0 : ¬ c.val.toNat ≤ 127 := by
    have : 128 ≤ c.val.toNat := h
    omega
  unfold String.utf8EncodeChar
  simp only [h0, if_false]
  split
  · simp [UInt8.toNat_ofNat']; omega
  · split
    · simp [UInt8.toNat_ofNat']; omega
    · simp [UInt8.toNat_ofNat']; omega

theorem utf8EncodeChar_length_ge {c : Char} (h : 128 ≤ c.toNat) :
    2 ≤ (String.utf8EncodeChar c).length := by
  have h0 : ¬ c.val.toNat ≤ 127 := by
    have : 128 ≤ c.val.toNat := h
    omega
  unfold String.utf8EncodeChar
  simp only [h0, if_false]
  split
  · simp
  · split <;> simp

theorem length_le_utf8 (s : Str) : s.length ≤ (utf8 s).length := by
  induction s with
  | nil => simp
  | cons d s ih =>
    have : utf8 (d :: s) = String.utf8EncodeChar d ++ utf8 s := rfl
    rw [this]
    have := Char.utf8Size_pos d
    simp only [List.length_cons, List.length_append, String.length_utf8EncodeChar]
    omega

theorem utf8EncodeChar_ne_nil (c : Char) : String.utf8EncodeChar c ≠ [] := by
  unfold String.utf8EncodeChar
  simp only
  split
  · simp
  · split
    · simp
    · split <;> simp

theorem firstByte_cons (c : Char) (s : Str) :
    ∃ b, firstByte (c :: s) = .ok b ∧ (b = 58 ↔ c = ':') := by
  by_cases h : c.toNat < 128
  · refine ⟨UInt8.ofNat c.toNat, by simp [firstByte, utf8EncodeChar_ascii h], ?_⟩
    constructor
    · intro hb
      have := congrArg UInt8.toNat hb
      simp [UInt8.toNat_ofNat'] at this
      have h2 : c.toNat = 58 := by omega
      exact Char.toNat_inj.1 h2
    · rintro rfl; rfl
  · have h128 : 128 ≤ c.toNat := by omega
    cases hb : String.utf8EncodeChar c with
    | nil => exact absurd hb (utf8EncodeChar_ne_nil c)
    | cons b bs =>
      refine ⟨b, by simp [firstByte, hb], ?_⟩
      have := utf8EncodeChar_ge h128 b (by simp [hb])
      constructor
      · rintro rfl; simp at this
      · rintro rfl; simp at h

/-! ### byte offsets -/

theorem utf8Size_ascii {c : Char} (h : c.toNat < 128) : c.utf8Size = 1 := by
  have h' : c.val ≤ 127 := by
    rw [UInt32.le_iff_toNat_le]
    have : c.val.toNat < 128 := h
    simp only [UInt32.reduceToNat]; omega
  simp [Char.utf8Size, h']

theorem length_utf8 (s : Str) : (utf8 s).length = (s.map Char.utf8Size).sum := by
  induction s with
  | nil => rfl
  | cons c s ih => simp [ih, String.length_utf8EncodeChar]

theorem splitAtByte_zero (s : Str) : splitAtByte 0 s = .ok ([], s) := by
  cases s <;> rfl

theorem splitAtByte_append (a b : Str) : splitAtByte (utf8 a).length (a ++ b) = .ok (a, b) := by
  induction a with
  | nil => simp [splitAtByte_zero]
  | cons c a ih =>
    have hpos := c.utf8Size_pos
    have hlen : (utf8 (c :: a)).length = c.utf8Size + (utf8 a).length := by
      simp [String.length_utf8EncodeChar]
    cases hn : (utf8 (c :: a)).length with
    | zero => omega
    | succ n =>
      have hle : c.utf8Size ≤ n + 1 := by omega
      have hsub : n + 1 - c.utf8Size = (utf8 a).length := by omega
      simp [splitAtByte, hle, hsub, ih]

theorem splitAtByte_ok {n : Nat} {s a b : Str} (h : splitAtByte n s = .ok (a, b)) :
    s = a ++ b ∧ (utf8 a).length = n := by
  induction s generalizing n a b with
  | nil =>
    cases n with
    | zero => simp [splitAtByte] at h; simp [h]
    | succ n => simp [splitAtByte] at h
  | cons c s ih =>
    cases n with
    | zero => simp [splitAtByte] at h; simp [h]
    | succ n =>
      unfold splitAtByte at h
      split at h
      · rename_i hle
        cases hr : splitAtByte (n + 1 - c.utf8Size) s with
        | panic => simp [hr] at h
        | ok r =>
          obtain ⟨r1, r2⟩ := r
          simp [hr] at h
          obtain ⟨h1, h2⟩ := ih hr
          rw [← h.1, ← h.2]
          simp [h1, String.length_utf8EncodeChar, h2]; omega
      · simp at h

theorem sliceFrom_cons_ascii {c : Char} (h : c.toNat < 128) (s : Str) :
    sliceFrom 1 (c :: s) = .ok s := by
  have := splitAtByte_append [c] s
  simp [utf8EncodeChar_ascii h] at this
  simp [sliceFrom, this]

theorem findChar_none {c : Char} {s : Str} : findChar c s = none ↔ c ∉ s := by
  induction s with
  | nil => simp [findChar]
  | cons d s ih =>
    unfold findChar
    by_cases h : d = c
    · simp [h]
    · simp [h, ih, Ne.symm h]

/-- `find` + `split_at`: the part before the first occurrence and the rest starting with it. -/
theorem findChar_some {c : Char} {s : Str} {n : Nat} (h : findChar c s = some n) :
    ∃ a b, s = a ++ c :: b ∧ c ∉ a ∧ splitAtByte n s = .ok (a, c :: b) := by
  have key : ∃ a b, s = a ++ c :: b ∧ c ∉ a ∧ n = (utf8 a).length := by
    induction s generalizing n with
    | nil => simp [findChar] at h
    | cons d s ih =>
      unfold findChar at h
      by_cases hd : d = c
      · subst hd
        simp at h
        exact ⟨[], s, by simp, by simp, by simp [← h]⟩
      · simp only [hd, if_false, Option.map_eq_some_iff] at h
        obtain ⟨m, hm, rfl⟩ := h
        obtain ⟨a, b, h1, h2, h3⟩ := ih hm
        refine ⟨d :: a, b, by simp [h1], ?_, ?_⟩
        · simp only [List.mem_cons, not_or]; exact ⟨Ne.symm hd, h2⟩
        · simp [h3, String.length_utf8EncodeChar]; omega
  obtain ⟨a, b, h1, h2, h3⟩ := key
  refine ⟨a, b, h1, h2, ?_⟩
  rw [h3, h1, splitAtByte_append]

theorem findChar_append {c : Char} {a : Str} (h : c ∉ a) (b : Str) :
    findChar c (a ++ c :: b) = some (utf8 a).length := by
  induction a with
  | nil => simp [findChar]
  | cons d a ih =>
    simp only [List.mem_cons, not_or] at h
    simp [findChar, Ne.symm h.1, ih h.2, String.length_utf8EncodeChar]; omega

end Octane
