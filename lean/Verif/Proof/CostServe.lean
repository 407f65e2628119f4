import Verif.Model.CostServe
import Verif.Proof.CostHeaders
import Verif.Proof.CostQuery
import Verif.Proof.Cookie
/-
Helper lemmas for C121: each part of serving a request takes steps in proportion to its text.
-/
namespace Octane
open Spec
open Query (findC splitC)

/-! ### the request line -/

theorem Path.parseLoopC_fst (chunks : PathBuf) (l : List Str) : (Path.parseLoopC chunks l).1 = Path.parseLoop chunks l := by
  induction l generalizing chunks with
  | nil => rfl
  | cons c l ih =>
    unfold Path.parseLoopC Path.parseLoop
    cases Path.parseStep chunks c with
    | none => rfl
    | some x => exact ih x

theorem Path.parseC_fst (p : Str) : (Path.parseC p).1 = Path.parse p := Path.parseLoopC_fst _ _

theorem Path.parseLoopC_le (chunks : PathBuf) (l : List Str) :
    (Path.parseLoopC chunks l).2 ≤ (l.map fun t => (utf8 t).length + 1).sum := by
  induction l generalizing chunks with
  | nil => exact Nat.le_refl _
  | cons c l ih =>
    have h : 1 + (if c = [] ∨ c = ['.'] ∨ c = ['.', '.'] then 0 else (utf8 c).length) ≤ (utf8 c).length + 1 := by
      split <;> omega
    unfold Path.parseLoopC
    simp only [List.map_cons, List.sum_cons]
    cases Path.parseStep chunks c with
    | none => simp only; omega
    | some x =>
      have := ih x
      simp only
      omega

theorem Path.parseC_le (p : Str) : (Path.parseC p).2 ≤ 2 * (utf8 p).length + 1 := by
  have h := Path.parseLoopC_le [] (splitChar '/' p)
  rw [Octane.sum_splitChar (by decide)] at h
  have := Query.length_le_utf8 p
  simp only [Path.parseC, splitC]
  omega

theorem Path.parseLoop_length (chunks : PathBuf) (l : List Str) (q : PathBuf) (h : Path.parseLoop chunks l = some q) :
    q.length ≤ chunks.length + (l.map fun t => (utf8 t).length).sum := by
  induction l generalizing chunks with
  | nil => simp only [Path.parseLoop, Option.some.injEq] at h; subst h; simp
  | cons c l ih =>
    unfold Path.parseLoop at h
    cases hs : Path.parseStep chunks c with
    | none => rw [hs] at h; cases h
    | some x =>
      rw [hs] at h
      have h1 := ih x h
      have h2 : x.length ≤ chunks.length + (utf8 c).length := by
        unfold Path.parseStep at hs
        split at hs
        · injection hs with hs; subst hs; omega
        · rename_i hc
          split at hs
          · split at hs
            · cases hs
            · injection hs with hs; subst hs; simp; omega
          · injection hs with hs; subst hs
            have : 0 < (utf8 c).length := by
              cases c with
              | nil => simp at hc
              | cons d c =>
                have := Query.length_le_utf8 (d :: c)
                simp only [List.length_cons] at this
                omega
            simp; omega
      simp only [List.map_cons, List.sum_cons]
      omega

theorem sum_succ {α : Type _} (f : α → Nat) (l : List α) :
    (l.map fun x => f x + 1).sum = (l.map f).sum + l.length := by
  induction l with
  | nil => rfl
  | cons a l ih => simp only [List.map_cons, List.sum_cons, List.length_cons, ih]; omega

theorem sum_scale {α : Type _} (k : Nat) (f : α → Nat) (l : List α) :
    (l.map fun x => k * f x).sum = k * (l.map f).sum := by
  induction l with
  | nil => rfl
  | cons a l ih => simp only [List.map_cons, List.sum_cons, ih, Nat.mul_add]

theorem splitChar_length_pos (c : Char) (s : Str) : 0 < (splitChar c s).length := by
  cases h : splitChar c s with
  | nil => exact absurd h (splitChar_ne_nil c s)
  | cons a l => simp

theorem Path.parse_length (p : Str) (q : PathBuf) (h : Path.parse p = some q) : q.length ≤ (utf8 p).length := by
  have h1 := Path.parseLoop_length [] (splitChar '/' p) q h
  have h2 := Octane.sum_splitChar (c := '/') (by decide) p
  rw [sum_succ] at h2
  have := splitChar_length_pos '/' p
  simp only [List.length_nil] at h1
  omega

theorem RequestLine.parseC_fst (faithful : Bool) (l : Str) : (RequestLine.parseC faithful l).1 = RequestLine.parse faithful l := by
  unfold RequestLine.parseC RequestLine.parse
  cases splitChar ' ' l with
  | nil => rfl
  | cons m r =>
    cases r with
    | nil => rfl
    | cons p r =>
      simp only [Path.parseC_fst]
      cases Path.parse p with
      | none => rfl
      | some q => cases r <;> rfl

theorem RequestLine.parseC_le (faithful : Bool) (l : Str) : (RequestLine.parseC faithful l).2 ≤ 3 * (utf8 l).length + 1 := by
  have h := Octane.sum_splitChar (c := ' ') (by decide) l
  have h0 := Query.length_le_utf8 l
  unfold RequestLine.parseC
  simp only [splitC]
  cases hs : splitChar ' ' l with
  | nil => simp only; omega
  | cons m r =>
    cases r with
    | nil => simp only; omega
    | cons p r =>
      rw [hs] at h
      have hp := Path.parseC_le p
      simp only [List.map_cons, List.sum_cons] at h
      simp only
      cases (Path.parseC p).1 with
      | none => simp only; omega
      | some q =>
        cases r with
        | nil => simp only; omega
        | cons v r =>
          simp only [List.map_cons, List.sum_cons] at h
          simp only
          omega

theorem RequestLine.parse_path (faithful : Bool) (l : Str) (rl : RequestLine) (h : RequestLine.parse faithful l = .ok (some rl)) :
    rl.path.length ≤ (utf8 l).length := by
  have hsum := Octane.sum_splitChar (c := ' ') (by decide) l
  revert h
  unfold RequestLine.parse
  cases hs : splitChar ' ' l with
  | nil => exact nofun
  | cons m r =>
    cases r with
    | nil => exact nofun
    | cons p r =>
      rw [hs] at hsum
      simp only [List.map_cons, List.sum_cons] at hsum
      simp only
      cases hp : Path.parse p with
      | none => exact nofun
      | some q =>
        have := Path.parse_length p q hp
        cases r with
        | nil => exact nofun
        | cons v r =>
          simp only
          cases splitAtByte 5 v with
          | panic => exact nofun
          | ok x =>
            simp only [Res.bind_ok']
            split
            · exact nofun
            · intro h
              simp only [Res.ok.injEq, Option.some.injEq] at h
              rw [← h]
              simp only
              omega

/-! ### headers -/

theorem splitN2_cases (c : Char) (s : Str) : splitN2 c s = [s] ∨ ∃ a b, s = a ++ c :: b ∧ splitN2 c s = [a, b] := by
  by_cases h : c ∈ s
  · obtain ⟨a, b, rfl, ha⟩ := split_first_mem h
    exact .inr ⟨a, b, rfl, splitN2_append ha b⟩
  · exact .inl (splitN2_not_mem h)

theorem Header.steps_le (faithful : Bool) (s : Str) : Header.steps faithful s ≤ 4 * (utf8 s).length := by
  have hf := Query.findC_le ':' s
  unfold Header.steps
  rcases splitN2_cases ':' s with h | ⟨a, b, rfl, h⟩
  · have := Query.length_le_utf8 s
    rw [h]
    simp only
    split <;> omega
  · have h1 := Query.length_le_utf8 a
    have h2 := Query.length_le_utf8 b
    rw [h]
    simp only [utf8_append, utf8_cons, List.length_append] at hf ⊢
    split <;> omega

theorem Header.parse_size {faithful : Bool} {s : Str} {h : Header} (hp : Header.parse faithful s = some h) :
    (utf8 h.name).length + (utf8 h.value).length ≤ (utf8 s).length := by
  revert hp
  unfold Header.parse
  rcases splitN2_cases ':' s with hs | ⟨a, b, rfl, hs⟩
  · rw [hs]
    simp only
    split
    · exact nofun
    · split <;> exact nofun
  · rw [hs]
    simp only
    split
    · exact nofun
    · split
      · exact nofun
      · split
        · exact nofun
        · intro h
          injection h with h
          rw [← h]
          have hb : utf8 b = utf8 (b.takeWhile fun c => c == ' ' || c == '\t') ++
              utf8 (b.dropWhile fun c => c == ' ' || c == '\t') := by
            rw [← utf8_append, List.takeWhile_append_dropWhile]
          simp only [utf8_append, utf8_cons, List.length_append, hb]
          omega

theorem Headers.stepsLoop_le (faithful : Bool) (lines : List Str) :
    Headers.stepsLoop faithful (lines.map utf8) ≤ 8 * (lines.map fun l => (utf8 l).length + 2).sum := by
  induction lines with
  | nil => exact Nat.le_refl _
  | cons l lines ih =>
    have h1 := Header.steps_le faithful l
    have e : Headers.stepsLoop faithful (utf8 l :: lines.map utf8) = 1 + 2 * (utf8 l).length + (Header.steps faithful l +
        match Header.parse faithful l with
        | none => 0
        | some h => 2 * (utf8 h.name).length + Headers.stepsLoop faithful (lines.map utf8)) := by
      rw [Headers.stepsLoop, fromUtf8_utf8]
      rfl
    rw [List.map_cons, List.map_cons, List.sum_cons, e]
    cases hp : Header.parse faithful l with
    | none =>
      simp only
      omega
    | some h =>
      have h2 := Header.parse_size hp
      simp only
      omega

theorem Headers.steps_le (faithful : Bool) (text : Str) : Headers.steps faithful text ≤ 8 * ((utf8 text).length + 2) := by
  obtain ⟨lines, h1, rfl, h3⟩ := exists_lines text
  unfold Headers.steps Spliterator.new
  rw [collect_lines lines h1 h3 _ (Nat.le_refl _)]
  have := Headers.stepsLoop_le faithful lines
  rw [utf8_intercalate_crlf lines h1] at this
  exact this

theorem Headers.written_le (faithful : Bool) (text : Str) :
    (Headers.parseC faithful text).2.written ≤ ((utf8 text).length + 2) * ((utf8 text).length + 2) := by
  obtain ⟨lines, hne, rfl, hl⟩ := exists_lines text
  obtain ⟨hs, tail, g1, -, g3⟩ := Headers.parseC_lines faithful lines hne hl
  have h1 := rewritten_le [] (hs.map hpair)
  have h2 := weight_lines faithful lines hs tail g1
  have h3 : hs.length ≤ lines.length := by
    have := congrArg List.length g1
    simp at this; omega
  have h4 : lines.length ≤ (lines.map fun l => (utf8 l).length + 2).sum := by
    clear g1 g3 h1 h2 h3 hl hne
    induction lines with
    | nil => exact Nat.le_refl _
    | cons l lines ih => simp only [List.map_cons, List.sum_cons, List.length_cons]; omega
  rw [utf8_intercalate_crlf lines hne] at h2 h4
  rw [g3]
  refine Nat.le_trans h1 ?_
  rw [List.length_map, List.nil_append]
  exact Nat.mul_le_mul (by omega) h2

theorem size_asciiLower (s : Str) : (utf8 (asciiLower s)).length = (utf8 s).length := by
  have hc : ∀ c : Char, (String.utf8EncodeChar (asciiLowerC c)).length = (String.utf8EncodeChar c).length := by
    intro c
    unfold asciiLowerC
    split
    · rename_i h
      have key : ∀ n : Fin 128, (String.utf8EncodeChar (Char.ofNat n.val)).length = 1 := by decide +kernel
      have h1 : 'A'.toNat = 65 := rfl
      have h2 : 'Z'.toNat = 90 := rfl
      have k1 := key ⟨c.toNat + 32, by omega⟩
      have k2 := key ⟨c.toNat, by omega⟩
      simp only [Char.ofNat_toNat] at k2
      rw [k2]; exact k1
    · rfl
  unfold asciiLower
  induction s with
  | nil => rfl
  | cons c s ih => simp only [List.map_cons, utf8_cons, List.length_append, hc, ih]

theorem Headers.size_add (acc : Headers) (h : Header) :
    Headers.size { parsed := Headers.addParsed acc.parsed h, raw := acc.raw ++ [h] } ≤
      acc.size + 2 * ((utf8 h.name).length + (utf8 h.value).length) + 2 := by
  have hn := size_asciiLower h.name
  unfold Headers.size
  simp only [List.map_append, List.sum_append, List.map_cons, List.map_nil, List.sum_cons, List.sum_nil]
  have key : ((Headers.addParsed acc.parsed h).map fun e => (utf8 e.1).length + (utf8 e.2).length).sum ≤
      (acc.parsed.map fun e => (utf8 e.1).length + (utf8 e.2).length).sum +
        ((utf8 h.name).length + (utf8 h.value).length) + 2 := by
    unfold Headers.addParsed
    simp only
    cases hg : HMap.get acc.parsed (asciiLower h.name) with
    | none =>
      have := Octane.sum_insert_le (fun e : Str × Str => (utf8 e.1).length + (utf8 e.2).length) acc.parsed
        (asciiLower h.name) h.value
      simp only at this ⊢
      omega
    | some v =>
      have := Octane.sum_insert_get (fun e : Str × Str => (utf8 e.1).length + (utf8 e.2).length) acc.parsed
        (asciiLower h.name) (v ++ c!", " ++ h.value) v hg
      simp only [utf8_append, List.length_append] at this ⊢
      have h2 : (utf8 c!", ").length = 2 := by decide +kernel
      omega
  omega

theorem Headers.parseLoop_size (faithful : Bool) (lines : List Str) (acc H : Headers)
    (h : Headers.parseLoop faithful (lines.map utf8) acc = some H) :
    H.size ≤ acc.size + 2 * (lines.map fun l => (utf8 l).length + 2).sum := by
  induction lines generalizing acc with
  | nil =>
    simp only [List.map_nil, Headers.parseLoop, Option.some.injEq] at h
    subst h
    simp
  | cons l lines ih =>
    simp only [List.map_cons, Headers.parseLoop, fromUtf8_utf8] at h
    cases hp : Header.parse faithful l with
    | none => rw [hp] at h; cases h
    | some x =>
      rw [hp] at h
      have h1 := ih _ h
      have h2 := Headers.size_add acc x
      have h3 := Header.parse_size hp
      simp only [List.map_cons, List.sum_cons]
      omega

theorem Headers.parse_size (faithful : Bool) (text : Str) (H : Headers) (h : Headers.parse faithful text = .ok (some H)) :
    H.size ≤ 2 * ((utf8 text).length + 2) := by
  obtain ⟨lines, h1, rfl, h3⟩ := exists_lines text
  rw [Headers.parse_lines faithful lines h1 h3, Res.ok.injEq] at h
  have := Headers.parseLoop_size faithful lines _ H h
  rw [utf8_intercalate_crlf lines h1] at this
  simpa [Headers.size] using this

theorem Headers.get_size (H : Headers) (k : Str) : ((H.get k).getD []).length ≤ H.size := by
  cases h : H.get k with
  | none => simp
  | some v =>
    have key : ∀ m : HMap Str Str, HMap.get m k = some v →
        (utf8 v).length ≤ (m.map fun e => (utf8 e.1).length + (utf8 e.2).length).sum := by
      intro m
      induction m with
      | nil => exact nofun
      | cons e m ih =>
        obtain ⟨k', v'⟩ := e
        intro hg
        simp only [HMap.get] at hg
        simp only [List.map_cons, List.sum_cons]
        split at hg
        · injection hg with hg
          rw [hg]
          omega
        · have := ih hg
          omega
    have h1 := key H.parsed h
    have h2 := Query.length_le_utf8 v
    unfold Headers.size
    simp only [Option.getD_some]
    omega

/-! ### cookies and `Keep-Alive` -/

theorem splitStrAux_sum (pat : Str) (n : Nat) (s : Str) :
    ((splitStrAux pat n s).map fun t => t.length + 1).sum ≤ s.length + 1 := by
  fun_induction splitStrAux pat n s with
  | case1 => simp
  | case2 n c s ih => simp only [List.length_cons]; omega
  | case3 d s h ih =>
    simp only [List.map_cons, List.sum_cons, List.length_nil, List.length_cons]
    omega
  | case4 d s h h' ih => simp
  | case5 d s h p ps h' ih =>
    rw [h'] at ih
    simp only [List.map_cons, List.sum_cons, List.length_cons] at ih ⊢
    omega

theorem Cookie.stepsLoop_le (toks : List Str) :
    Cookie.stepsLoop toks ≤ 3 * (toks.map fun t => t.length + 1).sum := by
  induction toks with
  | nil => exact Nat.le_refl _
  | cons t toks ih =>
    simp only [List.map_cons, List.sum_cons, Cookie.stepsLoop]
    cases cookieRsParse t with
    | none => simp only; omega
    | some x => simp only; omega

theorem Cookie.steps_le (v : Str) : Cookie.steps v ≤ 4 * v.length + 3 := by
  have h1 := Cookie.stepsLoop_le (splitStr c!"; " v)
  have h2 := splitStrAux_sum c!"; " 0 v
  unfold Cookie.steps splitC
  unfold splitStr at h1 ⊢
  omega

theorem length_trim_le (s : Str) : (trim s).length ≤ s.length := by
  unfold trim
  have h1 := (List.dropWhile_sublist isWhitespace (l := s)).length_le
  have h2 := (List.dropWhile_sublist isWhitespace (l := (s.dropWhile isWhitespace).reverse)).length_le
  rw [List.length_reverse] at *
  omega

theorem splitChar_sum (c : Char) (s : Str) : ((splitChar c s).map fun t => t.length + 1).sum = s.length + 1 := by
  induction s with
  | nil => simp
  | cons d s ih =>
    by_cases h : d = c
    · subst h
      rw [splitChar_cons_eq]
      simp only [List.map_cons, List.sum_cons, ih, List.length_nil, List.length_cons]
      omega
    · obtain ⟨p, ps, h1, h2⟩ := splitChar_cons_ne s h
      rw [h1] at ih
      rw [h2]
      simp only [List.map_cons, List.sum_cons, List.length_cons] at ih ⊢
      omega

theorem KeepAlive.stepsLoop_le (toks : List Str) :
    KeepAlive.stepsLoop toks ≤ 2 * (toks.map fun t => t.length + 1).sum := by
  induction toks with
  | nil => exact Nat.le_refl _
  | cons t toks ih =>
    have := length_trim_le t
    simp only [List.map_cons, List.sum_cons, KeepAlive.stepsLoop]
    omega

theorem KeepAlive.steps_le (v : Str) : KeepAlive.steps v ≤ 3 * v.length + 2 := by
  have h1 := KeepAlive.stepsLoop_le (splitChar ',' v)
  rw [splitChar_sum] at h1
  unfold KeepAlive.steps splitC
  omega

end Octane
