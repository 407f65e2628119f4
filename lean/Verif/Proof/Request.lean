import Verif.Model.Request
import Verif.Proof.Http1x
import Verif.Proof.Path
import Verif.Proof.Query
import Verif.Proof.Text
namespace Octane
open Spec

/-! ### `splitn(2, c)` -/

theorem splitN2_append {c : Char} {a : Str} (h : c ∉ a) (b : Str) :
    splitN2 c (a ++ c :: b) = [a, b] := by
  induction a with
  | nil => simp [splitN2]
  | cons d a ih =>
    simp only [List.mem_cons, not_or] at h
    simp [splitN2, Ne.symm h.1, ih h.2]

theorem splitN2_not_mem {c : Char} {s : Str} (h : c ∉ s) : splitN2 c s = [s] := by
  induction s with
  | nil => simp [splitN2]
  | cons d s ih =>
    simp only [List.mem_cons, not_or] at h
    simp [splitN2, Ne.symm h.1, ih h.2]

theorem split_first_mem {c : Char} {s : Str} (h : c ∈ s) : ∃ a b, s = a ++ c :: b ∧ c ∉ a := by
  cases hf : findChar c s with
  | none => exact absurd h (findChar_none.1 hf)
  | some n =>
    obtain ⟨a, b, h1, h2, -⟩ := findChar_some hf
    exact ⟨a, b, h1, h2⟩

/-! ### header lines -/

theorem tokenChars_iff (c : Char) : tokenChars.contains c = true ↔ isTchar c := by
  have key : ∀ n : Fin 128, (tokenChars.contains (Char.ofNat n.val) = true ↔ isTchar (Char.ofNat n.val)) := by
    decide +kernel
  by_cases h : c.toNat < 128
  · have := key ⟨c.toNat, h⟩
    simpa [Char.ofNat_toNat] using this
  · constructor
    · intro hc
      have : ∀ d ∈ tokenChars, d.toNat < 128 := by decide +kernel
      exact absurd (this c (by simpa using hc)) h
    · rintro (⟨_, h2⟩ | ⟨_, h2⟩ | ⟨_, h2⟩ | h2)
      · rw [Char.le_def, UInt32.le_iff_toNat_le] at h2
        have : c.toNat = c.val.toNat := rfl
        simp at h2; omega
      · rw [Char.le_def, UInt32.le_iff_toNat_le] at h2
        have : c.toNat = c.val.toNat := rfl
        simp at h2; omega
      · rw [Char.le_def, UInt32.le_iff_toNat_le] at h2
        have : c.toNat = c.val.toNat := rfl
        simp at h2; omega
      · have : ∀ d ∈ ['!', '#', '$', '%', '&', '\'', '*', '+', '-', '.', '^', '_', '`', '|', '~'],
            d.toNat < 128 := by decide +kernel
        exact absurd (this c h2) h

theorem isCtl_iff (c : Char) : Path.isCtl c = true ↔ isRefusedControl c := by
  unfold Path.isCtl isRefusedControl isControl
  simp
  omega

theorem dropWhile_split (p : Char → Bool) (s : Str) :
    ∃ ws, s = ws ++ s.dropWhile p ∧ (∀ c ∈ ws, p c = true) ∧
      ∀ c, (s.dropWhile p).head? = some c → p c = false := by
  induction s with
  | nil => exact ⟨[], by simp⟩
  | cons d s ih =>
    by_cases h : p d = true
    · obtain ⟨ws, h1, h2, h3⟩ := ih
      refine ⟨d :: ws, ?_, ?_, ?_⟩
      · rw [List.dropWhile_cons_of_pos h, List.cons_append, ← h1]
      · simpa [h] using h2
      · rw [List.dropWhile_cons_of_pos h]; exact h3
    · rw [List.dropWhile_cons_of_neg h]
      exact ⟨[], by simp, by simp, by simpa using h⟩

theorem dropWhile_unique {p : Char → Bool} {ws v : Str} (h1 : ∀ c ∈ ws, p c = true)
    (h2 : ∀ c, v.head? = some c → p c = false) : (ws ++ v).dropWhile p = v := by
  induction ws with
  | nil =>
    cases v with
    | nil => rfl
    | cons c v => simp [h2 c rfl]
  | cons d ws ih =>
    simp only [List.mem_cons, forall_eq_or_imp] at h1
    rw [List.cons_append, List.dropWhile_cons_of_pos h1.1, ih h1.2]

theorem Header.parse_iff (faithful : Bool) (line : Str) (h : Header) :
    Header.parse faithful line = some h ↔ HeaderLine faithful line h.name h.value := by
  constructor
  · intro hp
    unfold Header.parse at hp
    by_cases hc : ':' ∈ line
    · obtain ⟨a, b, rfl, ha⟩ := split_first_mem hc
      rw [splitN2_append ha] at hp
      simp only at hp
      split at hp
      · exact absurd hp (by simp)
      · rename_i hne
        split at hp
        · exact absurd hp (by simp)
        · rename_i htok
          split at hp
          · exact absurd hp (by simp)
          · rename_i hctl
            obtain ⟨ws, e1, e2, e3⟩ := dropWhile_split (fun c => c == ' ' || c == '\t') b
            simp only [Option.some.injEq] at hp
            subst hp
            refine ⟨ws, ?_, hne, ha, ?_, ?_, ?_⟩
            · simp only [List.append_assoc, List.cons_append]
              rw [← e1]
            · intro c hcm
              have := e2 c hcm
              simpa [isBlank] using this
            · intro c hcm
              have := e3 c hcm
              simpa [isBlank] using this
            · intro hf
              subst hf
              constructor
              · intro c hcm
                rw [← tokenChars_iff]
                simp at htok
                simpa using htok c hcm
              · intro c hcm hr
                rw [← isCtl_iff] at hr
                apply hctl
                simp only [Bool.true_and, List.any_eq_true]
                exact ⟨c, hcm, hr⟩
    · rw [splitN2_not_mem hc] at hp
      simp only at hp
      repeat' split at hp
      all_goals simp at hp
  · rintro ⟨ws, rfl, hne, ha, hws, hv, hf⟩
    unfold Header.parse
    rw [List.append_assoc, List.cons_append, splitN2_append ha]
    simp only [hne, if_false]
    have hd : (ws ++ h.value).dropWhile (fun c => c == ' ' || c == '\t') = h.value := by
      apply dropWhile_unique
      · intro c hcm
        have := hws c hcm
        simpa [isBlank] using this
      · intro c hcm
        have := hv c hcm
        simpa [isBlank] using this
    rw [hd]
    cases faithful with
    | false => simp
    | true =>
      obtain ⟨h1, h2⟩ := hf rfl
      have e1 : h.name.all (fun c => tokenChars.contains c) = true := by
        rw [List.all_eq_true]; intro c hcm; rw [tokenChars_iff]; exact h1 c hcm
      have e2 : h.value.any Path.isCtl = false := by
        rw [List.any_eq_false]; intro c hcm hr; exact h2 c hcm ((isCtl_iff c).1 hr)
      simp only [e1, e2]
      simp

/-! ### splitting text at CRLF through its bytes -/

theorem utf8_split_ascii {s : Str} {a b : Bytes} {x : UInt8} (hx : x.toNat < 128)
    (h : utf8 s = a ++ x :: b) :
    ∃ s1 s2, s = s1 ++ Char.ofNat x.toNat :: s2 ∧ utf8 s1 = a ∧ utf8 s2 = b := by
  induction s generalizing a with
  | nil => simp [utf8] at h
  | cons c s ih =>
    have e : utf8 (c :: s) = String.utf8EncodeChar c ++ utf8 s := rfl
    rw [e, List.append_eq_append_iff] at h
    rcases h with ⟨z, h1, h2⟩ | ⟨z, h1, h2⟩
    · obtain ⟨s1, s2, h3, h4, h5⟩ := ih h2
      exact ⟨c :: s1, s2, by simp [h3], by simp [utf8] at h4 ⊢; rw [h4, h1], h5⟩
    · cases z with
      | nil =>
        simp only [List.nil_append, List.append_nil] at h1 h2
        obtain ⟨s1, s2, h3, h4, h5⟩ := ih (a := []) h2.symm
        refine ⟨c :: s1, s2, by simp [h3], ?_, h5⟩
        have : utf8 (c :: s1) = String.utf8EncodeChar c ++ utf8 s1 := rfl
        rw [this, h4, h1, List.append_nil]
      | cons y z =>
        simp only [List.cons_append, List.cons.injEq] at h2
        obtain ⟨rfl, h2⟩ := h2
        have hm : x ∈ String.utf8EncodeChar c := by rw [h1]; simp
        by_cases hc : c.toNat < 128
        · rw [utf8EncodeChar_ascii hc] at h1 hm
          simp only [List.mem_singleton] at hm
          have hlen := congrArg List.length h1
          simp only [List.length_cons, List.length_nil, List.length_append] at hlen
          have ha : a = [] := List.length_eq_zero_iff.1 (by omega)
          have hz : z = [] := List.length_eq_zero_iff.1 (by omega)
          subst ha hz
          refine ⟨[], s, ?_, rfl, by simpa using h2.symm⟩
          have : x.toNat = c.toNat := by
            rw [hm, UInt8.toNat_ofNat']; omega
          simp [this, Char.ofNat_toNat]
        · have := utf8EncodeChar_ge (by omega) x hm
          omega

theorem occurs_crlf_of_utf8 {s : Str} (h : Occurs (utf8 s) crlfB) : Occurs s crlf := by
  obtain ⟨i, a, b, h1, -⟩ := h
  have h2 : utf8 s = a ++ 13 :: (10 :: b) := by rw [h1]; simp [crlfB]
  obtain ⟨s1, s2, e1, e2, e3⟩ := utf8_split_ascii (by decide) h2
  obtain ⟨s3, s4, f1, f2, f3⟩ := utf8_split_ascii (a := []) (by decide) e3
  have hs3 : s3 = [] := utf8_injective f2
  subst hs3
  refine ⟨s1.length, s1, s4, ?_, rfl⟩
  rw [e1, f1]
  simp [crlf]

theorem utf8_crlf : utf8 crlf = crlfB := by decide

/-- lines without CRLF, joined by CRLF and encoded, are recovered by the byte splitter -/
theorem collect_lines (lines : List Str) (hne : lines ≠ []) (hl : ∀ l ∈ lines, ¬ Occurs l crlf)
    (fuel : Nat) (hf : (utf8 (crlf.intercalate lines)).length + 2 ≤ fuel) :
    Spliterator.collect fuel ⟨utf8 (crlf.intercalate lines), false, [13, 10]⟩
      = .ok (some (lines.map utf8)) := by
  induction lines generalizing fuel with
  | nil => exact absurd rfl hne
  | cons l lines ih =>
    cases fuel with
    | zero => omega
    | succ fuel =>
      cases lines with
      | nil =>
        have h0 : crlf.intercalate [l] = l := by simp [List.intercalate]
        rw [h0] at hf ⊢
        unfold Spliterator.collect
        rcases Spliterator.next_ok (utf8 l) [13, 10] with ⟨a, b, h1, -, -⟩ | ⟨-, h2⟩
        · exact absurd (occurs_crlf_of_utf8 ⟨_, a, b, h1, rfl⟩) (hl l (by simp))
        · rw [h2]
          cases fuel with
          | zero => omega
          | succ fuel =>
            simp [Spliterator.collect, Spliterator.next]
      | cons l' lines =>
        have h0 : crlf.intercalate (l :: l' :: lines) = l ++ crlf ++ crlf.intercalate (l' :: lines) := by
          simp [List.intercalate, List.append_assoc]
        rw [h0, utf8_append, utf8_append, utf8_crlf] at hf ⊢
        unfold Spliterator.collect
        have hfs : FirstSplit (utf8 l ++ crlfB ++ utf8 (crlf.intercalate (l' :: lines))) crlfB (utf8 l)
            (utf8 (crlf.intercalate (l' :: lines))) := by
          refine ⟨rfl, fun j hj ho => ?_⟩
          by_cases hj2 : j + 2 ≤ (utf8 l).length
          · rw [List.append_assoc] at ho
            exact hl l (by simp) (occurs_crlf_of_utf8 ⟨j, ho.of_append hj2⟩)
          · obtain ⟨x, y, e1, e2⟩ := ho
            have e3 := congrArg (fun z => z[j + 1]?) e1
            simp only [crlfB, List.append_assoc] at e3
            have i1 : j + 1 = (utf8 l).length + 0 := by omega
            have i2 : j + 1 = x.length + 1 := by omega
            have f1 : ∀ z : Bytes, (utf8 l ++ (13 :: z))[j + 1]? = some 13 := by
              intro z; rw [i1, List.getElem?_append_right (by omega)]; simp
            have f2 : ∀ z : Bytes, (x ++ (13 :: 10 :: z))[j + 1]? = some 10 := by
              intro z; rw [i2, List.getElem?_append_right (by omega)]; simp
            simp only [List.cons_append] at e3
            rw [f1, f2] at e3
            simp at e3
        rcases Spliterator.next_ok (utf8 l ++ crlfB ++ utf8 (crlf.intercalate (l' :: lines))) [13, 10]
          with ⟨a, b, h1, h2, h3⟩ | ⟨h2, -⟩
        · obtain ⟨rfl, rfl⟩ := hfs.unique ⟨h1, h2⟩
          rw [h3, Res.bind_ok']
          simp only
          rw [ih (by simp) (fun x hx => hl x (by simp at hx ⊢; exact Or.inr hx)) fuel
            (by simp [crlfB] at hf; omega)]
          simp
        · exact absurd hfs.occurs h2

/-- every text is a list of lines without CRLF joined by CRLF -/
theorem exists_lines (text : Str) :
    ∃ lines : List Str, lines ≠ [] ∧ text = crlf.intercalate lines ∧ ∀ l ∈ lines, ¬ Occurs l crlf := by
  obtain ⟨ps, -, h1, h2, h3⟩ := Spliterator.collect_ok crlf (by simp [crlf]) text (text.length + 2)
    (Nat.le_refl _)
  exact ⟨ps, h1, h2.symm, h3⟩

/-! ### the header block -/

def hpair (h : Header) : Str × Str := (h.name, h.value)

theorem intercalate_snoc {T : Type u} (sep : List T) (vs : List (List T)) (v : List T) (h : vs ≠ []) :
    sep.intercalate (vs ++ [v]) = sep.intercalate vs ++ sep ++ v := by
  induction vs with
  | nil => exact absurd rfl h
  | cons w vs ih =>
    cases vs with
    | nil => simp [List.intercalate]
    | cons u vs =>
      have := ih (by simp)
      simp only [List.intercalate, List.cons_append, List.intersperse_cons_cons, List.flatten_cons,
        List.append_assoc] at this ⊢
      rw [this]

theorem joined_snoc (raw : List Header) (h : Header) (k : Str) :
    joined ((raw ++ [h]).map hpair) k =
      if asciiLower h.name = k then
        some (match joined (raw.map hpair) k with
          | some v => v ++ c!", " ++ h.value
          | none => h.value)
      else joined (raw.map hpair) k := by
  unfold joined
  simp only [← asciiLower_eq]
  simp only [List.map_append, List.map_cons, List.map_nil, List.filter_append]
  by_cases hk : asciiLower h.name = k
  · have : ([hpair h].filter fun h => asciiLower h.1 = k) = [hpair h] := by simp [hpair, hk]
    rw [this, if_pos hk]
    simp only [List.map_cons, List.map_nil]
    generalize hvs : List.map (fun x : Str × Str => x.2) (List.filter (fun h => decide (asciiLower h.1 = k)) (raw.map hpair)) = vs
    cases vs with
    | nil => simp [hpair, List.intercalate]
    | cons v vs =>
      have := intercalate_snoc c!", " (v :: vs) h.value (by simp)
      simp only [List.cons_append] at this
      simp only [List.cons_append, hpair]
      rw [this]
  · have : ([hpair h].filter fun h => asciiLower h.1 = k) = [] := by simp [hpair, hk]
    rw [this, if_neg hk]
    simp

theorem get_addParsed (m : HMap Str Str) (h : Header) (k : Str) :
    (Headers.addParsed m h).get k = if asciiLower h.name = k then
        some (match m.get k with
          | some v => v ++ c!", " ++ h.value
          | none => h.value)
      else m.get k := by
  unfold Headers.addParsed
  simp only
  by_cases hk : asciiLower h.name = k
  · subst hk
    cases hg : m.get (asciiLower h.name) <;> simp
  · cases hg : m.get (asciiLower h.name) <;> simp [HMap.get_insert, hk]

theorem uniq_addParsed {m : HMap Str Str} (hm : m.Uniq) (h : Header) :
    (Headers.addParsed m h).Uniq := by
  unfold Headers.addParsed
  simp only
  cases hg : m.get (asciiLower h.name) <;> exact hm.insert _ _

/-- the invariant of the header loop -/
def Headers.Ok (h : Headers) : Prop :=
  h.parsed.Uniq ∧ ∀ k, h.get k = joined (h.raw.map hpair) k

theorem parseLoop_spec (faithful : Bool) (lines : List Str) (acc : Headers) (hacc : acc.Ok) :
    (∀ h, Headers.parseLoop faithful (lines.map utf8) acc = some h →
      h.Ok ∧ ∃ hs, h.raw = acc.raw ++ hs ∧ lines.map (Header.parse faithful) = hs.map some) ∧
    (∀ hs, lines.map (Header.parse faithful) = hs.map some →
      ∃ h, Headers.parseLoop faithful (lines.map utf8) acc = some h ∧ h.raw = acc.raw ++ hs) := by
  induction lines generalizing acc with
  | nil =>
    refine ⟨fun h hh => ?_, fun hs hh => ?_⟩
    · simp only [List.map_nil, Headers.parseLoop, Option.some.injEq] at hh
      subst hh
      exact ⟨hacc, [], by simp⟩
    · simp only [List.map_nil] at hh
      have : hs = [] := by simpa using hh.symm
      subst this
      exact ⟨acc, rfl, by simp⟩
  | cons l lines ih =>
    simp only [List.map_cons]
    unfold Headers.parseLoop
    rw [fromUtf8_utf8]
    simp only
    cases hp : Header.parse faithful l with
    | none =>
      refine ⟨fun h hh => by simp at hh, fun hs hh => ?_⟩
      cases hs with
      | nil => simp at hh
      | cons x hs => simp at hh
    | some hd =>
      simp only
      have hok : Headers.Ok { parsed := Headers.addParsed acc.parsed hd, raw := acc.raw ++ [hd] } := by
        refine ⟨uniq_addParsed hacc.1 hd, fun k => ?_⟩
        have h1 := get_addParsed acc.parsed hd k
        have h2 := hacc.2 k
        unfold Headers.get at h2 ⊢
        simp only
        rw [h1, h2, joined_snoc]
      obtain ⟨i1, i2⟩ := ih _ hok
      refine ⟨fun h hh => ?_, fun hs hh => ?_⟩
      · obtain ⟨j1, hs, j2, j3⟩ := i1 h hh
        exact ⟨j1, hd :: hs, by rw [j2]; simp, by simp [j3]⟩
      · cases hs with
        | nil => simp at hh
        | cons x hs =>
          simp only [List.map_cons, List.cons.injEq, Option.some.injEq] at hh
          obtain ⟨h, j1, j2⟩ := i2 hs hh.2
          exact ⟨h, j1, by rw [j2, hh.1]; simp⟩

theorem Headers.parse_lines (faithful : Bool) (lines : List Str) (hne : lines ≠ [])
    (hl : ∀ l ∈ lines, ¬ Occurs l crlf) :
    Headers.parse faithful (crlf.intercalate lines)
      = .ok (Headers.parseLoop faithful (lines.map utf8) ⟨[], []⟩) := by
  unfold Headers.parse Spliterator.new
  simp only
  rw [collect_lines lines hne hl _ (Nat.le_refl _)]
  rfl

theorem Headers.Ok.nil : Headers.Ok ⟨[], []⟩ := ⟨HMap.Uniq.nil, fun _ => rfl⟩

/-- `Headers::parse` never panics -/
theorem Headers.parse_ok (faithful : Bool) (text : Str) : ∃ o, Headers.parse faithful text = .ok o := by
  obtain ⟨lines, h1, rfl, h3⟩ := exists_lines text
  exact ⟨_, Headers.parse_lines faithful lines h1 h3⟩

/-! ### Keep-Alive -/

theorem isDigit_iff (c : Char) : isDigit c = true ↔ '0' ≤ c ∧ c ≤ '9' := by
  unfold isDigit
  rw [Char.le_def, Char.le_def, UInt32.le_iff_toNat_le, UInt32.le_iff_toNat_le]
  simp only [Bool.and_eq_true, decide_eq_true_eq]
  exact Iff.rfl

theorem parseU64_iff (s : Str) (n : Nat) : parseU64 s = some n ↔ IsU64 s n := by
  have core : ∀ ds : Str, (if ds.isEmpty then none else if ds.all isDigit then
      if digitsVal ds ≤ u64Max then some (digitsVal ds) else none else none) = some n ↔
      ds ≠ [] ∧ (∀ c ∈ ds, '0' ≤ c ∧ c ≤ '9') ∧
        n = ds.foldl (fun a c => 10 * a + (c.toNat - 48)) 0 ∧ n < 2 ^ 64 := by
    intro ds
    have hv : digitsVal ds = ds.foldl (fun a c => 10 * a + (c.toNat - 48)) 0 := rfl
    rw [← hv]
    have ha : ds.all isDigit = true ↔ ∀ c ∈ ds, '0' ≤ c ∧ c ≤ '9' := by
      rw [List.all_eq_true]
      exact ⟨fun h c hc => (isDigit_iff c).1 (h c hc), fun h c hc => (isDigit_iff c).2 (h c hc)⟩
    by_cases h1 : ds = []
    · simp [h1]
    · have : ds.isEmpty = false := by simp [h1]
      rw [this]
      by_cases h2 : ds.all isDigit = true
      · rw [if_pos h2]
        by_cases h3 : digitsVal ds ≤ u64Max
        · rw [if_pos h3]
          unfold u64Max at h3
          simp only [Bool.false_eq_true, if_false, Option.some.injEq]
          constructor
          · rintro rfl; exact ⟨h1, ha.1 h2, rfl, by omega⟩
          · rintro ⟨-, -, h, -⟩; exact h.symm
        · rw [if_neg h3]
          unfold u64Max at h3
          simp only [Bool.false_eq_true, if_false, reduceCtorEq, false_iff]
          rintro ⟨-, -, h, h'⟩; omega
      · rw [if_neg h2]
        simp only [Bool.false_eq_true, if_false, reduceCtorEq, false_iff]
        rintro ⟨-, h, -⟩; exact h2 (ha.2 h)
  have nplus : ¬ (('0' : Char) ≤ '+' ∧ '+' ≤ '9') := by decide
  unfold parseU64 IsU64
  split
  · rename_i r
    rw [core]
    constructor
    · intro h; exact ⟨r, Or.inr rfl, h⟩
    · rintro ⟨ds, h1 | h1, h2, h3, h4⟩
      · subst h1; exact absurd (h3 '+' (by simp)) nplus
      · simp only [List.cons.injEq, true_and] at h1
        subst h1; exact ⟨h2, h3, h4⟩
  · rename_i hs
    rw [core]
    constructor
    · intro h; exact ⟨s, Or.inl rfl, h⟩
    · rintro ⟨ds, h1 | h1, h2⟩
      · subst h1; exact h2
      · exact absurd h1 (hs ds)

theorem IsU64.unique {s : Str} {n m : Nat} (h : IsU64 s n) (h' : IsU64 s m) : n = m := by
  rw [← parseU64_iff] at h h'
  rw [h] at h'; exact Option.some.inj h'

/-- keys without `=` -/
theorem IsParam_iff {e key v : Str} {a : Str} (ha : '=' ∉ a) (hk : '=' ∉ key)
    (h : trim e = a ++ '=' :: v) (n : Nat) : IsParam e key n ↔ a = key ∧ IsU64 v n := by
  constructor
  · rintro ⟨w, h1, h2⟩
    rw [trimmed_iff, h] at h1
    have e1 := splitN2_append ha v
    rw [h1, splitN2_append hk] at e1
    simp only [List.cons.injEq, and_true] at e1
    obtain ⟨rfl, rfl⟩ := e1
    exact ⟨rfl, h2⟩
  · rintro ⟨rfl, h2⟩; exact ⟨v, (trimmed_iff _ _).2 h, h2⟩

/-- one step of the Keep-Alive loop -/
theorem KeepAlive.step_spec (ret : KeepAlive) (tok : Str) :
    ∃ r, KeepAlive.step ret tok = .ok r ∧
      (∀ n, IsParam tok c!"timeout" n → r.timeout = some n) ∧
      ((∀ n, ¬ IsParam tok c!"timeout" n) → r.timeout = ret.timeout) ∧
      (∀ n, IsParam tok c!"max" n → r.max = some n) ∧
      ((∀ n, ¬ IsParam tok c!"max" n) → r.max = ret.max) := by
  have hkt : '=' ∉ c!"timeout" := by decide
  have hkm : '=' ∉ c!"max" := by decide
  unfold KeepAlive.step
  simp only
  cases hf : findChar '=' (trim tok) with
  | none =>
    have hno := findChar_none.1 hf
    have : ∀ key n, ¬ IsParam tok key n := by
      rintro key n ⟨v, h, -⟩; rw [(trimmed_iff _ _).1 h] at hno; simp at hno
    exact ⟨ret, rfl, fun n h => absurd h (this _ n), fun _ => rfl, fun n h => absurd h (this _ n),
      fun _ => rfl⟩
  | some i =>
    obtain ⟨a, v, h1, h2, h3⟩ := findChar_some hf
    simp only [h3, Res.bind_ok', sliceFrom_cons_ascii (show ('=' : Char).toNat < 128 by decide)]
    have pt := IsParam_iff h2 hkt h1
    have pm := IsParam_iff h2 hkm h1
    cases hp : parseU64 v with
    | none =>
      have : ∀ n, ¬ IsU64 v n := by
        intro n h; rw [← parseU64_iff, hp] at h; simp at h
      exact ⟨ret, rfl, fun n h => absurd ((pt n).1 h).2 (this n), fun _ => rfl,
        fun n h => absurd ((pm n).1 h).2 (this n), fun _ => rfl⟩
    | some val =>
      have hv : IsU64 v val := (parseU64_iff _ _).1 hp
      simp only
      by_cases ht : a = c!"timeout"
      · rw [if_pos ht]
        have hnm : a ≠ c!"max" := by rw [ht]; decide
        refine ⟨_, rfl, ?_, ?_, ?_, ?_⟩
        · intro n h; rw [IsU64.unique hv ((pt n).1 h).2]
        · intro h; exact absurd ((pt val).2 ⟨ht, hv⟩) (h val)
        · intro n h; exact absurd ((pm n).1 h).1 hnm
        · intro _; rfl
      · rw [if_neg ht]
        by_cases hm : a = c!"max"
        · rw [if_pos hm]
          refine ⟨_, rfl, ?_, ?_, ?_, ?_⟩
          · intro n h; exact absurd ((pt n).1 h).1 ht
          · intro _; rfl
          · intro n h; rw [IsU64.unique hv ((pm n).1 h).2]
          · intro h; exact absurd ((pm val).2 ⟨hm, hv⟩) (h val)
        · rw [if_neg hm]
          exact ⟨ret, rfl, fun n h => absurd ((pt n).1 h).1 ht, fun _ => rfl,
            fun n h => absurd ((pm n).1 h).1 hm, fun _ => rfl⟩

/-- the last well-formed value, or the initial one -/
def LastOr (entries : List Str) (key : Str) (init r : Option Nat) : Prop :=
  (∀ n, LastParam entries key n → r = some n) ∧
  ((∀ e ∈ entries, ∀ n, ¬ IsParam e key n) → r = init)

theorem LastOr.cons {tok : Str} {toks : List Str} {key : Str} {init mid r : Option Nat}
    (h1 : ∀ n, IsParam tok key n → mid = some n)
    (h2 : (∀ n, ¬ IsParam tok key n) → mid = init)
    (h : LastOr toks key mid r) : LastOr (tok :: toks) key init r := by
  constructor
  · rintro n ⟨pre, e, post, e1, e2, e3⟩
    cases pre with
    | nil =>
      simp only [List.nil_append, List.cons.injEq] at e1
      obtain ⟨rfl, rfl⟩ := e1
      rw [h.2 e3, h1 n e2]
    | cons x pre =>
      simp only [List.cons_append, List.cons.injEq] at e1
      exact h.1 n ⟨pre, e, post, e1.2, e2, e3⟩
  · intro hn
    rw [h.2 fun e he => hn e (by simp [he])]
    exact h2 (hn tok (by simp))

theorem KeepAlive.loop_spec (toks : List Str) (ret : KeepAlive) :
    ∃ r, KeepAlive.loop toks ret = .ok r ∧ LastOr toks c!"timeout" ret.timeout r.timeout ∧
      LastOr toks c!"max" ret.max r.max := by
  induction toks generalizing ret with
  | nil =>
    have : ∀ key (x : Option Nat), LastOr [] key x x := fun key x =>
      ⟨by rintro n ⟨pre, e, post, h, -⟩; simp at h, fun _ => rfl⟩
    exact ⟨ret, rfl, this _ _, this _ _⟩
  | cons tok toks ih =>
    obtain ⟨m, h1, h2, h3, h4, h5⟩ := KeepAlive.step_spec ret tok
    obtain ⟨r, h6, h7, h8⟩ := ih m
    exact ⟨r, by simp [KeepAlive.loop, h1, h6], h7.cons h2 h3, h8.cons h4 h5⟩

end Octane
