import Verif.Model.Cost
import Verif.Proof.Http1x
import Verif.Proof.Request
namespace Octane
open Spec

/-! ### searching -/
section
variable {T : Type u} [DecidableEq T]

theorem matchLoopAtC_fst (h n : List T) (i j k : Nat) :
    (matchLoopAtC h n i j k).1 = matchLoopAt h n i j k := by
  induction k generalizing j with
  | zero => rfl
  | succ k ih =>
    unfold matchLoopAtC matchLoopAt
    cases h[i + j]? <;> cases n[j]? <;> try rfl
    simp only
    split
    · rfl
    · exact ih (j + 1)

theorem matchLoopAtC_le (h n : List T) (i j k : Nat) : (matchLoopAtC h n i j k).2 ≤ k := by
  induction k generalizing j with
  | zero => simp [matchLoopAtC]
  | succ k ih =>
    unfold matchLoopAtC
    have := ih (j + 1)
    cases h[i + j]? <;> cases n[j]? <;> try simp
    split <;> omega

theorem matchLoopAtC_pos (h n : List T) (i k : Nat) (hn : n ≠ []) (hi : i < h.length) (hk : 0 < k) :
    1 ≤ (matchLoopAtC h n i 0 k).2 := by
  obtain ⟨k, rfl⟩ : ∃ k', k = k' + 1 := ⟨k - 1, by omega⟩
  have h2 : 0 < n.length := List.length_pos_iff.2 hn
  unfold matchLoopAtC
  rw [Nat.add_zero, List.getElem?_eq_getElem hi, List.getElem?_eq_getElem h2]
  simp only
  split
  · simp
  · simp only; omega

theorem findLoopC_fst (h n : List T) (i k : Nat) : (findLoopC h n i k).1 = findLoop h n i k := by
  induction k generalizing i with
  | zero => rfl
  | succ k ih =>
    unfold findLoopC findLoop
    simp only [matchLoopAtC_fst]
    cases matchLoopAt h n i 0 n.length with
    | panic => rfl
    | ok b =>
      cases b with
      | true => rfl
      | false => simpa using ih (i + 1)

theorem findInSliceC_fst (h n : List T) : (findInSliceC h n).1 = findInSlice h n := by
  unfold findInSliceC findInSlice
  split
  · rfl
  · exact findLoopC_fst _ _ _ _

/-- the search costs at most the length of the needle per position looked at -/
theorem findLoopC_le (h n : List T) (i k : Nat) :
    (findLoopC h n i k).2 ≤ n.length * k ∧
    ∀ v, (findLoopC h n i k).1 = .ok (some v) → i ≤ v ∧ (findLoopC h n i k).2 ≤ n.length * (v + 1 - i) := by
  induction k generalizing i with
  | zero => simp [findLoopC]
  | succ k ih =>
    have hm := matchLoopAtC_le h n i 0 n.length
    unfold findLoopC
    simp only
    cases (matchLoopAtC h n i 0 n.length).1 with
    | panic =>
      refine ⟨?_, by simp⟩
      rw [Nat.mul_add]; simp only; omega
    | ok b =>
      cases b with
      | true =>
        simp only
        refine ⟨by rw [Nat.mul_add]; omega, ?_⟩
        intro v hv
        simp only [Res.ok.injEq, Option.some.injEq] at hv
        subst hv
        refine ⟨Nat.le_refl _, ?_⟩
        have : i + 1 - i = 1 := by omega
        rw [this]; omega
      | false =>
        obtain ⟨h1, h2⟩ := ih (i + 1)
        simp only
        refine ⟨by rw [Nat.mul_add]; omega, ?_⟩
        intro v hv
        obtain ⟨h3, h4⟩ := h2 v hv
        refine ⟨by omega, ?_⟩
        have : v + 1 - i = (v + 1 - (i + 1)) + 1 := by omega
        rw [this, Nat.mul_add]; omega

/-- and at least one comparison per position -/
theorem findLoopC_ge (h n : List T) (hn : n ≠ []) (i k : Nat) (hik : i + k + n.length = h.length + 1) :
    ((findLoopC h n i k).1 = .ok none → k ≤ (findLoopC h n i k).2) ∧
    ∀ v, (findLoopC h n i k).1 = .ok (some v) → v + 1 - i ≤ (findLoopC h n i k).2 := by
  have hpos : 0 < n.length := List.length_pos_iff.2 hn
  induction k generalizing i with
  | zero => simp [findLoopC]
  | succ k ih =>
    have hm := matchLoopAtC_pos h n i n.length hn (by omega) hpos
    unfold findLoopC
    simp only
    cases (matchLoopAtC h n i 0 n.length).1 with
    | panic => simp
    | ok b =>
      cases b with
      | true =>
        simp only
        refine ⟨by simp, ?_⟩
        intro v hv
        simp only [Res.ok.injEq, Option.some.injEq] at hv
        omega
      | false =>
        obtain ⟨h1, h2⟩ := ih (i + 1) (by omega)
        simp only
        exact ⟨fun hv => by have := h1 hv; omega, fun v hv => by have := h2 v hv; omega⟩

theorem findInSliceC_le (h n : List T) :
    (findInSliceC h n).2 ≤ n.length * h.length ∧
    ∀ v, findInSlice h n = .ok (some v) → (findInSliceC h n).2 ≤ n.length * (v + n.length) := by
  rw [← findInSliceC_fst]
  unfold findInSliceC
  split
  · simp
  · obtain ⟨h1, h2⟩ := findLoopC_le h n 0 (h.length - n.length + 1)
    by_cases hn : n.length = 0
    · rw [hn] at h1 h2 ⊢
      simp only [Nat.zero_mul] at h1 h2 ⊢
      exact ⟨h1, fun _ _ => h1⟩
    · refine ⟨Nat.le_trans h1 (Nat.mul_le_mul_left _ (by omega)), fun v hv => ?_⟩
      exact Nat.le_trans (h2 v hv).2 (Nat.mul_le_mul_left _ (by omega))

theorem findInSliceC_ge (h n : List T) (hn : n ≠ []) :
    (¬ Occurs h n → h.length + 1 ≤ (findInSliceC h n).2 + n.length) ∧
    ∀ v, findInSlice h n = .ok (some v) → v + 1 ≤ (findInSliceC h n).2 := by
  have hpos : 0 < n.length := List.length_pos_iff.2 hn
  obtain ⟨r, h1, h2, h3⟩ := findInSlice_ok h n
  rw [← findInSliceC_fst] at h1
  rw [← findInSliceC_fst]
  unfold findInSliceC at h1 ⊢
  split at h1 <;> rename_i hl
  · rw [if_pos hl]
    exact ⟨fun _ => by simp only; omega, by simp⟩
  · rw [if_neg hl]
    obtain ⟨g1, g2⟩ := findLoopC_ge h n hn 0 (h.length - n.length + 1) (by omega)
    refine ⟨fun hno => ?_, fun v hv => by have := g2 v hv; omega⟩
    cases r with
    | some v => exact absurd ⟨v, (h2 v rfl).1⟩ hno
    | none => have := g1 h1; omega

/-! ### splitting -/

theorem Spliterator.collectC_fst (fuel : Nat) (s : Spliterator T) :
    (Spliterator.collectC fuel s).1 = Spliterator.collect fuel s := by
  induction fuel generalizing s with
  | zero => rfl
  | succ fuel ih =>
    unfold collectC collect
    simp only
    cases hn : s.next with
    | panic => rfl
    | ok x =>
      obtain ⟨o, s'⟩ := x
      cases o with
      | none => rfl
      | some p => simp [ih s']

theorem Spliterator.collectC_le (fuel : Nat) (s seq : List T) :
    (Spliterator.collectC fuel ⟨s, false, seq⟩).2 ≤ seq.length * s.length := by
  induction fuel generalizing s with
  | zero => simp [collectC]
  | succ fuel ih =>
    obtain ⟨f1, f2⟩ := findInSliceC_le s seq
    unfold collectC
    simp only [Bool.false_eq_true, if_false]
    rcases next_ok s seq with ⟨a, b, hs, hmin, hn⟩ | ⟨hno, hn⟩
    · rw [hn]
      have hfind : findInSlice s seq = .ok (some a.length) := by
        obtain ⟨r, h1, h2, h3⟩ := findInSlice_ok s seq
        have hat : OccursAt s seq a.length := ⟨a, b, hs, rfl⟩
        cases r with
        | none => exact absurd ⟨_, hat⟩ (h3 rfl)
        | some v =>
          rcases Nat.lt_trichotomy v a.length with hlt | heq | hgt
          · exact absurd (h2 v rfl).1 (hmin v hlt)
          · rw [h1, heq]
          · exact absurd hat ((h2 v rfl).2 _ hgt)
      have h4 := f2 _ hfind
      have h5 := ih b
      have hlen : s.length = (a.length + seq.length) + b.length := by rw [hs]; simp; omega
      simp only
      rw [hlen, Nat.mul_add]
      omega
    · rw [hn]
      simp only
      have : (Spliterator.collectC fuel (⟨s, true, seq⟩ : Spliterator T)).2 = 0 := by
        cases fuel with
        | zero => rfl
        | succ f =>
          have h2 : next (⟨s, true, seq⟩ : Spliterator T) = .ok (none, ⟨s, true, seq⟩) := rfl
          simp [collectC, h2]
      omega

/-- a lower bound: every byte that is not part of a separator is compared at least once -/
theorem Spliterator.collectC_ge (fuel : Nat) (s seq : List T) (hseq : seq.length = 2) (hf : s.length < fuel) :
    s.length ≤ 2 * (Spliterator.collectC fuel ⟨s, false, seq⟩).2 + 1 := by
  induction fuel generalizing s with
  | zero => omega
  | succ fuel ih =>
    obtain ⟨f1, f2⟩ := findInSliceC_ge s seq (by intro h; rw [h] at hseq; cases hseq)
    unfold collectC
    simp only [Bool.false_eq_true, if_false]
    rcases next_ok s seq with ⟨a, b, hs, hmin, hn⟩ | ⟨hno, hn⟩
    · rw [hn]
      have hfind : findInSlice s seq = .ok (some a.length) := by
        obtain ⟨r, h1, h2, h3⟩ := findInSlice_ok s seq
        have hat : OccursAt s seq a.length := ⟨a, b, hs, rfl⟩
        cases r with
        | none => exact absurd ⟨_, hat⟩ (h3 rfl)
        | some v =>
          rcases Nat.lt_trichotomy v a.length with hlt | heq | hgt
          · exact absurd (h2 v rfl).1 (hmin v hlt)
          · rw [h1, heq]
          · exact absurd hat ((h2 v rfl).2 _ hgt)
      have h4 := f2 _ hfind
      have hlen : s.length = (a.length + seq.length) + b.length := by rw [hs]; simp; omega
      have h5 := ih b (by omega)
      simp only
      omega
    · rw [hn]
      have := f1 hno
      simp only
      omega

end

/-! ### the head -/

theorem readHeadLoopC_fst (fuel : Nat) (data : Bytes) (s : Sock) :
    (readHeadLoopC fuel data s).1 = readHeadLoop fuel data s := by
  induction fuel generalizing data s with
  | zero => rfl
  | succ fuel ih =>
    unfold readHeadLoopC readHeadLoop
    cases s.read 512 with
    | error => rfl
    | pending => rfl
    | data b s' =>
      simp only
      split
      · rfl
      · cases headCheck (data ++ b) s' with
        | panic => rfl
        | ok o => cases o with
          | some _ => rfl
          | none => exact ih _ _

/-- upper bounds -/
theorem readHeadLoopC_le (fuel : Nat) (data : Bytes) (s : Sock) :
    let c := (readHeadLoopC fuel data s).2
    c.compared ≤ 4 * (c.reads * (data.length + s.bytes.length)) ∧
    c.reads ≤ s.bytes.length + 1 ∧ c.held ≤ data.length + s.bytes.length := by
  induction fuel generalizing data s with
  | zero => simp [readHeadLoopC]
  | succ fuel ih =>
    have hr := read_spec 512 (by omega) s
    unfold readHeadLoopC
    cases hrd : s.read 512 with
    | error => simp
    | pending => simp
    | data b s' =>
      rw [hrd] at hr
      simp only at hr ⊢
      by_cases hb : b = []
      · simp [hb]
      · obtain ⟨hbytes, -, -⟩ := hr.2 hb
        have hpos := List.length_pos_iff.2 hb
        have hlen : s.bytes.length = b.length + s'.bytes.length := by rw [hbytes, List.length_append]
        have hf : (findInSliceC (data ++ b) [13, 10, 13, 10]).2 ≤ 4 * (data.length + b.length) := by
          simpa using (findInSliceC_le (data ++ b) [13, 10, 13, 10]).1
        have ih' := ih (data ++ b) s'
        rw [if_neg hb]
        cases headCheck (data ++ b) s' with
        | panic => simp only [List.length_append, Nat.one_mul]; omega
        | ok o =>
          cases o with
          | some out => simp only [List.length_append, Nat.one_mul]; omega
          | none =>
            simp only [List.length_append] at ih' ⊢
            rw [hlen, Nat.add_mul, Nat.one_mul]
            rw [Nat.add_assoc] at ih'
            omega

/-- what has no blank line yet ends before the blank line does -/
theorem short_of_not_occurs {data t a b : Bytes} (hno : ¬ Occurs data blankLine)
    (hs : FirstSplit (data ++ t) blankLine a b) : data.length ≤ a.length + 3 := by
  apply Classical.byContradiction
  intro hlt
  apply hno
  refine ⟨a.length, a, data.drop (a.length + 4), ?_, rfl⟩
  have h4 : (a ++ blankLine).length = a.length + 4 := by simp [blankLine]
  have h6 := congrArg (List.take (a.length + 4)) hs.1
  rw [List.take_append_of_le_length (l₁ := data) (by omega),
    List.take_append_of_le_length (l₁ := a ++ blankLine) (by omega),
    List.take_of_length_le (l := a ++ blankLine) (by omega)] at h6
  rw [← h6, List.take_append_drop]

/-- where the head ends, what is held exceeds the head by less than one read -/
theorem readHeadLoopC_held (fuel : Nat) (data : Bytes) (s : Sock) (hf : s.bytes.length < fuel)
    (hno : ¬ Occurs data blankLine) (a b : Bytes) (hs : FirstSplit (data ++ s.bytes) blankLine a b) :
    (readHeadLoopC fuel data s).2.held ≤ a.length + 515 := by
  induction fuel generalizing data s with
  | zero => omega
  | succ fuel ih =>
    have hr := read_spec 512 (by omega) s
    unfold readHeadLoopC
    cases hrd : s.read 512 with
    | error =>
      rw [hrd] at hr
      rw [hr.1, List.append_nil] at hs
      exact absurd hs.occurs hno
    | pending =>
      rw [hrd] at hr
      rw [hr.1, List.append_nil] at hs
      exact absurd hs.occurs hno
    | data x s' =>
      rw [hrd] at hr
      simp only at hr ⊢
      by_cases hb : x = []
      · rw [(hr.1 hb).1, List.append_nil] at hs
        exact absurd hs.occurs hno
      · obtain ⟨hbytes, hfin, hcap⟩ := hr.2 hb
        have hpos := List.length_pos_iff.2 hb
        rw [if_neg hb]
        have hd := short_of_not_occurs hno hs
        rw [hbytes, ← List.append_assoc] at hs
        by_cases hocc : Occurs (data ++ x) blankLine
        · obtain ⟨b0, h1, -⟩ := hs.of_append hocc
          rw [(headCheck_spec (data ++ x) s').2 a b0 h1]
          simp only [List.length_append]
          omega
        · rw [(headCheck_spec (data ++ x) s').1 hocc]
          rw [hbytes, List.length_append] at hf
          exact ih (data ++ x) s' (by omega) hocc hs

/-- arithmetic of one read -/
theorem sq_step {L x c : Nat} (hx : x ≤ 512) (hc : L + x + 1 ≤ c + 4) :
    (L + x) * (L + x) ≤ L * L + 1024 * c + 3072 := by
  have h1 : (L + x) * (L + x) = L * L + x * (2 * L + x) := by
    rw [Nat.add_mul, Nat.mul_add, Nat.mul_add, Nat.mul_add, Nat.mul_left_comm, Nat.two_mul]
    rw [Nat.mul_comm x L]; omega
  have h2 : x * (2 * L + x) ≤ 512 * (2 * L + x) := Nat.mul_le_mul_right _ hx
  omega

/-- lower bound while the head has not ended -/
theorem readHeadLoopC_open (fuel : Nat) (data : Bytes) (s : Sock) (hf : s.bytes.length < fuel)
    (hno : ¬ Occurs (data ++ s.bytes) blankLine) :
    let c := (readHeadLoopC fuel data s).2
    let n := data.length + s.bytes.length
    n * n ≤ data.length * data.length + 1024 * c.compared + 3072 * s.bytes.length ∧ c.held = n := by
  induction fuel generalizing data s with
  | zero => omega
  | succ fuel ih =>
    have hr := read_spec 512 (by omega) s
    unfold readHeadLoopC
    cases hrd : s.read 512 with
    | error => rw [hrd] at hr; simp [hr.1]
    | pending => rw [hrd] at hr; simp [hr.1]
    | data x s' =>
      rw [hrd] at hr
      simp only at hr ⊢
      by_cases hb : x = []
      · simp [hb, (hr.1 hb).1]
      · obtain ⟨hbytes, hfin, hcap⟩ := hr.2 hb
        have hpos := List.length_pos_iff.2 hb
        have hlen : s.bytes.length = x.length + s'.bytes.length := by rw [hbytes, List.length_append]
        rw [if_neg hb]
        rw [hbytes, ← List.append_assoc] at hno
        have hocc : ¬ Occurs (data ++ x) blankLine := fun h => by
          obtain ⟨i, hi⟩ := h; exact hno ⟨i, hi.append _⟩
        have hge := (findInSliceC_ge (data ++ x) [13, 10, 13, 10] (by simp)).1 hocc
        rw [(headCheck_spec (data ++ x) s').1 hocc]
        obtain ⟨h1, h2⟩ := ih (data ++ x) s' (by omega) hno
        simp only [List.length_append, List.length_cons, List.length_nil] at hge h1 h2 ⊢
        have hstep := sq_step hcap hge
        rw [hlen, ← Nat.add_assoc]
        exact ⟨by omega, h2⟩

/-- lower bound when the head ends -/
theorem readHeadLoopC_closed (fuel : Nat) (data : Bytes) (s : Sock) (hf : s.bytes.length < fuel)
    (hno : ¬ Occurs data blankLine) (a b : Bytes) (hs : FirstSplit (data ++ s.bytes) blankLine a b) :
    let c := (readHeadLoopC fuel data s).2
    a.length * a.length ≤
      data.length * data.length + 1024 * c.compared + 3072 * (a.length + 4 - data.length) := by
  induction fuel generalizing data s with
  | zero => omega
  | succ fuel ih =>
    have hr := read_spec 512 (by omega) s
    unfold readHeadLoopC
    cases hrd : s.read 512 with
    | error =>
      rw [hrd] at hr
      rw [hr.1, List.append_nil] at hs
      exact absurd hs.occurs hno
    | pending =>
      rw [hrd] at hr
      rw [hr.1, List.append_nil] at hs
      exact absurd hs.occurs hno
    | data x s' =>
      rw [hrd] at hr
      simp only at hr ⊢
      by_cases hb : x = []
      · rw [(hr.1 hb).1, List.append_nil] at hs
        exact absurd hs.occurs hno
      · obtain ⟨hbytes, hfin, hcap⟩ := hr.2 hb
        have hpos := List.length_pos_iff.2 hb
        have hd := short_of_not_occurs hno hs
        rw [if_neg hb]
        rw [hbytes, ← List.append_assoc] at hs
        by_cases hocc : Occurs (data ++ x) blankLine
        · obtain ⟨b0, h1, -⟩ := hs.of_append hocc
          have hal : a.length + 4 ≤ data.length + x.length := by
            have := congrArg List.length h1.1
            simp [blankLine] at this
            omega
          have hfind : findInSlice (data ++ x) [13, 10, 13, 10] = .ok (some a.length) := by
            obtain ⟨r, g1, g2, g3⟩ := findInSlice_ok (data ++ x) [13, 10, 13, 10]
            have hat : OccursAt (data ++ x) blankLine a.length := ⟨a, b0, h1.1, rfl⟩
            cases r with
            | none => exact absurd ⟨_, hat⟩ (g3 rfl)
            | some v =>
              rcases Nat.lt_trichotomy v a.length with hlt | heq | hgt
              · exact absurd (g2 v rfl).1 (h1.2 v hlt)
              · rw [g1, heq]
              · exact absurd hat ((g2 v rfl).2 _ hgt)
          have hge := (findInSliceC_ge (data ++ x) [13, 10, 13, 10] (by simp)).2 _ hfind
          rw [(headCheck_spec (data ++ x) s').2 a b0 h1]
          simp only
          by_cases hle : a.length ≤ data.length
          · have := Nat.mul_le_mul hle hle
            omega
          · obtain ⟨y, hy⟩ : ∃ y, a.length = data.length + y := ⟨a.length - data.length, by omega⟩
            have hstep := sq_step (L := data.length) (x := y)
              (c := (findInSliceC (data ++ x) [13, 10, 13, 10]).2) (by omega) (by omega)
            rw [← hy] at hstep
            omega
        · have hge := (findInSliceC_ge (data ++ x) [13, 10, 13, 10] (by simp)).1 hocc
          rw [(headCheck_spec (data ++ x) s').1 hocc]
          rw [hbytes, List.length_append] at hf
          have h1 := ih (data ++ x) s' (by omega) hocc hs
          simp only [List.length_append, List.length_cons, List.length_nil] at hge h1 ⊢
          have hstep := sq_step hcap hge
          have hd' := short_of_not_occurs hocc hs
          rw [List.length_append] at hd'
          omega

end Octane
