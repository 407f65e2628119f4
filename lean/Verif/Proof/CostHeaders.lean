import Verif.Proof.Cost
import Verif.Proof.Response
import Verif.Spec.Cost
/-
Lemmas on the counted header parser of `Model/Cost.lean`.
-/
namespace Octane
open Spec

theorem Headers.parseLoopC_fst (faithful : Bool) (toks : List Bytes) (acc : Headers) :
    (Headers.parseLoopC faithful toks acc).1 = Headers.parseLoop faithful toks acc := by
  induction toks generalizing acc with
  | nil => rfl
  | cons t toks ih =>
    unfold Headers.parseLoopC Headers.parseLoop
    cases fromUtf8 t with
    | none => rfl
    | some s =>
      simp only
      cases Header.parse faithful s with
      | none => rfl
      | some h => exact ih _

theorem Headers.parseC_fst (faithful : Bool) (text : Str) :
    (Headers.parseC faithful text).1 = Headers.parse faithful text := by
  unfold Headers.parseC Headers.parse
  simp only [Spliterator.collectC_fst]
  cases Spliterator.collect ((utf8 text).length + 2) (Spliterator.new (utf8 text) [13, 10]) with
  | panic => rfl
  | ok o =>
    cases o with
    | none => rfl
    | some l => simp only [Res.bind_ok', Headers.parseLoopC_fst]

theorem Headers.parseC_compared (faithful : Bool) (text : Str) :
    (Headers.parseC faithful text).2.compared ≤ 2 * (utf8 text).length := by
  have h := Spliterator.collectC_le ((utf8 text).length + 2) (utf8 text) ([13, 10] : Bytes)

  simp only [List.length_cons, List.length_nil] at h
  unfold Headers.parseC
  simp only [Spliterator.new]
  split <;> simpa using h

theorem addParsedC_eq (acc : Headers) (hacc : acc.Ok) (h : Header) :
    Headers.addParsedC acc.parsed h =
      (utf8 ((joined (acc.raw.map hpair ++ [hpair h]) (lowered h.name)).getD [])).length := by
  have h1 := joined_snoc acc.raw h (asciiLower h.name)
  have h2 := hacc.2 (asciiLower h.name)
  unfold Headers.get at h2
  rw [List.map_append, if_pos rfl] at h1
  simp only [List.map_cons, List.map_nil] at h1
  rw [← asciiLower_eq, h1]
  unfold Headers.addParsedC
  rw [h2]
  cases joined (acc.raw.map hpair) (asciiLower h.name) <;> rfl

theorem Headers.Ok.snoc {acc : Headers} (hacc : acc.Ok) (hd : Header) :
    Headers.Ok { parsed := Headers.addParsed acc.parsed hd, raw := acc.raw ++ [hd] } := by
  refine ⟨uniq_addParsed hacc.1 hd, fun k => ?_⟩
  have h1 := get_addParsed acc.parsed hd k
  have h2 := hacc.2 k
  unfold Headers.get at h2 ⊢
  simp only
  rw [h1, h2, joined_snoc]

/-- What the loop writes: for the headers of the lines before the first bad one. -/
theorem parseLoopC_spec (faithful : Bool) (lines : List Str) (acc : Headers) (hacc : acc.Ok) :
    ∃ (hs : List Header) (tail : List (Option Header)), lines.map (Header.parse faithful) = hs.map some ++ tail ∧
      (tail = [] ∨ tail.head? = some none) ∧
      (Headers.parseLoopC faithful (lines.map utf8) acc).2
        = rewritten (acc.raw.map hpair) (hs.map hpair) := by
  induction lines generalizing acc with
  | nil => exact ⟨[], [], rfl, .inl rfl, rfl⟩
  | cons l lines ih =>
    simp only [List.map_cons]
    unfold Headers.parseLoopC
    rw [fromUtf8_utf8]
    simp only
    cases hp : Header.parse faithful l with
    | none => exact ⟨[], none :: lines.map (Header.parse faithful), rfl, .inr rfl, rfl⟩
    | some hd =>
      obtain ⟨hs, tail, h1, h2, h3⟩ := ih _ (hacc.snoc hd)
      refine ⟨hd :: hs, tail, by simp [h1], h2, ?_⟩
      simp only [List.map_append, List.map_cons, List.map_nil] at h3
      simp only [List.map_cons, rewritten, h3, addParsedC_eq acc hacc hd]
      rfl

theorem Headers.parseC_lines (faithful : Bool) (lines : List Str) (hne : lines ≠ [])
    (hl : ∀ l ∈ lines, ¬ Occurs l crlf) :
    ∃ (hs : List Header) (tail : List (Option Header)), lines.map (Header.parse faithful) = hs.map some ++ tail ∧
      (tail = [] ∨ tail.head? = some none) ∧
      (Headers.parseC faithful (crlf.intercalate lines)).2.written = rewritten [] (hs.map hpair) := by
  obtain ⟨hs, tail, h1, h2, h3⟩ := parseLoopC_spec faithful lines ⟨[], []⟩ Headers.Ok.nil
  refine ⟨hs, tail, h1, h2, ?_⟩
  unfold Headers.parseC
  simp only [Spliterator.collectC_fst]
  unfold Spliterator.new
  rw [collect_lines lines hne hl _ (Nat.le_refl _)]
  exact h3

/-! ### how much that is -/

theorem rewritten_append (seen a b : List (Str × Str)) :
    rewritten seen (a ++ b) = rewritten seen a + rewritten (seen ++ a) b := by
  induction a generalizing seen with
  | nil => simp [rewritten]
  | cons h a ih => simp [rewritten, ih, Nat.add_assoc]

theorem utf8_intercalate_le (vs : List Str) :
    (utf8 (c!", ".intercalate vs)).length ≤ (vs.map fun v => (utf8 v).length + 2).sum := by
  induction vs with
  | nil => simp [List.intercalate]
  | cons v vs ih =>
    cases vs with
    | nil => simp [List.intercalate]
    | cons w vs =>
      rw [intercalate_cons_cons, utf8_append, utf8_append]
      have h2 : (utf8 c!", ").length = 2 := by decide
      simp only [List.length_append, h2, List.map_cons, List.sum_cons] at ih ⊢
      omega

/-- the bytes of the values and of as many separators -/
def weight (hs : List (Str × Str)) : Nat := (hs.map fun h => (utf8 h.2).length + 2).sum

theorem weight_append (a b : List (Str × Str)) : weight (a ++ b) = weight a + weight b := by
  simp [weight]

theorem weight_filter_le (p : Str × Str → Bool) (hs : List (Str × Str)) :
    weight (hs.filter p) ≤ weight hs := by
  induction hs with
  | nil => simp
  | cons h hs ih =>
    rw [List.filter_cons]
    unfold weight at ih ⊢
    split <;> simp only [List.map_cons, List.sum_cons] <;> omega

theorem joined_le (hs : List (Str × Str)) (k : Str) :
    (utf8 ((joined hs k).getD [])).length ≤ weight hs := by
  have h1 := weight_filter_le (fun h => decide (lowered h.1 = k)) hs
  have h2 := utf8_intercalate_le ((hs.filter fun h => lowered h.1 = k).map (·.2))
  unfold joined
  unfold weight at h1 ⊢
  rw [List.map_map] at h2
  split
  · simp
  · rename_i he
    simp only [Option.getD_some]
    exact Nat.le_trans h2 h1

theorem rewritten_le (seen hs : List (Str × Str)) :
    rewritten seen hs ≤ hs.length * weight (seen ++ hs) := by
  induction hs generalizing seen with
  | nil => simp [rewritten]
  | cons h hs ih =>
    have h1 := joined_le (seen ++ [h]) (lowered h.1)
    have h2 := ih (seen ++ [h])
    have h3 : weight (seen ++ [h]) ≤ weight (seen ++ [h] ++ hs) := by
      rw [weight_append (seen ++ [h])]; omega
    have e : seen ++ [h] ++ hs = seen ++ h :: hs := by simp
    rw [e] at h2 h3
    simp only [rewritten, List.length_cons, Nat.add_mul, Nat.one_mul]
    omega

theorem joined_fresh (seen : List (Str × Str)) (h : Str × Str)
    (hn : ∀ x ∈ seen, lowered x.1 ≠ lowered h.1) :
    joined (seen ++ [h]) (lowered h.1) = some h.2 := by
  have : seen.filter (fun x => decide (lowered x.1 = lowered h.1)) = [] := by
    rw [List.filter_eq_nil_iff]
    intro x hx
    simp [hn x hx]
  unfold joined
  rw [List.filter_append, this]
  simp [List.intercalate]

theorem rewritten_distinct (seen hs : List (Str × Str))
    (hd : (seen ++ hs).Pairwise fun a b => lowered a.1 ≠ lowered b.1) :
    rewritten seen hs = valueBytes hs := by
  induction hs generalizing seen with
  | nil => rfl
  | cons h hs ih =>
    have e : seen ++ h :: hs = seen ++ [h] ++ hs := by simp
    rw [e] at hd
    have h1 := ih (seen ++ [h]) hd
    have h2 := (List.pairwise_append.1 (List.pairwise_append.1 hd).1).2.2
    rw [rewritten, joined_fresh seen h fun x hx => h2 x hx h (by simp), h1]
    simp [valueBytes]

theorem intercalate_replicate_length (v : Str) (k : Nat) :
    (utf8 (c!", ".intercalate (List.replicate (k + 1) v))).length = (k + 1) * (utf8 v).length + 2 * k := by
  induction k with
  | zero => simp [List.intercalate]
  | succ k ih =>
    rw [List.replicate_succ, List.replicate_succ, intercalate_cons_cons, utf8_append, utf8_append,
      ← List.replicate_succ]
    have h2 : (utf8 c!", ").length = 2 := by decide
    simp only [List.length_append, h2, ih]
    grind

theorem joined_replicate (h : Str × Str) (k : Nat) :
    joined (List.replicate (k + 1) h) (lowered h.1) = some (c!", ".intercalate (List.replicate (k + 1) h.2)) := by
  unfold joined
  rw [List.filter_replicate_of_pos (by simp), List.map_replicate]
  simp [List.replicate_succ]

theorem rewritten_replicate (h : Str × Str) (k n : Nat) :
    2 * rewritten (List.replicate k h) (List.replicate n h) + 2 * n
      = n * (2 * k + n + 1) * (utf8 h.2).length + 2 * n * (2 * k + n) := by
  induction n generalizing k with
  | zero => simp [rewritten]
  | succ n ih =>
    have e : List.replicate k h ++ [h] = List.replicate (k + 1) h := by
      rw [List.replicate_succ']
    have h1 := ih (k + 1)
    rw [List.replicate_succ, rewritten, e, joined_replicate, Option.getD_some,
      intercalate_replicate_length]
    generalize rewritten (List.replicate (k + 1) h) (List.replicate n h) = R at h1 ⊢
    generalize (utf8 h.2).length = m at h1 ⊢
    grind

/-! ### the bytes of the text -/

theorem utf8_intercalate_crlf (lines : List Str) (hne : lines ≠ []) :
    (lines.map fun l => (utf8 l).length + 2).sum = (utf8 (crlf.intercalate lines)).length + 2 := by
  induction lines with
  | nil => exact absurd rfl hne
  | cons l lines ih =>
    cases lines with
    | nil => simp [List.intercalate]
    | cons m lines =>
      have := ih (by simp)
      rw [intercalate_cons_cons, utf8_append, utf8_append, utf8_crlf]
      simp only [List.map_cons, List.sum_cons, List.length_append] at this ⊢
      have h2 : crlfB.length = 2 := rfl
      omega

theorem headerLine_value_le {faithful : Bool} {l : Str} {h : Header} (hp : Header.parse faithful l = some h) :
    (utf8 h.value).length ≤ (utf8 l).length := by
  obtain ⟨ws, e, -⟩ := (Header.parse_iff faithful l h).1 hp
  rw [e, utf8_append]
  simp

theorem weight_lines (faithful : Bool) (lines : List Str) (hs : List Header) (tail : List (Option Header))
    (h : lines.map (Header.parse faithful) = hs.map some ++ tail) :
    weight (hs.map hpair) ≤ (lines.map fun l => (utf8 l).length + 2).sum := by
  induction lines generalizing hs with
  | nil =>
    cases hs with
    | nil => simp [weight]
    | cons x hs => simp at h
  | cons l lines ih =>
    cases hs with
    | nil => simp [weight]
    | cons x hs =>
      simp only [List.map_cons, List.cons_append, List.cons.injEq] at h
      have h1 := ih hs h.2
      have h2 := headerLine_value_le h.1
      unfold weight at h1 ⊢
      simp only [List.map_cons, List.sum_cons, hpair] at h1 ⊢
      omega

theorem valueBytes_weight (hs : List (Str × Str)) : weight hs = valueBytes hs + 2 * hs.length := by
  induction hs with
  | nil => rfl
  | cons h hs ih =>
    unfold weight valueBytes at ih ⊢
    simp only [List.map_cons, List.sum_cons, List.length_cons]
    omega

end Octane
