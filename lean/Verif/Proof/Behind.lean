import Verif.Spec.Behind
import Verif.Proof.Meet
/-
Helper lemmas for C159_behind.
-/
namespace Octane
open Spec Query
universe u
variable {W : Type u} {S : Type u}

theorem common_length (p q : PathBuf) (h : p.length = q.length) : (common p q).length = p.length := by
  induction p generalizing q with
  | nil => rfl
  | cons a p ih =>
    cases q with
    | nil => simp at h
    | cons b q => simp only [common, List.length_cons, ih q (by simpa using h)]

theorem common_getElem (p q : PathBuf) (i : Nat) (c : Str) (h : (common p q)[i]? = some c) :
    ∃ a b, p[i]? = some a ∧ q[i]? = some b ∧ c = if IsVar a then b else a := by
  induction p generalizing q i with
  | nil => simp [common] at h
  | cons a p ih =>
    cases q with
    | nil => simp [common] at h
    | cons b q =>
      cases i with
      | zero => exact ⟨a, b, rfl, rfl, by simpa [common] using h.symm⟩
      | succ i => simpa using ih q i (by simpa [common] using h)

theorem common_mem {p q : PathBuf} {c : Str} (h : c ∈ common p q) : c ∈ p ∨ c ∈ q := by
  obtain ⟨i, hi⟩ := List.mem_iff_getElem?.1 h
  obtain ⟨a, b, h1, h2, rfl⟩ := common_getElem p q i c hi
  split
  · exact .inr (List.mem_of_getElem? h2)
  · exact .inl (List.mem_of_getElem? h1)

theorem common_askable {uv : Bool} {p q : PathBuf} (hp : Askable uv p) (hq : Askable uv q) : Askable uv (common p q) :=
  fun c hc => (common_mem hc).elim (hp c) (hq c)

theorem common_general {uv : Bool} {p q : PathBuf} (hp : Askable uv p) (hq : Askable uv q) (h : Overlap uv p q) :
    General uv p (common p q) ∧ General uv q (common p q) := by
  refine ⟨⟨(common_length p q h.1).symm, fun i a c ha hc => ?_⟩,
    ⟨by rw [common_length p q h.1, h.1], fun i b c hb hc => ?_⟩⟩
  · obtain ⟨a', b, h1, h2, h3⟩ := common_getElem p q i c hc
    rw [ha] at h1
    injection h1 with h1
    subst h1
    by_cases hv : IsVar a
    · rcases hp a (List.mem_of_getElem? ha) with ⟨h4, -⟩ | ⟨h4, -⟩
      · exact .inl ⟨h4, hv⟩
      · exact absurd hv h4
    · rw [if_neg hv] at h3; exact .inr ⟨hv, h3.symm⟩
  · obtain ⟨a, b', h1, h2, h3⟩ := common_getElem p q i c hc
    rw [hb] at h2
    injection h2 with h2
    subst h2
    by_cases hv : IsVar b
    · rcases hq b (List.mem_of_getElem? hb) with ⟨h4, -⟩ | ⟨h4, -⟩
      · exact .inl ⟨h4, hv⟩
      · exact absurd hv h4
    · refine .inr ⟨hv, ?_⟩
      by_cases hva : IsVar a
      · rw [if_pos hva] at h3; exact h3.symm
      · rw [if_neg hva] at h3
        rcases h.2 i a b h1 hb with ⟨-, h4 | h4⟩ | h4
        · exact absurd h4 hva
        · exact absurd h4 hv
        · rw [h3, h4]

theorem common_matches {uv : Bool} {p q path : PathBuf} (h1 : PatMatch uv p path) (h2 : PatMatch uv q path) :
    PatMatch uv (common p q) path := by
  cases uv with
  | true =>
    simp only [PatMatch, if_true] at h1 h2 ⊢
    refine ⟨by rw [common_length p q (h1.1.trans h2.1.symm), h1.1], fun i c x hc hx => ?_⟩
    obtain ⟨a, b, g1, g2, rfl⟩ := common_getElem p q i c hc
    split
    · exact h2.2 i b x g2 hx
    · exact h1.2 i a x g1 hx
  | false =>
    simp only [PatMatch, Bool.false_eq_true, if_false] at h1 h2 ⊢
    obtain ⟨rfl, h1⟩ := h1
    obtain ⟨rfl, -⟩ := h2
    have : ∀ x : PathBuf, (∀ b ∈ x, ¬ IsVar b) → common x x = x := by
      intro x hx
      induction x with
      | nil => rfl
      | cons a x ih => rw [common, if_neg (hx a (by simp)), ih fun b hb => hx b (List.mem_cons_of_mem _ hb)]
    rw [this _ h1]
    exact ⟨rfl, h1⟩

/-! ### registrations -/

theorem Target.common_applies {uv : Bool} {t u : Target} {m : RequestMethod} {path : PathBuf}
    (h1 : t.applies uv m path = true) (h2 : u.applies uv m path = true) : (t.common u).applies uv m path = true := by
  cases t <;> cases u <;>
    simp only [Target.applies, Bool.and_eq_true, decide_eq_true_eq, Target.common] at h1 h2 ⊢
  · exact ⟨h1.1, common_matches h1.2 h2.2⟩
  · exact ⟨h1.1, common_matches h1.2 h2⟩
  · exact h1
  · exact ⟨h2.1, common_matches h1 h2.2⟩
  · exact common_matches h1 h2
  · exact h1
  · exact h2
  · exact h2

theorem Target.common_of_meets {uv : Bool} {t u : Target} (h : t.Meets uv u) :
    (t.common u).Askable uv ∧ t.General uv (t.common u) ∧ u.General uv (t.common u) ∧
      ∀ m, (t.common u).IsFor m → t.IsFor m ∧ u.IsFor m := by
  obtain ⟨h1, h2, ⟨name, m, -, f1, f2⟩, h3⟩ := h
  have self : ∀ p : PathBuf, Spec.Askable uv p → General uv p p := by
    intro p hp
    refine ⟨rfl, fun i a b ha hb => ?_⟩
    rw [ha] at hb
    injection hb with hb
    rcases hp a (List.mem_of_getElem? ha) with h | h
    · exact .inl h
    · exact .inr ⟨h.1, hb⟩
  cases t with
  | everywhere =>
    cases u with
    | everywhere => exact ⟨trivial, trivial, trivial, fun m h => ⟨trivial, trivial⟩⟩
    | on m' q => exact ⟨h2, trivial, self q h2, fun m h => ⟨trivial, h⟩⟩
    | anyMethod q => exact ⟨h2, trivial, self q h2, fun m h => ⟨trivial, trivial⟩⟩
  | on m' p =>
    cases u with
    | everywhere => exact ⟨h1, self p h1, trivial, fun m h => ⟨h, trivial⟩⟩
    | on m'' q =>
      have e1 : m' = m := f1
      have e2 : m'' = m := f2
      refine ⟨common_askable h1 h2, (common_general h1 h2 h3).1, (common_general h1 h2 h3).2, fun m0 h => ?_⟩
      have e3 : m' = m0 := h
      exact ⟨e3, show m'' = m0 by rw [e2, ← e1, e3]⟩
    | anyMethod q =>
      exact ⟨common_askable h1 h2, (common_general h1 h2 h3).1, (common_general h1 h2 h3).2, fun m0 h => ⟨h, trivial⟩⟩
  | anyMethod p =>
    cases u with
    | everywhere => exact ⟨h1, self p h1, trivial, fun m h => ⟨trivial, trivial⟩⟩
    | on m'' q =>
      exact ⟨common_askable h1 h2, (common_general h1 h2 h3).1, (common_general h1 h2 h3).2, fun m0 h => ⟨trivial, h⟩⟩
    | anyMethod q =>
      exact ⟨common_askable h1 h2, (common_general h1 h2 h3).1, (common_general h1 h2 h3).2,
        fun m0 h => ⟨trivial, trivial⟩⟩

theorem Target.common_patOk {t u : Target} (ht : PatOk t) (hu : PatOk u) : PatOk (t.common u) := by
  have key : ∀ p q : PathBuf, (∀ x ∈ p, x ≠ [] ∧ x ≠ ['.'] ∧ x ≠ ['.', '.'] ∧ '/' ∉ x) →
      (∀ x ∈ q, x ≠ [] ∧ x ≠ ['.'] ∧ x ≠ ['.', '.'] ∧ '/' ∉ x) →
      ∀ x ∈ common p q, x ≠ [] ∧ x ≠ ['.'] ∧ x ≠ ['.', '.'] ∧ '/' ∉ x :=
    fun p q hp hq x hx => (common_mem hx).elim (hp x) (hq x)
  cases t <;> cases u
  case on.on => exact key _ _ ht hu
  case on.anyMethod => exact key _ _ ht hu
  case anyMethod.on => exact key _ _ ht hu
  case anyMethod.anyMethod => exact key _ _ ht hu
  all_goals first | exact ht | exact hu

theorem segOk_xs (n : Nat) (hn : 0 < n) : SegOk (List.replicate n 'x') := by
  have hall : ∀ c ∈ List.replicate n 'x', c = 'x' := fun c hc => List.eq_of_mem_replicate hc
  have hx : 'x' ∈ List.replicate n 'x' := List.mem_replicate.2 ⟨by omega, rfl⟩
  exact ⟨fun e => by simp [e] at hx, fun e => by simp [e] at hx, fun e => by simp [e] at hx,
    fun h => absurd (hall _ h) (by decide), fun h => absurd (hall _ h) (by decide),
    no_crlf_of_no_cr fun h => absurd (hall _ h) (by decide)⟩

theorem askFor_segOk {uv : Bool} {t : Target} (n : Nat) (hn : 0 < n) (ha : t.Askable uv) (hp : PatOk t) :
    ∀ x ∈ askFor n t, SegOk x := by
  have key : ∀ p : PathBuf, Spec.Askable uv p → (∀ x ∈ p, x ≠ [] ∧ x ≠ ['.'] ∧ x ≠ ['.', '.'] ∧ '/' ∉ x) →
      ∀ x ∈ instOf n p, SegOk x := by
    intro p hask hpat x hx
    unfold instOf at hx
    obtain ⟨b, hb, rfl⟩ := List.mem_map.1 hx
    split
    · exact segOk_xs n hn
    · rename_i hv
      exact segOk_of hask hpat hb hv
  cases t with
  | on m p => exact key p ha hp
  | anyMethod p => exact key p ha hp
  | everywhere =>
    intro x hx
    rw [List.eq_of_mem_replicate hx]
    exact segOk_xs n hn

end Octane
