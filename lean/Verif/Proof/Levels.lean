import Verif.Model.Levels
import Verif.Proof.Size
/-
Helper lemmas for C171.
-/
namespace Octane
open Spec
universe u v
variable {T : Type u}
namespace PathNode

theorem drops_le {n : PathNode T} (h : Shape n) : ∀ d, drops n ≤ d ↔
    (∀ ks ∈ nodeKeys n, ks.length + 1 ≤ d) ∧ ∀ ks ∈ leafKeys n, ks.length + 2 ≤ d := by
  refine h.rec_list
    (P := fun n => ∀ d, drops n ≤ d ↔ (∀ ks ∈ nodeKeys n, ks.length + 1 ≤ d) ∧ ∀ ks ∈ leafKeys n, ks.length + 2 ≤ d)
    (Q := fun m => ∀ d, dropsL m ≤ d ↔ (∀ ks ∈ nodeKeysL m, ks.length ≤ d) ∧ ∀ ks ∈ leafKeysL m, ks.length + 1 ≤ d)
    ?_ ?_ ?_ ?_
  · intro m _ h d
    simp only [drops, nodeKeys, leafKeys, List.mem_cons, forall_eq_or_imp, List.length_nil, Nat.zero_add]
    cases d with
    | zero => simp
    | succ d =>
      have e : 1 + dropsL m ≤ d + 1 ↔ dropsL m ≤ d := by omega
      rw [e, h d]
      simp
  · intro d; simp [dropsL, nodeKeysL, leafKeysL]
  · intro l m h d
    simp only [dropsL, drops, nodeKeysL, leafKeysL, List.nil_append, List.cons_append, List.mem_cons, forall_eq_or_imp,
      List.length_nil, Nat.max_le, h d]
    exact ⟨fun ⟨a, b, c⟩ => ⟨b, by omega, c⟩, fun ⟨b, a, c⟩ => ⟨by omega, b, c⟩⟩
  · intro a n m _ hn hm _ d
    rw [nodeKeysL_cons_key, leafKeysL_cons_key, dropsL, Nat.max_le, hn d, hm d]
    simp only [List.mem_append, List.mem_map]
    constructor
    · rintro ⟨⟨h1, h2⟩, h3, h4⟩
      refine ⟨?_, ?_⟩
      · rintro ks (⟨x, hx, rfl⟩ | hx)
        · exact h1 x hx
        · exact h3 ks hx
      · rintro ks (⟨x, hx, rfl⟩ | hx)
        · exact h2 x hx
        · exact h4 ks hx
    · rintro ⟨h1, h2⟩
      exact ⟨⟨fun x hx => h1 _ (.inl ⟨x, hx, rfl⟩), fun x hx => h2 _ (.inl ⟨x, hx, rfl⟩)⟩,
        fun x hx => h1 _ (.inr hx), fun x hx => h2 _ (.inr hx)⟩

theorem levels_le {n : PathNode T} (h : Shape n) : ∀ d, levels n ≤ d ↔ ∀ ks ∈ nodeKeys n, ks.length + 1 ≤ d := by
  refine h.rec_list
    (P := fun n => ∀ d, levels n ≤ d ↔ ∀ ks ∈ nodeKeys n, ks.length + 1 ≤ d)
    (Q := fun m => ∀ d, levelsL m ≤ d ↔ ∀ ks ∈ nodeKeysL m, ks.length ≤ d) ?_ ?_ ?_ ?_
  · intro m _ h d
    simp only [levels, nodeKeys, List.mem_cons, forall_eq_or_imp, List.length_nil, Nat.zero_add]
    cases d with
    | zero => simp
    | succ d =>
      have e : 1 + levelsL m ≤ d + 1 ↔ levelsL m ≤ d := by omega
      rw [e, h d]
      simp
  · intro d; simp [levelsL, nodeKeysL]
  · intro l m h d
    simp [levelsL, levels, nodeKeysL, h d]
  · intro a n m _ hn hm _ d
    rw [nodeKeysL_cons_key, levelsL, Nat.max_le, hn d, hm d]
    simp only [List.mem_append, List.mem_map]
    constructor
    · rintro ⟨h1, h3⟩ ks (⟨x, hx, rfl⟩ | hx)
      · exact h1 x hx
      · exact h3 ks hx
    · intro h1
      exact ⟨fun x hx => h1 _ (.inl ⟨x, hx, rfl⟩), fun x hx => h1 _ (.inr hx)⟩

theorem levels_of_mem {m : List (PathChunk × PathNode T)} {k : PathChunk} {v : PathNode T} (h : (k, v) ∈ m) :
    levels v ≤ levelsL m := by
  induction m with
  | nil => cases h
  | cons e m ih =>
    obtain ⟨k', n⟩ := e
    rw [levelsL]
    rcases List.mem_cons.1 h with h | h
    · cases h; omega
    · have := ih h; omega

/-- the trees still to be visited fit under `d` -/
def Fits (d : Nat) : List (List (PathNode T)) → Prop
  | [] => True
  | top :: below => below.length + 1 ≤ d ∧ (∀ v ∈ top, below.length + 1 + levels v ≤ d) ∧ Fits d below

theorem Fits.length {d : Nat} {st : List (List (PathNode T))} (h : Fits d st) : st.length ≤ d := by
  cases st with
  | nil => simp
  | cons a st => exact h.1

theorem Fits.push {d : Nat} {n : List (PathChunk × PathNode T)} {top : List (PathNode T)}
    {below : List (List (PathNode T))} (h : Fits d ((.node n :: top) :: below)) (es : List (PathChunk × PathNode T))
    (hp : es.Perm n) : Fits d (es.map (·.2) :: top :: below) := by
  have h0 := h.2.1 (.node n) (by simp)
  rw [levels] at h0
  refine ⟨by simp only [List.length_cons]; omega, fun v hv => ?_, h.1, fun v hv => h.2.1 v (by simp [hv]), h.2.2⟩
  obtain ⟨⟨k, w⟩, he, rfl⟩ := List.mem_map.1 hv
  have := levels_of_mem (hp.mem_iff.1 he)
  simp only [List.length_cons]
  omega

theorem Fits.root {n : List (PathChunk × PathNode T)} (es : List (PathChunk × PathNode T)) (hp : es.Perm n) :
    Fits (levels (.node n)) [es.map (·.2)] := by
  refine ⟨by simp [levels], fun v hv => ?_, trivial⟩
  obtain ⟨⟨k, w⟩, he, rfl⟩ := List.mem_map.1 hv
  have := levels_of_mem (hp.mem_iff.1 he)
  simp only [List.length_nil, levels]
  omega

theorem owned_fits {ord : Order T} (hord : ∀ t m, (ord t m).Perm m) {d : Nat} :
    ∀ (k : Nat) (it it' : OwnedIter T), Fits d it.stack → after (OwnedIter.step ord) k it = some it' → Fits d it'.stack := by
  intro k
  induction k with
  | zero => intro it it' h e; rw [after, Option.some.injEq] at e; subst e; exact h
  | succ k ih =>
    intro it it' h e
    obtain ⟨stack, curvec, time⟩ := it
    have rest : ∀ s', (match stack with
        | [] => (IterStep.done : IterStep (OwnedIter T) (PathData T))
        | top :: below =>
          match top with
          | [] => .continue { stack := below, curvec := none, time := time }
          | v :: top' =>
            match v with
            | .node n => .continue { stack := (ord time n).map (fun e : PathChunk × PathNode T => e.2) :: top' :: below, curvec := none, time := time + 1 }
            | .leaf l => .continue { stack := top' :: below, curvec := some l, time := time }) = .continue s' →
        Fits d s'.stack := by
      intro s' hs
      split at hs
      · cases hs
      · split at hs
        · injection hs with hs; subst hs; exact h.2.2
        · split at hs
          · injection hs with hs; subst hs; exact h.push _ (hord _ _)
          · injection hs with hs; subst hs
            exact ⟨h.1, fun v hv => h.2.1 v (by simp [hv]), h.2.2⟩
    rw [after] at e
    split at e
    · rename_i a s' hs
      refine ih s' it' ?_ e
      unfold OwnedIter.step at hs
      dsimp only at hs
      repeat' split at hs
      all_goals first | (injection hs with _ hs; subst hs; exact h) | cases hs
    · rename_i s' hs
      refine ih s' it' ?_ e
      unfold OwnedIter.step at hs
      dsimp only at hs
      cases hc : curvec with
      | none => rw [hc] at hs; exact rest s' hs
      | some v =>
        rw [hc] at hs
        cases hl : v.getLast? with
        | none => simp only [hl] at hs; exact rest s' hs
        | some x => simp only [hl] at hs; cases hs
    · cases e

theorem ref_fits {ord : Order T} (hord : ∀ t m, (ord t m).Perm m) {d : Nat} :
    ∀ (k : Nat) (it it' : RefIter T), Fits d it.stack → after (RefIter.step ord) k it = some it' → Fits d it'.stack := by
  intro k
  induction k with
  | zero => intro it it' h e; rw [after, Option.some.injEq] at e; subst e; exact h
  | succ k ih =>
    intro it it' h e
    obtain ⟨stack, curvec, curind, time⟩ := it
    have rest : ∀ s', (match stack with
        | [] => (IterStep.done : IterStep (RefIter T) (PathData T))
        | top :: below =>
          match top with
          | [] => .continue { stack := below, curvec := none, curind := 0, time := time }
          | v :: top' =>
            match v with
            | .node n =>
              .continue { stack := (ord time n).map (fun e : PathChunk × PathNode T => e.2) :: top' :: below, curvec := none, curind := 0, time := time + 1 }
            | .leaf l => .continue { stack := top' :: below, curvec := some l, curind := 0, time := time }) = .continue s' →
        Fits d s'.stack := by
      intro s' hs
      split at hs
      · cases hs
      · split at hs
        · injection hs with hs; subst hs; exact h.2.2
        · split at hs
          · injection hs with hs; subst hs; exact h.push _ (hord _ _)
          · injection hs with hs; subst hs
            exact ⟨h.1, fun v hv => h.2.1 v (by simp [hv]), h.2.2⟩
    rw [after] at e
    split at e
    · rename_i a s' hs
      refine ih s' it' ?_ e
      unfold RefIter.step at hs
      dsimp only at hs
      repeat' split at hs
      all_goals first | (injection hs with _ hs; subst hs; exact h) | cases hs
    · rename_i s' hs
      refine ih s' it' ?_ e
      unfold RefIter.step at hs
      dsimp only at hs
      cases hc : curvec with
      | none => rw [hc] at hs; exact rest s' hs
      | some v =>
        rw [hc] at hs
        cases hl : v[curind]? with
        | none => simp only [hl] at hs; exact rest s' hs
        | some x => simp only [hl] at hs; cases hs
    · cases e

theorem after_add {σ : Type u} {α : Type v} (step : σ → IterStep σ α) (j k : Nat) (s t : σ)
    (h : after step j s = some t) : after step (j + k) s = after step k t := by
  induction j generalizing s with
  | zero => rw [after, Option.some.injEq] at h; subst h; simp
  | succ j ih =>
    rw [Nat.add_right_comm, after]
    rw [after] at h
    cases hs : step s with
    | yield a s' => rw [hs] at h; exact ih s' h
    | «continue» s' => rw [hs] at h; exact ih s' h
    | done => rw [hs] at h; cases h

theorem exists_level (m : List (PathChunk × PathNode T)) (h : m ≠ []) : ∃ e ∈ m, levels e.2 = levelsL m := by
  induction m with
  | nil => exact absurd rfl h
  | cons e m ih =>
    obtain ⟨k, n⟩ := e
    rw [levelsL]
    by_cases hm : m = []
    · subst hm; exact ⟨(k, n), by simp, by simp [levelsL]⟩
    · obtain ⟨e, he, h1⟩ := ih hm
      rcases Nat.le_total (levels n) (levelsL m) with h2 | h2
      · exact ⟨e, by simp [he], by omega⟩
      · exact ⟨(k, n), by simp, by simp only; omega⟩

/-- what both iterators do: visit the trees on top one after the other -/
structure Visits {σ : Type u} (step : σ → IterStep σ (PathData T)) (stack : σ → List (List (PathNode T)))
    (Idle : σ → Prop) (ord : Order T) (time : σ → Nat) : Prop where
  pop : ∀ s below, Idle s → stack s = [] :: below → ∃ s', after step 1 s = some s' ∧ Idle s' ∧ stack s' = below
  push : ∀ s m top below, Idle s → stack s = (.node m :: top) :: below →
    ∃ s', after step 1 s = some s' ∧ Idle s' ∧ stack s' = (ord (time s) m).map (·.2) :: top :: below
  leaf : ∀ s l top below, Idle s → stack s = (.leaf l :: top) :: below →
    ∃ k s', after step k s = some s' ∧ Idle s' ∧ stack s' = top :: below

section
variable {σ : Type u} {step : σ → IterStep σ (PathData T)} {stack : σ → List (List (PathNode T))}
  {Idle : σ → Prop} {ord : Order T} {time : σ → Nat}

/-- the tree is visited, and the stack gets as high as it has levels -/
def Visited (step : σ → IterStep σ (PathData T)) (stack : σ → List (List (PathNode T))) (Idle : σ → Prop)
    (v : PathNode T) : Prop :=
  ∀ s top below, Idle s → stack s = (v :: top) :: below →
    (∃ k s', after step k s = some s' ∧ Idle s' ∧ stack s' = top :: below) ∧
    ∃ k s', after step k s = some s' ∧ (stack s').length = below.length + 1 + levels v

theorem visited_list (vs : List (PathNode T)) (h : ∀ v ∈ vs, Visited step stack Idle v) :
    ∀ s below, Idle s → stack s = vs :: below →
      (∃ k s', after step k s = some s' ∧ Idle s' ∧ stack s' = [] :: below) ∧
      ∀ v ∈ vs, ∃ k s', after step k s = some s' ∧ (stack s').length = below.length + 1 + levels v := by
  induction vs with
  | nil => intro s below hi hs; exact ⟨⟨0, s, rfl, hi, hs⟩, by simp⟩
  | cons v vs ih =>
    intro s below hi hs
    obtain ⟨⟨k, s', h1, h2, h3⟩, h4⟩ := h v (by simp) s vs below hi hs
    obtain ⟨⟨k', s'', g1, g2, g3⟩, g4⟩ := ih (fun w hw => h w (by simp [hw])) s' below h2 h3
    refine ⟨⟨k + k', s'', by rw [after_add step k k' s s' h1, g1], g2, g3⟩, fun w hw => ?_⟩
    rcases List.mem_cons.1 hw with rfl | hw
    · exact h4
    · obtain ⟨j, t, e1, e2⟩ := g4 w hw
      exact ⟨k + j, t, by rw [after_add step k j s s' h1, e1], e2⟩

theorem visited (hv : Visits step stack Idle ord time) (hord : ∀ t m, (ord t m).Perm m) :
    ∀ (n : Nat) (v : PathNode T), weight v ≤ n → Visited step stack Idle v := by
  have wmem : ∀ (m : List (PathChunk × PathNode T)) (k : PathChunk) (v : PathNode T), (k, v) ∈ m →
      weight v ≤ weightL m := by
    intro m k v h
    induction m with
    | nil => cases h
    | cons e m ih =>
      obtain ⟨k', n⟩ := e
      rw [weightL]
      rcases List.mem_cons.1 h with h | h
      · cases h; omega
      · have := ih h; omega
  intro n
  induction n with
  | zero => intro v h; cases v <;> simp [weight] at h
  | succ n ih =>
    intro v hw s top below hi hs
    cases v with
    | leaf l =>
      exact ⟨hv.leaf s l top below hi hs, 0, s, rfl, by rw [hs]; simp [levels]⟩
    | node m =>
      obtain ⟨s1, a1, a2, a3⟩ := hv.push s m top below hi hs
      have hmem : ∀ v ∈ (ord (time s) m).map (·.2), Visited step stack Idle v := by
        intro v hv'
        obtain ⟨⟨k, w⟩, he, rfl⟩ := List.mem_map.1 hv'
        have := wmem m k w ((hord _ _).mem_iff.1 he)
        rw [weight] at hw
        exact ih w (by omega)
      obtain ⟨⟨k, s2, b1, b2, b3⟩, b4⟩ := visited_list _ hmem s1 (top :: below) a2 a3
      obtain ⟨s3, c1, c2, c3⟩ := hv.pop s2 (top :: below) b2 b3
      refine ⟨⟨1 + (k + 1), s3, ?_, c2, c3⟩, ?_⟩
      · rw [after_add step 1 _ s s1 a1, after_add step k 1 s1 s2 b1, c1]
      · by_cases hm : m = []
        · exact ⟨1, s1, a1, by rw [a3, hm]; simp [levels, levelsL]⟩
        · obtain ⟨e, he, h1⟩ := exists_level m hm
          obtain ⟨j, t, e1, e2⟩ := b4 e.2 (List.mem_map.2 ⟨e, (hord _ _).mem_iff.2 he, rfl⟩)
          refine ⟨1 + j, t, by rw [after_add step 1 j s s1 a1, e1], ?_⟩
          rw [e2, h1, levels, List.length_cons]
          omega

/-- from the root on the stack gets as high as there are levels -/
theorem visited_root (hv : Visits step stack Idle ord time) (hord : ∀ t m, (ord t m).Perm m)
    (m : List (PathChunk × PathNode T)) (s : σ) (t : Nat) (hi : Idle s) (hs : stack s = [(ord t m).map (·.2)]) :
    ∃ k s', after step k s = some s' ∧ (stack s').length = levels (.node m) := by
  by_cases hm : m = []
  · exact ⟨0, s, rfl, by rw [hs, hm]; simp [levels, levelsL]⟩
  · obtain ⟨e, he, h1⟩ := exists_level m hm
    obtain ⟨-, h2⟩ := visited_list _ (fun v _ => visited hv hord _ v (Nat.le_refl _)) s [] hi hs
    obtain ⟨k, s', e1, e2⟩ := h2 e.2 (List.mem_map.2 ⟨e, (hord _ _).mem_iff.2 he, rfl⟩)
    exact ⟨k, s', e1, by rw [e2, h1, levels]; simp⟩

end

/-- the leaf has been taken -/
def OwnedIter.Idle (it : OwnedIter T) : Prop := it.curvec = none ∨ it.curvec = some []

theorem owned_visits (ord : Order T) : Visits (OwnedIter.step ord) OwnedIter.stack OwnedIter.Idle ord OwnedIter.time where
  pop := by
    rintro ⟨st, cv, t⟩ below hi hs
    simp only at hs
    subst hs
    refine ⟨⟨below, none, t⟩, ?_, .inl rfl, rfl⟩
    rcases hi with h | h <;> (simp only at h; subst h; rfl)
  push := by
    rintro ⟨st, cv, t⟩ m top below hi hs
    simp only at hs
    subst hs
    refine ⟨⟨(ord t m).map (·.2) :: top :: below, none, t + 1⟩, ?_, .inl rfl, rfl⟩
    rcases hi with h | h <;> (simp only at h; subst h; rfl)
  leaf := by
    rintro ⟨st, cv, t⟩ l top below hi hs
    simp only at hs
    subst hs
    have h1 : after (OwnedIter.step ord) 1 ⟨(.leaf l :: top) :: below, cv, t⟩ = some ⟨top :: below, some l, t⟩ := by
      rcases hi with h | h <;> (simp only at h; subst h; rfl)
    have h2 : ∀ (n : Nat) (l : List (PathData T)), l.length = n →
        after (OwnedIter.step ord) n ⟨top :: below, some l, t⟩ = some ⟨top :: below, some [], t⟩ := by
      intro n
      induction n with
      | zero => intro l hl; rw [List.length_eq_zero_iff.1 hl]; rfl
      | succ n ih =>
        intro l hl
        have hne : l ≠ [] := by rintro rfl; simp at hl
        rw [after]
        simp only [OwnedIter.step, List.getLast?_eq_some_getLast hne]
        exact ih _ (by rw [List.length_dropLast, hl]; rfl)
    exact ⟨1 + l.length, _, by rw [after_add _ 1 _ _ _ h1, h2 _ l rfl], .inr rfl, rfl⟩

/-- the leaf has been gone through -/
def RefIter.Idle (it : RefIter T) : Prop := it.curvec = none ∨ ∃ l, it.curvec = some l ∧ l[it.curind]? = none

theorem ref_visits (ord : Order T) : Visits (RefIter.step ord) RefIter.stack RefIter.Idle ord RefIter.time where
  pop := by
    rintro ⟨st, cv, i, t⟩ below hi hs
    simp only at hs
    subst hs
    refine ⟨⟨below, none, 0, t⟩, ?_, .inl rfl, rfl⟩
    rcases hi with h | ⟨l, h, h'⟩
    · simp only at h; subst h; rfl
    · simp only at h h'; subst h; simp [after, RefIter.step, h']
  push := by
    rintro ⟨st, cv, i, t⟩ m top below hi hs
    simp only at hs
    subst hs
    refine ⟨⟨(ord t m).map (·.2) :: top :: below, none, 0, t + 1⟩, ?_, .inl rfl, rfl⟩
    rcases hi with h | ⟨l, h, h'⟩
    · simp only at h; subst h; rfl
    · simp only at h h'; subst h; simp [after, RefIter.step, h']
  leaf := by
    rintro ⟨st, cv, i, t⟩ l top below hi hs
    simp only at hs
    subst hs
    have h1 : after (RefIter.step ord) 1 ⟨(.leaf l :: top) :: below, cv, i, t⟩ = some ⟨top :: below, some l, 0, t⟩ := by
      rcases hi with h | ⟨l', h, h'⟩
      · simp only at h; subst h; rfl
      · simp only at h h'; subst h; simp [after, RefIter.step, h']
    have h2 : ∀ n, n ≤ l.length →
        after (RefIter.step ord) n ⟨top :: below, some l, l.length - n, t⟩ = some ⟨top :: below, some l, l.length, t⟩ := by
      intro n
      induction n with
      | zero => intro _; rfl
      | succ n ih =>
        intro hl
        have hlt : l.length - (n + 1) < l.length := by omega
        rw [after]
        simp only [RefIter.step, List.getElem?_eq_getElem hlt]
        have : l.length - (n + 1) + 1 = l.length - n := by omega
        rw [this]
        exact ih (by omega)
    have h3 := h2 l.length (Nat.le_refl _)
    rw [Nat.sub_self] at h3
    exact ⟨1 + l.length, _, by rw [after_add _ 1 _ _ _ h1, h3], .inr ⟨l, rfl, by simp⟩, rfl⟩

end PathNode
end Octane
