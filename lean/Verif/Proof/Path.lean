import Verif.Model.Path
import Verif.Spec.Path
import Verif.Proof.Basic
/-
Lemmas about paths and patterns.
-/
namespace Octane
namespace Path
open Spec

theorem parseLoop_append (init : PathBuf) (a b : List Str) :
    parseLoop init (a ++ b) = (parseLoop init a).bind fun p => parseLoop p b := by
  induction a generalizing init with
  | nil => simp [parseLoop]
  | cons c a ih =>
    simp only [List.cons_append, parseLoop]
    cases parseStep init c with
    | none => simp
    | some p => simp [ih]

theorem parseStep_trivial {p : PathBuf} {c : Str} (h : c = [] ∨ c = ['.']) :
    parseStep p c = some p := by simp [parseStep, h]

/-- every name in the accumulated list is normal -/
theorem parseLoop_normal {init p : PathBuf} {segs : List Str}
    (h : parseLoop init segs = some p) (hi : ∀ s ∈ init, NormalSegment s)
    (hs : ∀ s ∈ segs, '/' ∉ s) : ∀ s ∈ p, NormalSegment s := by
  induction segs generalizing init with
  | nil => simp [parseLoop] at h; subst h; exact hi
  | cons c cs ih =>
    unfold parseLoop at h
    split at h
    · simp at h
    · rename_i init' hstep
      refine ih h ?_ (fun s hs' => hs s (List.mem_cons_of_mem _ hs'))
      unfold parseStep at hstep
      split at hstep
      · cases hstep; exact hi
      · rename_i h1
        split at hstep
        · split at hstep
          · simp at hstep
          · cases hstep
            exact fun s hs' => hi s (List.dropLast_subset _ hs')
        · rename_i h2
          cases hstep
          intro s hs'
          rcases List.mem_append.1 hs' with h' | h'
          · exact hi s h'
          · have : s = c := by simpa using h'
            subst this
            simp only [not_or] at h1
            exact ⟨h1.1, h1.2, h2, hs s (by simp)⟩

theorem parse_normal {s : Str} {p : PathBuf} (h : parse s = some p) :
    ∀ c ∈ p, NormalSegment c :=
  parseLoop_normal h (by simp) (splitChar_not_mem '/' s)

theorem parseStep_name {p : PathBuf} {c : Str} (h : NormalSegment c) :
    parseStep p c = some (p ++ [c]) := by
  simp [parseStep, h.1, h.2.1, h.2.2.1]

theorem parseLoop_names (init p : PathBuf) (h : ∀ c ∈ p, NormalSegment c) :
    parseLoop init p = some (init ++ p) := by
  induction p generalizing init with
  | nil => simp [parseLoop]
  | cons c p ih =>
    simp only [parseLoop, parseStep_name (h c (by simp))]
    rw [ih _ (fun x hx => h x (List.mem_cons_of_mem _ hx))]
    simp

theorem splitChar_display (p : PathBuf) (h : ∀ c ∈ p, '/' ∉ c) :
    splitChar '/' (display p) = p ++ [[]] := by
  induction p with
  | nil => simp [display]
  | cons c p ih =>
    have h1 : display (c :: p) = c ++ '/' :: display p := by simp [display]
    rw [h1, splitChar_append_of_not_mem (h c (by simp)),
      ih (fun x hx => h x (List.mem_cons_of_mem _ hx))]
    rfl

theorem parse_display {p : PathBuf} (h : ∀ c ∈ p, NormalSegment c) : parse (display p) = some p := by
  unfold parse
  rw [splitChar_display p (fun c hc => (h c hc).2.2.2), parseLoop_append, parseLoop_names _ _ h]
  simp [parseLoop, parseStep]

theorem parse_join {segs : List Str} (hne : segs ≠ []) (h : ∀ s ∈ segs, '/' ∉ s) :
    parse (['/'].intercalate segs) = parseLoop [] segs := by
  rw [parse, splitChar_join hne h]

/-! ### resolution -/

/-- right-to-left resolution with `up` pending `..` and a stack of names to its left -/
theorem survivorsRev_stack (up : Nat) (stack : List Str) (h : ∀ s ∈ stack, NormalSegment s) :
    survivorsRev up stack = stack.drop up := by
  induction stack generalizing up with
  | nil => simp [survivorsRev]
  | cons s stack ih =>
    have hs := h s (by simp)
    have h1 : isUp s = false := by simp [isUp, hs.2.2.1]
    have h2 : isName s = true := by simp [isName, hs.1, hs.2.1, hs.2.2.1]
    have ih' := fun up => ih up (fun x hx => h x (List.mem_cons_of_mem _ hx))
    cases up with
    | zero => simp [survivorsRev, h1, h2, ih']
    | succ up => simp [survivorsRev, h1, h2, ih']

theorem survivorsRev_append (l : List Str) (up : Nat) :
    ∃ up' out, ∀ r, survivorsRev up (l ++ r) = out ++ survivorsRev up' r := by
  induction l generalizing up with
  | nil => exact ⟨up, [], fun r => by simp⟩
  | cons s l ih =>
    by_cases h1 : isUp s = true
    · obtain ⟨u, o, h⟩ := ih (up + 1)
      exact ⟨u, o, fun r => by simp [survivorsRev, h1, h]⟩
    · by_cases h2 : isName s = true
      · cases up with
        | zero =>
          obtain ⟨u, o, h⟩ := ih 0
          exact ⟨u, s :: o, fun r => by simp [survivorsRev, h1, h2, h]⟩
        | succ up =>
          obtain ⟨u, o, h⟩ := ih up
          exact ⟨u, o, fun r => by simp [survivorsRev, h1, h2, h]⟩
      · obtain ⟨u, o, h⟩ := ih up
        exact ⟨u, o, fun r => by simp [survivorsRev, h1, h2, h]⟩

/-- If the loop succeeds, its result is the survivors of `init ++ segs`. -/
theorem parseLoop_resolve {init p : PathBuf} {segs : List Str}
    (h : parseLoop init segs = some p) (hi : ∀ s ∈ init, NormalSegment s)
    (hs : ∀ s ∈ segs, '/' ∉ s) : p = resolve (init ++ segs) := by
  induction segs generalizing init with
  | nil =>
    simp [parseLoop] at h
    subst h
    rw [List.append_nil, resolve, survivorsRev_stack _ _ (by simpa using hi)]
    simp
  | cons c cs ih =>
    have hcs := fun s hs' => hs s (List.mem_cons_of_mem _ hs')
    unfold parseLoop at h
    split at h
    · simp at h
    · rename_i init' hstep
      unfold parseStep at hstep
      split at hstep
      · rename_i h1
        cases hstep
        rw [ih h hi hcs]
        obtain ⟨u, o, ho⟩ := survivorsRev_append cs.reverse 0
        have h1u : isUp c = false := by rcases h1 with rfl | rfl <;> rfl
        have h1n : isName c = false := by rcases h1 with rfl | rfl <;> rfl
        simp [resolve, ho, survivorsRev, h1u, h1n]
      · split at hstep
        · rename_i h2
          subst h2
          split at hstep
          · simp at hstep
          · rename_i x hx
            cases hstep
            have hd : ∀ s ∈ init.dropLast, NormalSegment s :=
              fun s hs' => hi s (List.dropLast_subset _ hs')
            rw [ih h hd hcs]
            obtain ⟨u, o, ho⟩ := survivorsRev_append cs.reverse 0
            have hu : isUp ['.', '.'] = true := rfl
            simp only [resolve, List.reverse_append, List.reverse_cons, List.append_assoc, ho,
              List.cons_append, List.nil_append, survivorsRev, hu, if_true]
            rw [survivorsRev_stack _ _ (by simpa using hd), survivorsRev_stack _ _ (by simpa using hi)]
            have : init.dropLast.reverse = init.reverse.drop 1 := by
              simp
            rw [this, List.drop_drop, Nat.add_comm]
        · rename_i h1 h2
          cases hstep
          have hn : NormalSegment c := by
            simp only [not_or] at h1
            exact ⟨h1.1, h1.2, h2, hs c (by simp)⟩
          have hi' : ∀ s ∈ init ++ [c], NormalSegment s := by
            intro s hs'
            rcases List.mem_append.1 hs' with h' | h'
            · exact hi s h'
            · have : s = c := by simpa using h'
              rw [this]; exact hn
          rw [ih h hi' hcs]
          simp

/-- The loop fails exactly when `init ++ segs` climbs, for `init` consisting of names. -/
theorem parseLoop_none (init : PathBuf) (segs : List Str) :
    parseLoop init segs = none ↔
      ∃ k, init.length + ((segs.take k).countP isName) < ((segs.take k).countP isUp) := by
  induction segs generalizing init with
  | nil => simp [parseLoop]
  | cons c cs ih =>
    have step : ∀ (a b : Nat),
        (∃ k, a + ((c :: cs).take k).countP isName < ((c :: cs).take k).countP isUp + b) ↔
        (a < b ∨ ∃ k, a + ((if isName c then 1 else 0) + (cs.take k).countP isName) <
          (if isUp c then 1 else 0) + (cs.take k).countP isUp + b) := by
      intro a b
      constructor
      · rintro ⟨k, hk⟩
        cases k with
        | zero => left; simpa using hk
        | succ k =>
          right; refine ⟨k, ?_⟩
          simp only [List.take_succ_cons, List.countP_cons] at hk
          omega
      · rintro (h | ⟨k, hk⟩)
        · exact ⟨0, by simpa using h⟩
        · refine ⟨k + 1, ?_⟩
          simp only [List.take_succ_cons, List.countP_cons]
          omega
    have step0 := step init.length 0
    simp only [Nat.add_zero, Nat.not_lt_zero, false_or] at step0
    rw [step0]
    unfold parseLoop parseStep
    by_cases h1 : c = [] ∨ c = ['.']
    · have h1u : isUp c = false := by rcases h1 with rfl | rfl <;> rfl
      have h1n : isName c = false := by rcases h1 with rfl | rfl <;> rfl
      simp [h1, h1u, h1n, ih]
    · by_cases h2 : c = ['.', '.']
      · subst h2
        have hu : isUp ['.', '.'] = true := rfl
        have hn : isName ['.', '.'] = false := rfl
        simp only [h1, if_false, if_true, hu, hn]
        cases hl : init.getLast? with
        | none =>
          have : init = [] := List.getLast?_eq_none_iff.1 hl
          subst this
          simp only [true_iff]
          exact ⟨0, by simp⟩
        | some x =>
          have hne : init ≠ [] := by
            rintro rfl; simp at hl
          have hpos := List.length_pos_iff.2 hne
          simp only [ih, List.length_dropLast]
          constructor
          · rintro ⟨k, hk⟩; exact ⟨k, by simp; omega⟩
          · rintro ⟨k, hk⟩; refine ⟨k, ?_⟩; simp at hk; omega
      · have hu : isUp c = false := by simp [isUp, h2]
        have hn : isName c = true := by
          simp only [not_or] at h1
          simp [isName, h1, h2]
        simp only [h1, h2, if_false, hu, hn, ih, List.length_append, List.length_singleton, if_true]
        constructor
        · rintro ⟨k, hk⟩; exact ⟨k, by simp; omega⟩
        · rintro ⟨k, hk⟩; refine ⟨k, ?_⟩; simp at hk; omega

/-! ### components of a file-system path -/

theorem components_eq (s : Str) : Spec.components s = splitChar '/' s := by
  induction s with
  | nil => rfl
  | cons c s ih =>
    unfold Spec.components
    by_cases h : c = '/'
    · subst h; simp [ih]
    · obtain ⟨p, ps, h1, h2⟩ := splitChar_cons_ne s h
      simp [h, ih, h1, h2]

theorem visits_names (dir segs : List Str) (h : ∀ s ∈ segs, NormalSegment s) :
    ∀ d ∈ Spec.visits dir (segs ++ [[]]), ∃ k, d = dir ++ segs.take k := by
  induction segs generalizing dir with
  | nil => simp [Spec.visits, isUp, isName]
  | cons s segs ih =>
    have hs := h s (by simp)
    have h1 : isUp s = false := by simp [isUp, hs.2.2.1]
    have h2 : isName s = true := by simp [isName, hs.1, hs.2.1, hs.2.2.1]
    intro d hd
    simp only [List.cons_append, Spec.visits, h1, h2, if_true, Bool.false_eq_true, if_false,
      List.mem_cons] at hd
    rcases hd with rfl | hd
    · exact ⟨0, by simp⟩
    · obtain ⟨k, hk⟩ := ih (dir ++ [s]) (fun x hx => h x (List.mem_cons_of_mem _ hx)) d hd
      exact ⟨k + 1, by simp [hk]⟩

theorem visits_names_last (dir segs : List Str) (h : ∀ s ∈ segs, NormalSegment s) :
    (Spec.visits dir (segs ++ [[]])).getLast? = some (dir ++ segs) := by
  induction segs generalizing dir with
  | nil => simp [Spec.visits, isUp, isName]
  | cons s segs ih =>
    have hs := h s (by simp)
    have h1 : isUp s = false := by simp [isUp, hs.2.2.1]
    have h2 : isName s = true := by simp [isName, hs.1, hs.2.1, hs.2.2.1]
    have := ih (dir ++ [s]) (fun x hx => h x (List.mem_cons_of_mem _ hx))
    simp only [List.cons_append, Spec.visits, h1, h2, if_true, Bool.false_eq_true, if_false]
    rw [List.getLast?_cons, this]
    simp

theorem intercalate_snoc (p : List Str) (hp : p ≠ []) (c : Str) :
    ['/'].intercalate (p ++ [c]) = ['/'].intercalate p ++ '/' :: c := by
  induction p with
  | nil => exact absurd rfl hp
  | cons a p ih =>
    cases p with
    | nil => simp [List.intercalate]
    | cons b p =>
      have := ih (by simp)
      simp only [List.intercalate, List.cons_append, List.intersperse_cons_cons,
        List.flatten_cons, List.append_assoc] at this ⊢
      rw [this]

theorem intoStd_eq (p : PathBuf) (h : ∀ c ∈ p, NormalSegment c) :
    intoStdPathbuf p = ['/'].intercalate p := by
  suffices H : ∀ (q : PathBuf), q ≠ [] → (∀ c ∈ q, NormalSegment c) → ∀ p : PathBuf,
      (∀ c ∈ p, NormalSegment c) →
      p.foldl stdPush (['/'].intercalate q) = ['/'].intercalate (q ++ p) by
    cases p with
    | nil => rfl
    | cons c p =>
      have hc := h c (by simp)
      have h0 : stdPush [] c = ['/'].intercalate [c] := by
        unfold stdPush
        cases c with
        | nil => exact absurd rfl hc.1
        | cons x c =>
          have : x ≠ '/' := fun hx => hc.2.2.2 (by simp [hx])
          simp [this, List.intercalate]
      simp only [intoStdPathbuf, List.foldl_cons, h0]
      rw [H [c] (by simp) (by simpa using hc) p (fun x hx => h x (List.mem_cons_of_mem _ hx))]
      rfl
  intro q hq hqn p
  induction p generalizing q with
  | nil => intro _; simp
  | cons c p ih =>
    intro hp
    have hc := hp c (by simp)
    have hpush : stdPush (['/'].intercalate q) c = ['/'].intercalate (q ++ [c]) := by
      rw [intercalate_snoc q hq]
      unfold stdPush
      cases c with
      | nil => exact absurd rfl hc.1
      | cons x c =>
        have hx : x ≠ '/' := fun hx => hc.2.2.2 (by simp [hx])
        -- the joined path is non-empty and ends with a character of its last segment
        have hlast : ∃ y ys, ['/'].intercalate q = ys ++ [y] ∧ y ≠ '/' := by
          obtain ⟨q', l, rfl⟩ : ∃ q' l, q = q' ++ [l] :=
            ⟨q.dropLast, q.getLast hq, (List.dropLast_concat_getLast hq).symm⟩
          have hl := hqn l (by simp)
          have hle : l = l.dropLast ++ [l.getLast hl.1] := (List.dropLast_concat_getLast hl.1).symm
          have hy : l.getLast hl.1 ≠ '/' := fun h => hl.2.2.2 (h ▸ List.getLast_mem hl.1)
          cases hq' : q' with
          | nil =>
            exact ⟨l.getLast hl.1, l.dropLast, by
              simpa [List.intercalate] using hle, hy⟩
          | cons a b =>
            refine ⟨l.getLast hl.1, ['/'].intercalate q' ++ '/' :: l.dropLast, ?_, hy⟩
            rw [← hq', intercalate_snoc _ (by simp [hq'])]
            conv => lhs; rw [hle]
            simp
        obtain ⟨y, ys, hys, hy⟩ := hlast
        rw [hys]
        simp [hx, hy]
    simp only [List.foldl_cons, hpush]
    rw [ih (q ++ [c]) (by simp) ?_ (fun x hx => hp x (List.mem_cons_of_mem _ hx))]
    · simp
    · intro x hx
      rcases List.mem_append.1 hx with h' | h'
      · exact hqn x h'
      · have : x = c := by simpa using h'
        rw [this]; exact hc

theorem visits_names' (dir segs : List Str) (h : ∀ s ∈ segs, NormalSegment s) :
    (∀ d ∈ Spec.visits dir segs, ∃ k, d = dir ++ segs.take k) ∧
      (Spec.visits dir segs).getLast? = some (dir ++ segs) := by
  induction segs generalizing dir with
  | nil => simp [Spec.visits]
  | cons s segs ih =>
    have hs := h s (by simp)
    have h1 : isUp s = false := by simp [isUp, hs.2.2.1]
    have h2 : isName s = true := by simp [isName, hs.1, hs.2.1, hs.2.2.1]
    obtain ⟨i1, i2⟩ := ih (dir ++ [s]) (fun x hx => h x (List.mem_cons_of_mem _ hx))
    simp only [Spec.visits, h1, h2, if_true, Bool.false_eq_true, if_false, List.mem_cons]
    constructor
    · rintro d (rfl | hd)
      · exact ⟨0, by simp⟩
      · obtain ⟨k, hk⟩ := i1 d hd
        exact ⟨k + 1, by simp [hk]⟩
    · rw [List.getLast?_cons, i2]; simp

/-! ### matching -/

theorem matchLoop_nil (q : PathBuf) (vars : HMap Str Str) :
    matchLoop [] q vars = .ok (some vars) := by
  cases q <;> simp [matchLoop]

theorem matchLoop_cons_var (n : Str) (p : PathBuf) (b : Str) (q : PathBuf) (vars : HMap Str Str) :
    matchLoop ((':' :: n) :: p) (b :: q) vars = matchLoop p q (vars.insert n b) := by
  obtain ⟨fb, h1, h2⟩ := firstByte_cons ':' n
  have : fb = 58 := h2.2 rfl
  subst this
  have h3 := sliceFrom_cons_ascii (c := ':') (by decide) n
  rw [matchLoop, h1]
  simp [h3]

theorem matchLoop_cons_lit (c : Char) (a : Str) (hc : c ≠ ':') (p : PathBuf) (b : Str) (q : PathBuf)
    (vars : HMap Str Str) :
    matchLoop ((c :: a) :: p) (b :: q) vars =
      if c :: a = b then matchLoop p q vars else .ok none := by
  obtain ⟨fb, h1, h2⟩ := firstByte_cons c a
  have : ¬ fb = 58 := fun h => hc (h2.1 h)
  rw [matchLoop, h1]
  simp only [Res.bind_ok', this, if_false, ne_eq]
  by_cases h : c :: a = b <;> simp [h]

/-- the loop never panics on non-empty pattern chunks -/
theorem matchLoop_ok (p q : PathBuf) (vars : HMap Str Str) (hp : ∀ a ∈ p, a ≠ []) :
    ∃ r, matchLoop p q vars = .ok r := by
  induction p generalizing q vars with
  | nil => exact ⟨_, matchLoop_nil q vars⟩
  | cons a p ih =>
    have ih' := fun q vars => ih q vars (fun x hx => hp x (List.mem_cons_of_mem _ hx))
    cases q with
    | nil => exact ⟨_, by simp [matchLoop]; rfl⟩
    | cons b q =>
      cases a with
      | nil => exact absurd rfl (hp [] (by simp))
      | cons c a =>
        by_cases hc : c = ':'
        · subst hc; rw [matchLoop_cons_var]; exact ih' _ _
        · rw [matchLoop_cons_lit _ _ hc]
          split
          · exact ih' _ _
          · exact ⟨_, rfl⟩

theorem matches_cons {a b : Str} {p q : PathBuf} :
    Matches (a :: p) (b :: q) ↔ (a.head? = some ':' ∨ a = b) ∧ Matches p q := by
  unfold Matches
  simp only [List.length_cons, Nat.add_right_cancel_iff]
  constructor
  · rintro ⟨h1, h2⟩
    exact ⟨h2 0 a b rfl rfl, h1, fun i x y hx hy => h2 (i + 1) x y (by simpa using hx) (by simpa using hy)⟩
  · rintro ⟨h1, h2, h3⟩
    refine ⟨h2, fun i x y hx hy => ?_⟩
    cases i with
    | zero => simp at hx hy; subst hx hy; exact h1
    | succ i => exact h3 i x y (by simpa using hx) (by simpa using hy)

theorem matchLoop_some_iff (p q : PathBuf) (vars : HMap Str Str) (hp : ∀ a ∈ p, a ≠ [])
    (hl : p.length = q.length) :
    (∃ v, matchLoop p q vars = .ok (some v)) ↔ Matches p q := by
  induction p generalizing q vars with
  | nil =>
    have : q = [] := List.length_eq_zero_iff.1 hl.symm
    subst this
    simp [matchLoop, Matches]
  | cons a p ih =>
    cases q with
    | nil => simp at hl
    | cons b q =>
      have hl' : p.length = q.length := by simpa using hl
      have ih' := fun vars => ih q vars (fun x hx => hp x (List.mem_cons_of_mem _ hx)) hl'
      rw [matches_cons]
      cases a with
      | nil => exact absurd rfl (hp [] (by simp))
      | cons c a =>
        by_cases hc : c = ':'
        · subst hc; rw [matchLoop_cons_var, ih']; simp
        · rw [matchLoop_cons_lit _ _ hc]
          by_cases h : c :: a = b
          · simp only [h, if_true, or_true, true_and, ih']
          · simp [h, hc]

/-- last-position lookup, recursively -/
theorem matchLoop_get {p q : PathBuf} {vars v : HMap Str Str} (hp : ∀ a ∈ p, a ≠ [])
    (hl : p.length = q.length) (h : matchLoop p q vars = .ok (some v)) (n x : Str) :
    HMap.get v n = some x ↔
      Binds p q n x ∨ ((∀ j : Nat, p[j]? ≠ some (':' :: n)) ∧ HMap.get vars n = some x) := by
  induction p generalizing q vars with
  | nil =>
    rw [matchLoop_nil] at h
    cases h
    simp [Binds]
  | cons a p ih =>
    cases q with
    | nil => simp at hl
    | cons b q =>
      have hl' : p.length = q.length := by simpa using hl
      have ih' := fun {vars} h => @ih q vars (fun x hx => hp x (List.mem_cons_of_mem _ hx)) hl' h
      have hB : Binds (a :: p) (b :: q) n x ↔
          Binds p q n x ∨ ((∀ j : Nat, p[j]? ≠ some (':' :: n)) ∧ a = ':' :: n ∧ b = x) := by
        constructor
        · rintro ⟨i, h1, h2, h3⟩
          cases i with
          | zero =>
            right
            refine ⟨fun j => by simpa using h3 (j + 1) (by omega), by simpa using h1, by simpa using h2⟩
          | succ i =>
            left
            exact ⟨i, by simpa using h1, by simpa using h2,
              fun j hj => by simpa using h3 (j + 1) (by omega)⟩
        · rintro (⟨i, h1, h2, h3⟩ | ⟨h1, h2, h3⟩)
          · refine ⟨i + 1, by simpa using h1, by simpa using h2, fun j hj => ?_⟩
            cases j with
            | zero => omega
            | succ j => simpa using h3 j (by omega)
          · refine ⟨0, by simp [h2], by simp [h3], fun j hj => ?_⟩
            cases j with
            | zero => omega
            | succ j => simpa using h1 j
      have hN : (∀ j : Nat, (a :: p)[j]? ≠ some (':' :: n)) ↔
          a ≠ ':' :: n ∧ ∀ j : Nat, p[j]? ≠ some (':' :: n) := by
        constructor
        · intro h
          exact ⟨by simpa using h 0, fun j => by simpa using h (j + 1)⟩
        · rintro ⟨h1, h2⟩ j
          cases j with
          | zero => simpa using h1
          | succ j => simpa using h2 j
      rw [hB, hN]
      cases a with
      | nil => exact absurd rfl (hp [] (by simp))
      | cons c a =>
        by_cases hc : c = ':'
        · subst hc
          rw [matchLoop_cons_var] at h
          rw [ih' h, HMap.get_insert]
          by_cases hn : a = n
          · subst hn; simp
          · simp [hn]
        · rw [matchLoop_cons_lit _ _ hc] at h
          split at h
          · rw [ih' h]; simp [hc]
          · simp at h

theorem matchLoop_uniq {p q : PathBuf} {vars v : HMap Str Str} (hp : ∀ a ∈ p, a ≠ [])
    (h : matchLoop p q vars = .ok (some v)) (hu : vars.Uniq) : v.Uniq := by
  induction p generalizing q vars with
  | nil => rw [matchLoop_nil] at h; cases h; exact hu
  | cons a p ih =>
    have ih' := fun {q} {vars} => @ih q vars (fun x hx => hp x (List.mem_cons_of_mem _ hx))
    cases q with
    | nil => simp [matchLoop] at h; subst h; exact hu
    | cons b q =>
      cases a with
      | nil => exact absurd rfl (hp [] (by simp))
      | cons c a =>
        by_cases hc : c = ':'
        · subst hc
          rw [matchLoop_cons_var] at h
          exact ih' h (hu.insert _ _)
        · rw [matchLoop_cons_lit _ _ hc] at h
          split at h
          · exact ih' h hu
          · simp at h

/-! ### prefixes -/

theorem checkStartsWith_iff (p q : PathBuf) :
    checkStartsWith p q = true ↔ q <+: p ∨ p <+: q := by
  induction p generalizing q with
  | nil => simp [checkStartsWith]
  | cons a p ih =>
    cases q with
    | nil => simp [checkStartsWith]
    | cons b q =>
      simp only [checkStartsWith, List.cons_prefix_cons]
      by_cases h : a = b
      · subst h; simp [ih]
      · simp [h, Ne.symm h]

/-- a single normal segment -/
theorem parse_single {s : Str} (h : NormalSegment s) : parse ('/' :: s) = some [s] := by
  unfold parse
  have h1 := splitChar_append_sep '/' [] s
  rw [List.nil_append] at h1
  rw [h1, splitChar_of_not_mem h.2.2.2]
  show parseLoop [] ([[]] ++ [s]) = _
  rw [parseLoop_append]
  exact parseLoop_names [] [s] (by intro c hc; rw [List.mem_singleton.1 hc]; exact h)

end Path
end Octane
