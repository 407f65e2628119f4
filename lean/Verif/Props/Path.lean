import Verif.Proof.Path
/-
Properties C01 – C07: paths and patterns.
-/
namespace Octane
open Spec

/-! ## C01 -/

/-- C01: every segment of an accepted path or pattern is non-empty, is neither `.` nor `..`, and
contains no `/`. -/
theorem C01_parsed_path_normal (s : Str) (p : PathBuf) (h : Path.parse s = some p) :
    ∀ c ∈ p, c ≠ [] ∧ c ≠ ['.'] ∧ c ≠ ['.', '.'] ∧ '/' ∉ c :=
  Path.parse_normal h

example : Path.parse c!"//a/./b/../:x/" = some [c!"a", c!":x"] := by decide

/-! ## C02 -/

/-- every string is a join of pieces without `/`, so the next theorem covers every path -/
theorem C02_every_string_is_a_join (s : Str) :
    ∃ pieces : List Str, pieces ≠ [] ∧ (∀ x ∈ pieces, '/' ∉ x) ∧ ['/'].intercalate pieces = s :=
  ⟨splitChar '/' s, splitChar_ne_nil _ _, splitChar_not_mem _ _, splitChar_intercalate _ _⟩

/-- C02: a path is rejected exactly when some prefix of it climbs above the root, and otherwise it
is parsed to the names no `..` cancels. -/
theorem C02_dotdot_rule (pieces : List Str) (hne : pieces ≠ []) (h : ∀ s ∈ pieces, '/' ∉ s) :
    (Path.parse (['/'].intercalate pieces) = none ↔ Climbs pieces) ∧
    (¬ Climbs pieces → Path.parse (['/'].intercalate pieces) = some (resolve pieces)) := by
  rw [Path.parse_join hne h]
  have h1 : Path.parseLoop [] pieces = none ↔ Climbs pieces := by
    rw [Path.parseLoop_none]; simp [Climbs]
  refine ⟨h1, fun hc => ?_⟩
  cases hp : Path.parseLoop [] pieces with
  | none => exact absurd (h1.1 hp) hc
  | some p => rw [Path.parseLoop_resolve hp (by simp) h]; simp

/-- both cases of C02 occur -/
example : Climbs [c!"a", c!"..", c!"..", c!"b", c!"c"] := ⟨3, by decide⟩
example : ¬ Climbs [c!"a", c!"..", c!"b"] ∧ resolve [c!"a", c!"..", c!"b"] = [c!"b"] := by
  refine ⟨?_, by decide⟩
  rintro ⟨k, hk⟩
  match k with
  | 0 => simp at hk
  | 1 => revert hk; decide
  | 2 => revert hk; decide
  | k + 3 => revert hk; simp; decide

/-- C02, seen as a walk: resolving the pieces from the root directory, as a file system does, ends
in the parsed path. -/
theorem C02_is_a_walk_from_the_root (pieces : List Str) (hne : pieces ≠ [])
    (h : ∀ s ∈ pieces, '/' ∉ s) (p : PathBuf)
    (hp : Path.parse (['/'].intercalate pieces) = some p) :
    (visits [] pieces).getLast? = some p := by
  rw [Path.parse_join hne h] at hp
  clear hne h
  generalize ([] : PathBuf) = dir at hp ⊢
  induction pieces generalizing dir with
  | nil => simp [Path.parseLoop] at hp; simp [visits, hp]
  | cons s pieces ih =>
    unfold Path.parseLoop Path.parseStep at hp
    rw [visits, List.getLast?_cons]
    by_cases h1 : s = [] ∨ s = ['.']
    · have hu : isUp s = false := by rcases h1 with rfl | rfl <;> rfl
      have hn : isName s = false := by rcases h1 with rfl | rfl <;> rfl
      simp only [h1, if_true] at hp
      simp [hu, hn, ih _ hp]
    · by_cases h2 : s = ['.', '.']
      · subst h2
        have hu : isUp ['.', '.'] = true := rfl
        simp only [h1, if_false, if_true] at hp
        cases hl : dir.getLast? with
        | none => simp [hl] at hp
        | some x => simp only [hl] at hp; simp [hu, ih _ hp]
      · have hu : isUp s = false := by simp [isUp, h2]
        have hn : isName s = true := by
          simp only [not_or] at h1; simp [isName, h1, h2]
        simp only [h1, h2, if_false] at hp
        simp [hu, hn, ih _ hp]

/-! ## C03 -/

/-- C03 (round trip): parsing the displayed form of an accepted path gives it back. -/
theorem C03_display_parse (s : Str) (p : PathBuf) (h : Path.parse s = some p) :
    Path.parse (Path.display p) = some p := Path.parse_display (Path.parse_normal h)

example : Path.parse c!"/a//b/../ü/" = some [c!"a", c!"ü"] ∧
    Path.display [c!"a", c!"ü"] = c!"a/ü/" := by decide

/-- C03 (redundant separators): doubling a `/`, inserting `/./`, and a leading or trailing `/`
never change the result of parsing — neither the path nor the rejection. -/
theorem C03_redundant_separators (a b : Str) :
    Path.parse (a ++ c!"//" ++ b) = Path.parse (a ++ c!"/" ++ b) ∧
    Path.parse (a ++ c!"/./" ++ b) = Path.parse (a ++ c!"/" ++ b) ∧
    Path.parse (c!"/" ++ b) = Path.parse b ∧ Path.parse (a ++ c!"/") = Path.parse a ∧
    Path.parse (c!"./" ++ b) = Path.parse b ∧ Path.parse (a ++ c!"/.") = Path.parse a := by
  have triv : ∀ (x : PathBuf) (c : Str) (cs : List Str), c = [] ∨ c = ['.'] →
      Path.parseLoop x (c :: cs) = Path.parseLoop x cs := by
    intro x c cs h
    simp [Path.parseLoop, Path.parseStep_trivial h]
  refine ⟨?_, ?_, ?_, ?_, ?_, ?_⟩
  · simp only [Path.parse, List.append_assoc, List.cons_append, List.nil_append,
      splitChar_append_sep, splitChar_cons_eq, Path.parseLoop_append]
    congr 1
  · have : splitChar '/' ('.' :: '/' :: b) = ['.'] :: splitChar '/' b :=
      splitChar_append_sep '/' ['.'] b
    simp only [Path.parse, List.append_assoc, List.cons_append, List.nil_append,
      splitChar_append_sep, this, Path.parseLoop_append]
    congr 1
  · simp only [Path.parse, List.cons_append, List.nil_append, splitChar_cons_eq]
    exact triv _ _ _ (.inl rfl)
  · simp only [Path.parse, splitChar_append_sep, Path.parseLoop_append]
    cases Path.parseLoop [] (splitChar '/' a) <;> simp [Path.parseLoop, Path.parseStep]
  · have : splitChar '/' ('.' :: '/' :: b) = ['.'] :: splitChar '/' b :=
      splitChar_append_sep '/' ['.'] b
    simp only [Path.parse, List.cons_append, List.nil_append, this]
    exact triv _ _ _ (.inr rfl)
  · have : splitChar '/' (a ++ ['/', '.']) = splitChar '/' a ++ [['.']] :=
      splitChar_append_sep '/' a ['.']
    simp only [Path.parse, this, Path.parseLoop_append]
    cases Path.parseLoop [] (splitChar '/' a) <;> simp [Path.parseLoop, Path.parseStep]

/-! ## C04 -/

/-- C04: the file-system path of an accepted request path (by either conversion) is relative, and
resolving it from any directory visits only that directory and directories below it, ending at
the directory extended by the path's segments. Symbolic links are outside the model. -/
theorem C04_no_traversal (s : Str) (p : PathBuf) (h : Path.parse s = some p)
    (dir : List Str) :
    (∀ f, f = Path.toStdPathbuf p ∨ f = Path.intoStdPathbuf p →
      f.head? ≠ some '/' ∧
      (∀ d ∈ visits dir (components f), dir <+: d) ∧
      (visits dir (components f)).getLast? = some (dir ++ p)) := by
  have hn := Path.parse_normal h
  have hrel : ∀ (c : Str) (t : Str), NormalSegment c → (c ++ t).head? ≠ some '/' := by
    intro c t hc
    cases c with
    | nil => exact absurd rfl hc.1
    | cons x c =>
      simp only [List.cons_append, List.head?_cons, ne_eq, Option.some.injEq]
      exact fun hx => hc.2.2.2 (by simp [hx])
  rintro f (rfl | rfl)
  · have hcomp : components (Path.toStdPathbuf p) = p ++ [[]] := by
      rw [Path.components_eq]; exact Path.splitChar_display p (fun c hc => (hn c hc).2.2.2)
    refine ⟨?_, ?_, ?_⟩
    · cases p with
      | nil => simp [Path.toStdPathbuf]
      | cons c p =>
        have : Path.toStdPathbuf (c :: p) = c ++ ('/' :: Path.toStdPathbuf p) := by
          simp [Path.toStdPathbuf]
        rw [this]; exact hrel _ _ (hn c (by simp))
    · rw [hcomp]
      intro d hd
      obtain ⟨k, rfl⟩ := Path.visits_names dir p hn d hd
      exact List.prefix_append _ _
    · rw [hcomp]; exact Path.visits_names_last dir p hn
  · rw [Path.intoStd_eq p hn]
    cases p with
    | nil =>
      have h0 : components (['/'].intercalate []) = [[]] := rfl
      rw [h0]
      simp [List.intercalate, visits, isUp, isName]
    | cons c p =>
      have hcomp : components (['/'].intercalate (c :: p)) = c :: p := by
        rw [Path.components_eq, splitChar_join (by simp) (fun c hc => (hn c hc).2.2.2)]
      refine ⟨?_, ?_, ?_⟩
      · cases p with
        | nil =>
          have := hrel c [] (hn c (by simp))
          simpa [List.intercalate] using this
        | cons b p =>
          have : ['/'].intercalate (c :: b :: p) = c ++ ('/' :: ['/'].intercalate (b :: p)) := by
            simp [List.intercalate]
          rw [this]; exact hrel _ _ (hn c (by simp))
      · rw [hcomp]
        intro d hd
        obtain ⟨k, rfl⟩ := (Path.visits_names' dir (c :: p) hn).1 d hd
        exact List.prefix_append _ _
      · rw [hcomp]; exact (Path.visits_names' dir (c :: p) hn).2

example : Path.parse c!"/static/../img/./x.png" = some [c!"img", c!"x.png"] ∧
    Path.toStdPathbuf [c!"img", c!"x.png"] = c!"img/x.png/" ∧
    Path.intoStdPathbuf [c!"img", c!"x.png"] = c!"img/x.png" := by decide

/-! ## C05 -/

/-- C05 (when): for every accepted pattern, matching terminates without panic and succeeds exactly
when lengths agree and every pattern segment starts with ':' or equals the path's segment. -/
theorem C05_matches_iff (s : Str) (p : PathBuf) (hp : Path.parse s = some p) (q : PathBuf) :
    ∃ r, Path.checkMatches p q = .ok r ∧ (r.isSome ↔ Matches p q) := by
  have hne : ∀ a ∈ p, a ≠ [] := fun a ha => (Path.parse_normal hp a ha).1
  unfold Path.checkMatches
  by_cases hl : p.length = q.length
  · obtain ⟨r, hr⟩ := Path.matchLoop_ok p q [] hne
    refine ⟨r, by simp [hl, hr], ?_⟩
    rw [← Path.matchLoop_some_iff p q [] hne hl, hr]
    cases r <;> simp
  · exact ⟨none, by simp [hl], by simp [Matches, hl]⟩

/-- C05 (bindings): the bindings of a match are exactly, for each variable name of the pattern,
the path segment at its last position, with one entry per name. -/
theorem C05_bindings (s : Str) (p : PathBuf) (hp : Path.parse s = some p) (q : PathBuf)
    (vars : HMap Str Str) (h : Path.checkMatches p q = .ok (some vars)) (n v : Str) :
    (HMap.get vars n = some v ↔ Binds p q n v) ∧ vars.Uniq := by
  have hne : ∀ a ∈ p, a ≠ [] := fun a ha => (Path.parse_normal hp a ha).1
  unfold Path.checkMatches at h
  split at h
  · simp at h
  · rename_i hl
    simp only [ne_eq, Decidable.not_not] at hl
    exact ⟨by simpa using Path.matchLoop_get hne hl h n v, Path.matchLoop_uniq hne h HMap.Uniq.nil⟩

/-- C05 without the feature `url_variables`: matching is equality. -/
theorem C05_plain (p q : PathBuf) : Path.checkMatchesPlain p q = some () ↔ p = q := by
  unfold Path.checkMatchesPlain; by_cases h : p = q <;> simp [h]

example : Path.checkMatches [c!":a", c!"b", c!":a"] [c!"x", c!"b", c!"y"]
    = .ok (some [(c!"a", c!"y")]) := by decide
example : Path.checkMatches [c!":a", c!"b"] [c!"x", c!"c"] = .ok none := by decide

/-! ## C06 -/

/-- C06: subtraction succeeds exactly on prefixes, concatenation and subtraction undo each other,
and the 'starts with' test is true for every prefix. -/
theorem C06_concat_subtract (p q : PathBuf) :
    ((Path.subtract p q).isSome ↔ ∃ r, p = q ++ r) ∧
    (∀ r, Path.subtract p q = some r → Path.concat q r = p) ∧
    Path.subtract (Path.concat p q) p = some q ∧
    ((∃ r, p = q ++ r) → Path.checkStartsWith p q = true) := by
  have key : ∀ r, Path.subtract p q = some r ↔ p = q ++ r := by
    intro r
    unfold Path.subtract
    constructor
    · intro h
      split at h
      · simp at h
      · split at h
        · simp at h
        · rename_i h2
          simp only [ne_eq, Decidable.not_not] at h2
          cases h
          conv => lhs; rw [← List.take_append_drop q.length p, h2]
    · rintro rfl; simp
  refine ⟨?_, fun r hr => ((key r).1 hr).symm, by simp [Path.subtract, Path.concat], ?_⟩
  · constructor
    · intro h
      obtain ⟨r, hr⟩ := Option.isSome_iff_exists.1 h
      exact ⟨r, (key r).1 hr⟩
    · rintro ⟨r, hr⟩
      exact Option.isSome_iff_exists.2 ⟨r, (key r).2 hr⟩
  · rintro ⟨r, rfl⟩
    exact (Path.checkStartsWith_iff _ _).2 (.inl (List.prefix_append _ _))

example : Path.subtract [c!"a", c!"b", c!"c"] [c!"a"] = some [c!"b", c!"c"] ∧
    Path.subtract [c!"a"] [c!"b"] = none ∧ Path.subtract [c!"a"] [c!"a", c!"b"] = none := by decide

/-! ## C07 -/

/-- The full claim of C07. -/
def C07_statement : Prop := ∀ p q : PathBuf, Path.checkStartsWith p q = true → ∃ r, p = q ++ r

/-- C07 is false of the code: the test is true although the argument is not a prefix. -/
theorem C07_counterexample : ¬ C07_statement := by
  intro h
  obtain ⟨r, hr⟩ := h [c!"a"] [c!"a", c!"b"] (by decide)
  simp at hr

/-- C07, proved part (the full claim is false, see `C07_counterexample`): it holds whenever the argument is not longer than the path. Missing: longer arguments,
for which the code answers true if the *path* is a prefix of the *argument*. -/
theorem C07_starts_with_only_prefixes_partial (p q : PathBuf) (hl : q.length ≤ p.length)
    (h : Path.checkStartsWith p q = true) : ∃ r, p = q ++ r := by
  rcases (Path.checkStartsWith_iff p q).1 h with ⟨r, hr⟩ | h'
  · exact ⟨r, hr.symm⟩
  · exact ⟨[], by simp [h'.eq_of_length_le hl]⟩

/-- What the test decides instead: one of the two is a prefix of the other. -/
theorem C07_starts_with_exact (p q : PathBuf) :
    Path.checkStartsWith p q = true ↔ (∃ r, p = q ++ r) ∨ (∃ r, q = p ++ r) := by
  rw [Path.checkStartsWith_iff]
  constructor
  · rintro (⟨r, hr⟩ | ⟨r, hr⟩)
    · exact .inl ⟨r, hr.symm⟩
    · exact .inr ⟨r, hr.symm⟩
  · rintro (⟨r, hr⟩ | ⟨r, hr⟩)
    · exact .inl ⟨r, hr.symm⟩
    · exact .inr ⟨r, hr.symm⟩

example : Path.checkStartsWith [c!"a", c!"b"] [c!"a"] = true ∧
    Path.checkStartsWith [c!"a", c!"b"] [c!"b"] = false := by decide

/-- a path with empty, `.` and `..` segments -/
example := C02_is_a_walk_from_the_root [[], c!"a", c!".", c!"b", c!"..", c!"c"] (by decide) (by decide)
  [c!"a", c!"c"] (by decide +kernel)

/-- a pattern with two variables, for every path -/
example (q : PathBuf) := C05_matches_iff c!"/:a/b/:c" [c!":a", c!"b", c!":c"] (by decide +kernel) q

example := C07_starts_with_only_prefixes_partial [c!"a", c!"b", c!"c"] [c!"a", c!"b"] (by decide) (by decide +kernel)

end Octane
