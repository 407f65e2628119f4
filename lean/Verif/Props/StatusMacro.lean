import Verif.Spec.StatusMacro
import Verif.Proof.Text
import Verif.Proof.Request
import Verif.Proof.Quoted
import Verif.Props.Quoted
import Verif.Props.Tables
/-
C81: `status_codes!` generates, for any arguments, one variant for each number and string.
-/
namespace Octane
open Spec

/-! ### the parts of the macro -/

theorem parseI32_iff (s : Str) (n : Int) : parseI32 s = some n ↔ IsI32 s n := by
  have ha : ∀ ds : Str, ds.all isDigit = true ↔ ∀ c ∈ ds, '0' ≤ c ∧ c ≤ '9' := by
    intro ds
    rw [List.all_eq_true]
    exact ⟨fun h c hc => (isDigit_iff c).1 (h c hc), fun h c hc => (isDigit_iff c).2 (h c hc)⟩
  have core : ∀ (ds : Str) (v : Int), (if (ds.isEmpty || !ds.all isDigit) = true then none
      else if (decide (-(2 ^ 31) ≤ v) && decide (v < 2 ^ 31)) = true then some v else none) = some n ↔
      ds ≠ [] ∧ (∀ c ∈ ds, '0' ≤ c ∧ c ≤ '9') ∧ n = v ∧ -(2 ^ 31) ≤ n ∧ n < 2 ^ 31 := by
    intro ds v
    rw [← ha]
    by_cases h1 : ds = []
    · simp [h1]
    by_cases h2 : ds.all isDigit = true
    · have e : (ds.isEmpty || !ds.all isDigit) = false := by simp [h1, h2]
      rw [e]
      simp only [Bool.false_eq_true, if_false]
      by_cases h3 : (decide (-(2 ^ 31) ≤ v) && decide (v < 2 ^ 31)) = true
      · rw [if_pos h3]
        simp only [Bool.and_eq_true, decide_eq_true_eq] at h3
        constructor
        · intro h; cases h; exact ⟨h1, h2, rfl, h3⟩
        · rintro ⟨-, -, rfl, -⟩; rfl
      · rw [if_neg h3]
        simp only [Bool.and_eq_true, decide_eq_true_eq] at h3
        constructor
        · intro h; cases h
        · rintro ⟨-, -, rfl, h⟩; exact absurd h h3
    · have e : (ds.isEmpty || !ds.all isDigit) = true := by simp [h2]
      rw [e]
      simp only [if_true]
      constructor
      · intro h; cases h
      · rintro ⟨-, h, -⟩; exact absurd h h2
  have nplus : ¬ (('0' : Char) ≤ '+' ∧ '+' ≤ '9') := by decide
  have nminus : ¬ (('0' : Char) ≤ '-' ∧ '-' ≤ '9') := by decide
  unfold parseI32 IsI32
  split
  rename_i neg ds hm
  have hv : ∀ l : Str, digitsVal l = l.foldl (fun a c => 10 * a + (c.toNat - 48)) 0 := fun _ => rfl
  rw [core]
  split at hm
  · rename_i r
    obtain ⟨rfl, rfl⟩ := Prod.mk.inj hm
    constructor
    · rintro ⟨h1, h2, h3, h4⟩; exact ⟨r, h1, h2, .inl ⟨.inr rfl, h3⟩, h4⟩
    · rintro ⟨ds, h1, h2, ⟨h3 | h3, h4⟩ | ⟨h3, -⟩, h5⟩
      · subst h3; exact absurd (h2 '+' (by simp)) nplus
      · cases h3; exact ⟨h1, h2, h4, h5⟩
      · exact absurd (List.cons.inj h3).1 (by decide)
  · rename_i r
    obtain ⟨rfl, rfl⟩ := Prod.mk.inj hm
    constructor
    · rintro ⟨h1, h2, h3, h4⟩; exact ⟨r, h1, h2, .inr ⟨rfl, h3⟩, h4⟩
    · rintro ⟨ds, h1, h2, ⟨h3 | h3, h4⟩ | ⟨h3, h4⟩, h5⟩
      · subst h3; exact absurd (h2 '-' (by simp)) nminus
      · exact absurd (List.cons.inj h3).1 (by decide)
      · cases h3; exact ⟨h1, h2, h4, h5⟩
  · rename_i hp hq
    obtain ⟨rfl, rfl⟩ := Prod.mk.inj hm
    constructor
    · rintro ⟨h1, h2, h3, h4⟩; exact ⟨s, h1, h2, .inl ⟨.inl rfl, h3⟩, h4⟩
    · rintro ⟨ds, h1, h2, ⟨h3 | h3, h4⟩ | ⟨h3, h4⟩, h5⟩
      · subst h3; exact ⟨h1, h2, h4, h5⟩
      · exact absurd h3 (hp ds)
      · exact absurd h3 (hq ds)

theorem Spec.IsI32.unique {s : Str} {n m : Int} (h : IsI32 s n) (h' : IsI32 s m) : n = m :=
  Option.some.inj (((parseI32_iff s n).2 h).symm.trans ((parseI32_iff s m).2 h'))

theorem utf8Size_one {c : Char} : c.utf8Size = 1 ↔ c.toNat < 128 := by
  constructor
  · intro h
    unfold Char.utf8Size at h
    simp only at h
    split at h
    · rename_i h1
      rw [UInt32.le_iff_toNat_le] at h1
      have : c.val.toNat ≤ 127 := h1
      show c.val.toNat < 128
      omega
    · split at h
      · omega
      · split at h <;> omega
  · exact utf8Size_ascii

theorem utf8_length_cons (c : Char) (s : Str) : (utf8 (c :: s)).length = c.utf8Size + (utf8 s).length := by
  simp [String.length_utf8EncodeChar]

theorem utf8_length_one {s : Str} : (utf8 s).length = 1 ↔ ∃ c, c.toNat < 128 ∧ s = [c] := by
  constructor
  · intro h
    cases s with
    | nil => simp at h
    | cons c s =>
      rw [utf8_length_cons] at h
      have hp := c.utf8Size_pos
      have hs : s = [] := by
        cases s with
        | nil => rfl
        | cons d s =>
          rw [utf8_length_cons] at h
          have := d.utf8Size_pos
          omega
      subst hs
      exact ⟨c, utf8Size_one.1 (by simpa using h), rfl⟩
  · rintro ⟨c, h, rfl⟩
    rw [utf8_length_cons, utf8Size_ascii h]
    rfl

/-- the text of a literal without its first and last character, which must be ASCII -/
theorem unquote_iff (r name : Str) : unquote r = .ok name ↔
    ∃ a b, a.toNat < 128 ∧ b.toNat < 128 ∧ r = a :: name ++ [b] := by
  constructor
  · intro h
    unfold unquote at h
    by_cases hn : (utf8 r).length < 2
    · simp [hn] at h
    · simp only [hn, if_false] at h
      cases hs : splitAtByte ((utf8 r).length - 1) r with
      | panic => simp [hs] at h
      | ok x =>
        obtain ⟨x, y⟩ := x
        simp only [hs, Res.bind_ok', sliceFrom] at h
        obtain ⟨e, hl⟩ := splitAtByte_ok hs
        have hy : (utf8 y).length = 1 := by
          have := congrArg (fun t => (utf8 t).length) e
          simp only [utf8_append, List.length_append] at this
          omega
        obtain ⟨b, hb, rfl⟩ := utf8_length_one.1 hy
        cases hs' : splitAtByte 1 x with
        | panic => simp [hs'] at h
        | ok z =>
          obtain ⟨z, w⟩ := z
          obtain ⟨e', hl'⟩ := splitAtByte_ok hs'
          obtain ⟨a, ha, rfl⟩ := utf8_length_one.1 hl'
          simp only [hs', Res.bind_ok', Res.ok.injEq] at h
          subst h
          exact ⟨a, b, ha, hb, by rw [e, e']; rfl⟩
  · rintro ⟨a, b, ha, hb, rfl⟩
    have hl : (utf8 (a :: name ++ [b])).length = (utf8 (a :: name)).length + 1 := by
      rw [utf8_append, List.length_append, (utf8_length_one (s := [b])).2 ⟨b, hb, rfl⟩]
    have h2 : ¬ (utf8 (a :: name)).length + 1 < 2 := by
      rw [utf8_length_cons]
      have := a.utf8Size_pos
      omega
    unfold unquote
    simp only [hl, h2, if_false, Nat.add_sub_cancel]
    rw [splitAtByte_append]
    exact sliceFrom_cons_ascii ha name

theorem pascalCase_nil (s : Str) : pascalCase s = [] ↔ ¬ ∃ c ∈ s, isLetter c := by
  have : ∀ s up, pascalLoop up s = [] ↔ ¬ ∃ c ∈ s, isLetter c := by
    intro s
    induction s with
    | nil => intro up; simp [pascalLoop]
    | cons c s ih =>
      intro up
      unfold pascalLoop
      by_cases h1 : c = ' '
      · have : ¬ isLetter c := by subst h1; unfold isLetter; decide
        rw [if_pos h1, ih]
        simp [this]
      · by_cases h2 : isAsciiAlpha c = true
        · have := (alpha_iff c).1 h2
          simp [h1, h2, this]
        · have : ¬ isLetter c := fun h => h2 ((alpha_iff c).2 h)
          simp [h1, h2, ih, this]
  exact this s true

theorem pascalOf_iff (phrase name : Str) : PascalOf phrase name ↔ name = pascalCase phrase := by
  constructor
  · rintro ⟨words, rfl, hw, rfl⟩
    exact (C58_pascal words hw).symm
  · rintro rfl
    obtain ⟨words, e, hw⟩ := C58_every_phrase phrase
    exact ⟨words, e, hw, by rw [e, C58_pascal words hw]⟩

/-! ### the loop -/

/-- the entry of a pair -/
def entryOf (p : Int × Str) : StatusEntry := { code := p.1, name := p.2, cased := pascalCase p.2 }

theorem statusLoop_literals (toks : List MacroTok) (b : Bool) (prev : Int) :
    statusLoop toks b prev = statusLoop ((literals toks).map .literal) b prev := by
  induction toks generalizing b prev with
  | nil => rfl
  | cons t toks ih =>
    cases t with
    | other => simpa [statusLoop, literals] using ih b prev
    | literal s =>
      simp only [statusLoop, literals, List.map_cons]
      cases b with
      | false =>
        simp only [Bool.not_false, if_true]
        cases parseI32 s with
        | none => rfl
        | some v => exact ih true v
      | true =>
        simp only [Bool.not_true, Bool.false_eq_true, if_false]
        rw [ih false prev]

theorem statusVariants_iff (es : List StatusEntry) (vs : List Str) :
    statusVariants es = .ok vs ↔ (∀ e ∈ es, e.cased ≠ []) ∧ vs = es.map (·.cased) := by
  induction es generalizing vs with
  | nil =>
    simp only [statusVariants, Res.ok.injEq, List.map_nil, List.not_mem_nil, false_imp_iff,
      implies_true, true_and]
    exact eq_comm
  | cons e es ih =>
    unfold statusVariants
    by_cases he : e.cased = []
    · simp [he]
    · have : e.cased.isEmpty = false := by simp [he]
      rw [this]
      simp only [Bool.false_eq_true, if_false, List.mem_cons, forall_eq_or_imp, he, not_false_eq_true,
        ne_eq, true_and, List.map_cons]
      cases hv : statusVariants es with
      | panic =>
        simp only [Res.bind_panic', reduceCtorEq, false_iff, not_and]
        intro h _
        rw [(ih _).2 ⟨h, rfl⟩] at hv
        cases hv
      | ok ws =>
        obtain ⟨h1, h2⟩ := (ih ws).1 hv
        simp only [Res.bind_ok', Res.ok.injEq]
        rw [h2]
        exact ⟨fun h => ⟨h1, h.symm⟩, fun h => h.2.symm⟩

theorem statusLoop_takes : ∀ (lits : List Str) (prev : Int) (es : List StatusEntry),
    (statusLoop (lits.map .literal) false prev = .ok es ∧ ∀ e ∈ es, e.cased ≠ []) ↔
      ∃ ps, Takes lits ps ∧ es = ps.map entryOf
  | [], prev, es => by
    simp only [List.map_nil, statusLoop, Res.ok.injEq]
    constructor
    · rintro ⟨rfl, -⟩; exact ⟨[], .nil, rfl⟩
    · rintro ⟨ps, h, rfl⟩; cases h; simp
  | [num], prev, es => by
    simp only [List.map_cons, List.map_nil, statusLoop, Bool.not_false, if_true]
    cases hp : parseI32 num with
    | none =>
      simp only [reduceCtorEq, false_and, false_iff]
      rintro ⟨ps, h, -⟩
      cases h with
      | number h => rw [(parseI32_iff _ _).2 h] at hp; cases hp
    | some v =>
      simp only [Res.ok.injEq]
      constructor
      · rintro ⟨rfl, -⟩; exact ⟨[], .number ((parseI32_iff _ _).1 hp), rfl⟩
      · rintro ⟨ps, h, rfl⟩; cases h; simp
  | num :: lit :: rest, prev, es => by
    simp only [List.map_cons, statusLoop, Bool.not_false, if_true]
    cases hp : parseI32 num with
    | none =>
      simp only [reduceCtorEq, false_and, false_iff]
      rintro ⟨ps, h, -⟩
      cases h with
      | cons h => rw [(parseI32_iff _ _).2 h] at hp; cases hp
    | some v =>
      simp only [Bool.not_true, Bool.false_eq_true, if_false]
      have hv := (parseI32_iff _ _).1 hp
      constructor
      · rintro ⟨h, hc⟩
        cases hu : unquote lit with
        | panic => simp [hu] at h
        | ok name =>
          obtain ⟨a, b, ha, hb, rfl⟩ := (unquote_iff _ _).1 hu
          simp only [hu, Res.bind_ok'] at h
          cases hl : statusLoop (rest.map .literal) false v with
          | panic => simp [hl] at h
          | ok es' =>
            simp only [hl, Res.bind_ok', Res.ok.injEq] at h
            subst h
            obtain ⟨ps, ht, rfl⟩ := (statusLoop_takes rest v es').1
              ⟨hl, fun e he => hc e (List.mem_cons_of_mem _ he)⟩
            have hn : ∃ c ∈ name, isLetter c := Classical.byContradiction fun hn =>
              hc _ (List.mem_cons_self ..) ((pascalCase_nil name).2 hn)
            exact ⟨(v, name) :: ps, .cons hv ha hb hn ht, rfl⟩
      · rintro ⟨ps, h, rfl⟩
        cases h with
        | @cons _ a name b n _ ps h1 ha hb hn ht =>
          have hu := (unquote_iff (a :: name ++ [b]) name).2 ⟨a, b, ha, hb, rfl⟩
          rw [hu]
          obtain ⟨hl, hc⟩ := (statusLoop_takes rest v _).2 ⟨ps, ht, rfl⟩
          simp only [Res.bind_ok', hl, List.map_cons, entryOf, h1.unique hv]
          refine ⟨trivial, ?_⟩
          intro e he
          rcases List.mem_cons.1 he with rfl | he
          · exact fun h => (pascalCase_nil name).1 h hn
          · exact hc e he

theorem Spec.Takes.unique {lits : List Str} {ps qs : List (Int × Str)} (h : Takes lits ps) (h' : Takes lits qs) :
    ps = qs := by
  have h1 := ((statusLoop_takes lits 0 _).2 ⟨ps, h, rfl⟩).1
  rw [((statusLoop_takes lits 0 _).2 ⟨qs, h', rfl⟩).1] at h1
  have := congrArg (List.map fun e => (e.code, e.name)) (Res.ok.inj h1)
  simpa [entryOf, Function.comp_def] using this.symm

/-- what is generated for the pairs -/
def enumOf (U : Unicode) (ps : List (Int × Str)) : StatusEnum where
  variants := ps.map fun p => pascalCase p.2
  arms := ps.map fun p => { variant := pascalCase p.2, code := showInt p.1, phrase := U.debug p.2 }

theorem statusMacro_iff (U : Unicode) (toks : List MacroTok) (out : StatusEnum) :
    statusMacro U toks = .ok out ↔ ∃ ps, Takes (literals toks) ps ∧ out = enumOf U ps := by
  have key := statusLoop_takes (literals toks) (-1)
  unfold statusMacro statusCodes
  rw [statusLoop_literals]
  have harms : ∀ ps : List (Int × Str), (enumOf U ps) =
      { variants := (ps.map entryOf).map (·.cased), arms := statusArms U (ps.map entryOf) } := by
    intro ps; simp [enumOf, statusArms, entryOf, Function.comp_def]
  constructor
  · intro h
    cases hl : statusLoop ((literals toks).map .literal) false (-1) with
    | panic => simp [hl] at h
    | ok es =>
      simp only [hl, Res.bind_ok'] at h
      cases hv : statusVariants es with
      | panic => simp [hv] at h
      | ok vs =>
        obtain ⟨h1, rfl⟩ := (statusVariants_iff _ _).1 hv
        obtain ⟨ps, ht, rfl⟩ := (key es).1 ⟨hl, h1⟩
        simp only [hv, Res.bind_ok', Res.ok.injEq] at h
        exact ⟨ps, ht, by rw [harms, h]⟩
  · rintro ⟨ps, ht, rfl⟩
    obtain ⟨hl, hc⟩ := (key _).2 ⟨ps, ht, rfl⟩
    rw [hl, Res.bind_ok', (statusVariants_iff _ _).2 ⟨hc, rfl⟩, Res.bind_ok', ← harms]

theorem enumFor_enumOf (U : Unicode) (ps : List (Int × Str)) : EnumFor (enumOf U ps) ps := by
  refine ⟨by simp [enumOf, Function.comp_def], ?_⟩
  unfold enumOf
  induction ps with
  | nil => exact .nil
  | cons p ps ih =>
    exact .cons ⟨(pascalOf_iff _ _).2 rfl, showInt_numeral _, debug_literal U _⟩ ih

/-! ### C81 -/

/-- The full claim of C81: for all arguments that are a number and a string literal with a letter for
each pair (with anything but literals around them), the macro generates what it should. -/
def C81_statement : Prop := ∀ (U : Unicode) toks pairs, Declares (literals toks) pairs →
  ∃ out, statusMacro U toks = .ok out ∧ EnumFor out pairs

/-- C81 for string literals without a backslash. (Missing: literals with escapes, see
`C81_counterexample`; what is generated for them is in `C81_exact`.) -/
theorem C81_generates_partial (U : Unicode) (toks : List MacroTok) (pairs : List (Int × Str))
    (h : Declares (literals toks) pairs) (hb : ∀ l ∈ literals toks, '\\' ∉ l) :
    ∃ out, statusMacro U toks = .ok out ∧ EnumFor out pairs := by
  refine ⟨enumOf U pairs, (statusMacro_iff ..).2 ⟨pairs, ?_, rfl⟩, enumFor_enumOf U pairs⟩
  generalize literals toks = l at h hb
  induction h with
  | nil => exact .nil
  | cons h1 h2 h3 _ ih =>
    obtain ⟨t, rfl, hq⟩ := h2
    have hb2 := hb _ (List.mem_cons_of_mem _ (List.mem_cons_self ..))
    obtain ⟨rfl, -⟩ := rustQuoted_plain hq fun hm => hb2 (by simp [hm])
    exact .cons h1 (by decide) (by decide) h3
      (ih fun l hl => hb l (List.mem_cons_of_mem _ (List.mem_cons_of_mem _ hl)))

/-- Exactly what the macro does with any arguments: it generates the right enum for the pairs it takes
them for, and panics if there are none. -/
theorem C81_exact (U : Unicode) (toks : List MacroTok) :
    (∀ pairs, Takes (literals toks) pairs → ∃ out, statusMacro U toks = .ok out ∧ EnumFor out pairs) ∧
    ((¬ ∃ pairs, Takes (literals toks) pairs) ↔ statusMacro U toks = .panic) := by
  refine ⟨fun ps h => ⟨_, (statusMacro_iff ..).2 ⟨ps, h, rfl⟩, enumFor_enumOf U ps⟩, ?_⟩
  cases hm : statusMacro U toks with
  | panic =>
    simp only [iff_true]
    rintro ⟨ps, h⟩
    rw [(statusMacro_iff U toks _).2 ⟨ps, h, rfl⟩] at hm
    cases hm
  | ok out =>
    simp only [reduceCtorEq, iff_false, Classical.not_not]
    obtain ⟨ps, h, -⟩ := (statusMacro_iff ..).1 hm
    exact ⟨ps, h⟩

/-- The enum of the library: all its variants are different, and `fetch` of each is its entry of the
table. -/
theorem C81_library (U : Unicode) : ∃ out, statusMacro U statusToks = .ok out ∧
    EnumFor out statusTable ∧ out.variants.Nodup ∧ c!"Other" ∉ out.variants := by
  have hs : statusMacro U statusToks = .ok (enumOf U statusTable) := by
    obtain ⟨h1, h2⟩ := C58_distinct
    unfold statusMacro
    rw [C58_generated, Res.bind_ok']
    rw [(statusVariants_iff _ _).2 ⟨?_, rfl⟩, Res.bind_ok']
    · simp [enumOf, statusArms, Function.comp_def]
    · intro e he
      obtain ⟨p, hp, rfl⟩ := List.mem_map.1 he
      exact (h2 p hp).1
  refine ⟨_, hs, enumFor_enumOf U _, C58_distinct.1, ?_⟩
  intro h
  obtain ⟨p, hp, e⟩ := List.mem_map.1 h
  exact (C58_distinct.2 p hp).2 e

/-- `200 "A\\B"`, a backslash between two letters -/
def escapedArgs : List MacroTok := [.literal c!"200", .literal c!"\"A\\\\B\""]

/-- C81 is false of string literals with escapes: the source text of the literal is quoted again. -/
theorem C81_counterexample : ¬ C81_statement := by
  intro h
  have hi : IsI32 c!"200" 200 := (parseI32_iff _ _).1 (by decide)
  obtain ⟨out, ho, -, he⟩ := h Unicode.asciiOnly escapedArgs [(200, c!"A\\B")]
    (.cons hi ⟨c!"A\\\\B", rfl, .text (by decide) (by decide) (by decide)
      (.escape (k := '\\') (by decide) (.text (by decide) (by decide) (by decide) .nil))⟩
      ⟨'A', by simp, by unfold isLetter; decide⟩ .nil)
  obtain ⟨ps, ht, rfl⟩ := (statusMacro_iff ..).1 ho
  have : ps = [(200, c!"A\\\\B")] := ht.unique
    (.cons (a := '"') (b := '"') (name := c!"A\\\\B") hi (by decide) (by decide) ⟨'A', by simp, by unfold isLetter; decide⟩ .nil)
  subst this
  cases he with
  | cons h1 _ =>
    have := rustLiteral_unique h1.phrase (debug_literal Unicode.asciiOnly _)
    exact absurd this (by decide)

/-! ### examples -/

/-- `299 => "Odd one", 9 "x",` -/
example : ∃ out, statusMacro Unicode.asciiOnly [.literal c!"299", .other, .other, .literal c!"\"Odd one\"",
    .other, .literal c!"9", .literal c!"\"x\"", .other] = .ok out ∧
      EnumFor out [(299, c!"Odd one"), (9, c!"x")] ∧ out.variants = [c!"OddOne", c!"X"] := by
  refine ⟨enumOf Unicode.asciiOnly [(299, c!"Odd one"), (9, c!"x")], by decide +kernel,
    enumFor_enumOf _ _, by decide⟩

/-- a phrase without letters is refused, and so is a number where a string should be -/
example : statusMacro Unicode.asciiOnly [.literal c!"299", .literal c!"\"404\""] = .panic ∧
    statusMacro Unicode.asciiOnly [.literal c!"299", .literal c!"\"\""] = .panic ∧
    statusMacro Unicode.asciiOnly [.literal c!"299", .literal c!"4"] = .panic := by decide +kernel

end Octane
