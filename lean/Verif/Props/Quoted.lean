import Verif.Proof.Quoted
import Verif.Model.PathMacro
import Verif.Props.Response
/-
C62 and C63: strings written between quotes.
-/
namespace Octane
open Spec

/-! ## C62 -/

/-- The `Content-Disposition` value tells a client to save the body as `name`. -/
def Spec.FilenameParam (value name : Str) : Prop :=
  ∃ t, value = c!"attachment; filename = \"" ++ t ++ ['"'] ∧ HttpQuoted t name

/-- The full claim of C62. -/
def C62_statement : Prop :=
  ∀ (U : Unicode) (r : Response) (name : Str),
    ∃ v, (r.attachmentWithFilename U name).get c!"Content-Disposition" = some v ∧ FilenameParam v name

theorem attachment_value (U : Unicode) (r : Response) (name : Str) :
    (r.attachmentWithFilename U name).get c!"Content-Disposition" =
      some (c!"attachment; filename = " ++ U.debug name) := by
  unfold Response.attachmentWithFilename
  rw [Response.get_set_ne _ _ (by decide)]
  exact HMap.get_insert_self _ _ _

theorem debugChar_plain (U : Unicode) (c : Char) (h1 : ¬ isControl c) (h2 : isAscii c = true ∨ U.escaped c = false)
    (h3 : c ≠ '\\') (h4 : c ≠ '"') : U.debugChar c = [c] := by
  unfold isControl at h1
  unfold Unicode.debugChar
  have e : ∀ d : Char, isControl d → c ≠ d := by rintro d hd rfl; exact h1 hd
  rw [if_neg (e _ (by decide)), if_neg (e _ (by decide)), if_neg (e _ (by decide)),
    if_neg (e _ (by decide)), if_neg h3, if_neg h4, if_neg]
  simp only [Bool.or_eq_true, decide_eq_true_eq, beq_iff_eq, Bool.and_eq_true, Bool.not_eq_true']
  rintro ((h | h) | ⟨h, h'⟩)
  · omega
  · omega
  · rcases h2 with h2 | h2 <;> simp_all

/-- C62 for names without control characters (and without the non-ASCII characters that `{:?}`
escapes): the client reads back exactly the name. -/
theorem C62_read_back_partial (U : Unicode) (r : Response) (name : Str) (h1 : ∀ c ∈ name, ¬ isControl c)
    (h2 : ∀ c ∈ name, isAscii c = true ∨ U.escaped c = false) :
    ∃ v, (r.attachmentWithFilename U name).get c!"Content-Disposition" = some v ∧
      ∀ s, FilenameParam v s ↔ s = name := by
  have key : HttpQuoted (name.flatMap U.debugChar) name := by
    clear r
    induction name with
    | nil => exact .nil
    | cons c s ih =>
      have ih := ih (fun c hc => h1 c (List.mem_cons_of_mem _ hc)) (fun c hc => h2 c (List.mem_cons_of_mem _ hc))
      have hc := h1 c (List.mem_cons_self ..)
      rw [List.flatMap_cons]
      by_cases e : c = '\\'
      · subst e; exact .pair (.inl hc) ih
      by_cases e' : c = '"'
      · subst e'; exact .pair (.inl hc) ih
      rw [debugChar_plain U c hc (h2 c (List.mem_cons_self ..)) e e']
      exact .text e' e (.inl hc) ih
  refine ⟨_, attachment_value U r name, fun s => ⟨?_, ?_⟩⟩
  · rintro ⟨t, ht, hs⟩
    have : name.flatMap U.debugChar = t := by
      have h : c!"attachment; filename = \"" ++ (name.flatMap U.debugChar ++ ['"']) =
          c!"attachment; filename = \"" ++ (t ++ ['"']) := by
        simpa [Unicode.debug] using ht
      exact List.append_cancel_right (List.append_cancel_left h)
    exact httpQuoted_unique (this ▸ hs) key
  · rintro rfl
    exact ⟨_, by simp [Unicode.debug], key⟩

theorem hexNumeral_digits {ds : Str} {n : Nat} (h : HexNumeral ds n) : ∀ c ∈ ds, ¬ isControl c := by
  have one : ∀ {c n}, HexDigit c n → ¬ isControl c := by
    intro c n h
    unfold HexDigit at h
    simp only [Char.le_def, UInt32.le_iff_toNat_le] at h
    have h0 : '0'.val.toNat = 48 := rfl
    have h9 : '9'.val.toNat = 57 := rfl
    have ha : 'a'.val.toNat = 97 := rfl
    have hf : 'f'.val.toNat = 102 := rfl
    have hA : 'A'.val.toNat = 65 := rfl
    have hF : 'F'.val.toNat = 70 := rfl
    have e : c.toNat = c.val.toNat := rfl
    unfold isControl
    rcases h with h | h | h <;> omega
  induction h with
  | one hd => simpa using one hd
  | snoc _ hd ih =>
    intro c hc
    rcases List.mem_append.1 hc with h | h
    · exact ih c h
    · rw [List.mem_singleton.1 h]; exact one hd

theorem debugChar_no_control (U : Unicode) (c : Char) : ∀ d ∈ U.debugChar c, ¬ isControl d := by
  unfold Unicode.debugChar
  split
  · decide
  split
  · decide
  split
  · decide
  split
  · decide
  split
  · decide
  split
  · decide
  split
  · intro d hd
    simp only [List.mem_append] at hd
    rcases hd with (h | h) | h
    · revert d; decide
    · exact hexNumeral_digits (hexDigits_numeral _) d h
    · revert d; decide
  · rename_i h
    intro d hd
    rw [List.mem_singleton.1 hd]
    unfold isControl
    simp only [Bool.or_eq_true, decide_eq_true_eq, beq_iff_eq, not_or] at h
    omega

/-- For every name, the header stored has no control character: a file name cannot add a header or
end the head. -/
theorem C62_no_control (U : Unicode) (r : Response) (name v : Str)
    (h : (r.attachmentWithFilename U name).get c!"Content-Disposition" = some v) :
    ∀ c ∈ v, ¬ isControl c := by
  rw [attachment_value] at h
  injection h with h
  subst h
  intro c hc
  have pre : ∀ d ∈ c!"attachment; filename = ", ¬ isControl d := by decide
  rcases List.mem_append.1 hc with h | h
  · exact pre c h
  · unfold Unicode.debug at h
    rcases List.mem_append.1 h with h | h
    · rcases List.mem_cons.1 h with rfl | h
      · decide
      · obtain ⟨d, -, h⟩ := List.mem_flatMap.1 h
        exact debugChar_no_control U d c h
    · rw [List.mem_singleton.1 h]; decide

/-- Different names are sent differently. -/
theorem C62_injective (U : Unicode) (r r' : Response) (a b : Str)
    (h : (r.attachmentWithFilename U a).get c!"Content-Disposition" =
      (r'.attachmentWithFilename U b).get c!"Content-Disposition") : a = b := by
  rw [attachment_value, attachment_value] at h
  injection h with h
  exact debug_injective U (List.append_cancel_left h)

/-- The content type stored with it is the one detected for the name (see C43). -/
theorem C62_type (U : Unicode) (r : Response) (name : Str) :
    (r.attachmentWithFilename U name).get c!"Content-Type" = some (getExtension U name) :=
  HMap.get_insert_self _ _ _

/-- The full claim is false: a tab is sent as `\t`, which a client reads as `t`. -/
theorem C62_counterexample : ¬ C62_statement := by
  intro h
  obtain ⟨v, hv, t, ht, hq⟩ := h Unicode.asciiOnly Response.newEmpty c!"a\tb"
  have e : t = c!"a\\tb" := by
    rw [attachment_value] at hv
    injection hv with hv
    rw [← hv] at ht
    have : c!"attachment; filename = \"" ++ (c!"a\\tb" ++ ['"']) =
        c!"attachment; filename = \"" ++ (t ++ ['"']) := by
      have e2 : c!"attachment; filename = " ++ Unicode.asciiOnly.debug c!"a\tb" =
        c!"attachment; filename = \"" ++ (c!"a\\tb" ++ ['"']) := by decide +kernel
      rw [← e2, ht]; simp
    exact (List.append_cancel_right (List.append_cancel_left this)).symm
  subst e
  have : HttpQuoted c!"a\\tb" c!"atb" :=
    .text (by decide) (by decide) (by decide) (.pair (by decide) (.text (by decide) (by decide) (by decide) .nil))
  exact absurd (httpQuoted_unique hq this) (by decide)

example : (Response.newEmpty.attachmentWithFilename Unicode.asciiOnly c!"my \"x\".png").get
    c!"Content-Disposition" = some c!"attachment; filename = \"my \\\"x\\\".png\"" := by decide +kernel
example : ∀ c ∈ c!"my \"x\".png", ¬ isControl c ∧ isAscii c = true := by decide

/-! ## C63 -/

/-- The full claim of C63: for every string literal `path!` gets, it expands to a literal of the
working directory followed by the string, if there is such a file, and otherwise does not compile. -/
def C63_statement : Prop :=
  ∀ (U : Unicode) (dir : Str) (ex : Str → Bool) (lit s : Str), RustLiteral lit s →
    (ex (dir ++ s) = true →
      ∃ out, expandPath U (some dir) ex [.lit lit] = .ok [.lit out] ∧ RustLiteral out (dir ++ s)) ∧
    (ex (dir ++ s) = false → expandPath U (some dir) ex [.lit lit] = .panic)

theorem rustQuoted_plain {t s : Str} (h : RustQuoted t s) (hb : '\\' ∉ t) : t = s ∧ '"' ∉ t := by
  induction h with
  | nil => simp
  | text h1 h2 _ _ ih =>
    obtain ⟨e, h⟩ := ih (fun hm => hb (List.mem_cons_of_mem _ hm))
    exact ⟨by rw [e], by simp [h, Ne.symm h1]⟩
  | escape => simp at hb
  | unicode => simp at hb

/-- C63 for literals without escapes. Whatever follows the literal is ignored. -/
theorem C63_expands_partial (U : Unicode) (dir : Str) (ex : Str → Bool) (lit s : Str) (rest : List Tok)
    (h : RustLiteral lit s) (hb : '\\' ∉ lit) :
    (ex (dir ++ s) = true →
      ∃ out, expandPath U (some dir) ex (.lit lit :: rest) = .ok [.lit out] ∧
        ∀ p, RustLiteral out p ↔ p = dir ++ s) ∧
    (ex (dir ++ s) = false → expandPath U (some dir) ex (.lit lit :: rest) = .panic) := by
  obtain ⟨t, rfl, h⟩ := h
  obtain ⟨rfl, hq⟩ := rustQuoted_plain h (fun hm => hb (by simp [hm]))
  have e : ('"' :: t ++ ['"']).filter (· != '"') = t := by
    have : t.filter (· != '"') = t := by
      rw [List.filter_eq_self]
      intro c hc
      simp only [bne_iff_ne, ne_eq]
      rintro rfl
      exact hq hc
    simp [this]
  constructor
  · intro hx
    refine ⟨U.debug (dir ++ t), ?_, fun p => ⟨fun hp => rustLiteral_unique hp (debug_literal U _), ?_⟩⟩
    · simp only [expandPath, List.head?_cons, e, hx]; rfl
    · rintro rfl; exact debug_literal U _
  · intro hx
    simp only [expandPath, List.head?_cons, e, hx]; rfl

/-- Whatever `path!` accepts exists, for every input: the expansion is one literal and the file it
denotes was there when the macro ran. -/
theorem C63_exists (U : Unicode) (cwd : Option Str) (ex : Str → Bool) (input out : List Tok)
    (h : expandPath U cwd ex input = .ok out) :
    ∃ lit p, out = [.lit lit] ∧ (∀ q, RustLiteral lit q ↔ q = p) ∧ ex p = true ∧
      ∃ dir, cwd = some dir ∧ dir <+: p := by
  unfold expandPath at h
  split at h
  · split at h
    · cases h
    · rename_i value _ _ dir
      simp only at h
      split at h
      · cases h
      · rename_i hx
        injection h with h
        refine ⟨_, dir ++ value.filter (· != '"'), h.symm,
          fun q => ⟨fun hq => rustLiteral_unique hq (debug_literal U _), ?_⟩, by simpa using hx,
          dir, rfl, List.prefix_append ..⟩
        rintro rfl; exact debug_literal U _
  · cases h

/-- The full claim is false: `path!("/a\\b")` looks for `/a\\b` with two backslashes. -/
theorem C63_counterexample : ¬ C63_statement := by
  intro h
  have hl : RustLiteral c!"\"/a\\\\b\"" c!"/a\\b" :=
    ⟨c!"/a\\\\b", by decide, .text (by decide) (by decide) (by decide) (.text (by decide) (by decide)
      (by decide) (.escape (k := '\\') (by decide) (.text (by decide) (by decide) (by decide) .nil)))⟩
  obtain ⟨out, ho, -⟩ := (h Unicode.asciiOnly c!"/w" (fun p => p == c!"/w/a\\b") _ _ hl).1 (by decide)
  have : expandPath Unicode.asciiOnly (some c!"/w") (fun p => p == c!"/w/a\\b") [.lit c!"\"/a\\\\b\""] =
    .panic := rfl
  rw [this] at ho
  cases ho

example : expandPath Unicode.asciiOnly (some c!"/w") (fun p => p == c!"/w/t x") [.lit c!"\"/t x\""] =
    .ok [.lit c!"\"/w/t x\""] := rfl
example : RustLiteral c!"\"/t x\"" c!"/t x" ∧ '\\' ∉ c!"\"/t x\"" := by
  refine ⟨⟨c!"/t x", rfl, ?_⟩, by decide⟩
  exact .text (by decide) (by decide) (by decide) (.text (by decide) (by decide) (by decide)
    (.text (by decide) (by decide) (by decide) (.text (by decide) (by decide) (by decide) .nil)))

/-- a name that would end the head -/
example (v : Str) (h : (Response.newEmpty.attachmentWithFilename Unicode.asciiOnly c!"a\r\n\r\nb").get
    c!"Content-Disposition" = some v) : ∀ c ∈ v, ¬ isControl c := C62_no_control _ _ _ v h

/-- with what is sent for it -/
example : (Response.newEmpty.attachmentWithFilename Unicode.asciiOnly c!"a\r\nb").get c!"Content-Disposition" =
    some c!"attachment; filename = \"a\\r\\nb\"" := by decide +kernel

example := C63_exists Unicode.asciiOnly (some c!"/w") (fun p => p == c!"/w/t x") [.lit c!"\"/t x\""] _ (by rfl)

end Octane
