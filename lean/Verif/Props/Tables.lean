import Verif.Spec.Tables
import Verif.Proof.Response
import Verif.Proof.Text
/-
C42 (status codes and status line), C43/C44 (media types), C58 (names generated by `status_codes!`).
-/
namespace Octane
open Spec

/-! ### C42 -/

/-- a three-digit code -/
theorem showNat_three (n : Nat) (h1 : 100 ≤ n) (h2 : n ≤ 999) : (showNat n).length = 3 :=
  showNat_length n 2 (by omega) (by omega)

/-- the whole table: codes are between 100 and 599, strictly increasing, and the phrases are made of
ASCII letters, spaces, `-` and `'` -/
theorem C42_table :
    statusTable.length = 61 ∧ (∀ e ∈ statusTable, 100 ≤ e.1 ∧ e.1 ≤ 599) ∧
      (statusTable.map (·.1)).Pairwise (· < ·) ∧
      (∀ e ∈ statusTable, e.2 ≠ [] ∧ ∀ c ∈ e.2, isLetter c ∨ c ∈ [' ', '-', '\'']) := by
  decide +kernel

theorem named_mem (i : Fin 61) : (StatusCode.named i).fetch ∈ statusTable :=
  List.getElem_mem _

/-- Every named status has a three-digit code. -/
theorem C42_three_digits (i : Fin 61) :
    ∃ s, IntNumeral (StatusCode.named i).code s ∧ s.length = 3 ∧ ∀ c ∈ s, '0' ≤ c ∧ c ≤ '9' := by
  obtain ⟨-, h, -, -⟩ := C42_table
  have hi := h _ (named_mem i)
  have e : showInt (StatusCode.named i).code = showNat (StatusCode.named i).code.toNat :=
    showInt_nonneg (by unfold StatusCode.code; omega)
  refine ⟨_, showInt_numeral _, ?_⟩
  rw [e]
  refine ⟨showNat_three _ (by unfold StatusCode.code; omega) (by unfold StatusCode.code; omega), ?_⟩
  intro c hc
  have := showNat_digits _ c hc
  rw [Char.le_def, Char.le_def, UInt32.le_iff_toNat_le, UInt32.le_iff_toNat_le]
  exact this

/-- Different named statuses have different codes. -/
theorem C42_distinct (i j : Fin 61) (h : (StatusCode.named i).code = (StatusCode.named j).code) :
    i = j := by
  obtain ⟨-, -, h1, -⟩ := C42_table
  rw [List.pairwise_iff_getElem] at h1
  have hl : (statusTable.map (·.1)).length = 61 := by decide +kernel
  rcases Nat.lt_trichotomy i.val j.val with hlt | heq | hlt
  · have := h1 i.val j.val (by omega) (by omega) hlt
    simp only [List.getElem_map] at this
    simp only [StatusCode.code, StatusCode.fetch] at h
    omega
  · exact Fin.ext heq
  · have := h1 j.val i.val (by omega) (by omega) hlt
    simp only [List.getElem_map] at this
    simp only [StatusCode.code, StatusCode.fetch] at h
    omega

theorem upperStr_ascii (U : Unicode) {s : Str} (h : ∀ c ∈ s, isAscii c = true) :
    U.upperStr s = asciiUpper s := by
  induction s with
  | nil => rfl
  | cons c s ih =>
    have := ih (fun d hd => h d (by simp [hd]))
    simp only [Unicode.upperStr, List.flatMap_cons] at this ⊢
    rw [this, U.upper_ascii c (h c (by simp))]
    rfl

theorem phrase_ascii (i : Fin 61) : ∀ c ∈ (StatusCode.named i).toStr, isAscii c = true := by
  have : ∀ e ∈ statusTable, ∀ c ∈ e.2, isAscii c = true := by decide +kernel
  exact this _ (named_mem i)

/-- The status line of a named status, for every response and every Unicode table. -/
theorem C42_status_line (U : Unicode) (r : Response) (i : Fin 61) (h : r.statusCode = .named i) :
    ∃ code, IntNumeral (StatusCode.named i).code code ∧
      r.statusLine U = c!"HTTP/" ++ r.httpVersion ++ c!" " ++ code ++
        c!" " ++ capitals (StatusCode.named i).toStr ++ crlf := by
  refine ⟨_, showInt_numeral _, ?_⟩
  rw [← asciiUpper_eq, ← upperStr_ascii U (phrase_ascii i), ← h]
  simp [Response.statusLine, Response.reasonPhrase, crlf]

/-- A custom status is emitted with its own number and its own phrase, upper-cased. -/
theorem C42_custom (U : Unicode) (r : Response) (n : Int) (s : Str) (h : r.statusCode = .other n s) :
    ∃ code, IntNumeral n code ∧
      r.statusLine U = c!"HTTP/" ++ r.httpVersion ++ c!" " ++ code ++ c!" " ++ U.upperStr s ++ crlf := by
  refine ⟨_, showInt_numeral _, ?_⟩
  simp [Response.statusLine, Response.reasonPhrase, crlf, h, StatusCode.code, StatusCode.toStr,
    StatusCode.fetch]

/-- an ASCII custom phrase is upper-cased letter by letter -/
theorem C42_custom_ascii (U : Unicode) (r : Response) (n : Int) (s : Str)
    (h : r.statusCode = .other n s) (ha : ∀ c ∈ s, isAscii c = true) :
    ∃ code, IntNumeral n code ∧
      r.statusLine U = c!"HTTP/" ++ r.httpVersion ++ c!" " ++ code ++ c!" " ++ capitals s ++ crlf := by
  obtain ⟨code, h1, h2⟩ := C42_custom U r n s h
  exact ⟨code, h1, by rw [h2, upperStr_ascii U ha, asciiUpper_eq]⟩

/-- Whatever status a handler sets is the one in the status line. -/
theorem C42_set (U : Unicode) (r : Response) (c : StatusCode) :
    ∃ code, IntNumeral c.code code ∧
      (r.status c).statusLine U = c!"HTTP/" ++ r.httpVersion ++ c!" " ++ code ++ c!" " ++ U.upperStr c.toStr ++ crlf := by
  cases c with
  | named i =>
    obtain ⟨code, h1, h2⟩ := C42_status_line U (r.status (.named i)) i rfl
    refine ⟨code, h1, h2.trans ?_⟩
    rw [upperStr_ascii U (phrase_ascii i), asciiUpper_eq]
    rfl
  | other n s => exact C42_custom U (r.status (.other n s)) n s rfl

example : ∃ code, IntNumeral 499 code ∧ (Response.newEmpty.status (.other 499 c!"gone away")).statusLine Unicode.asciiOnly =
    c!"HTTP/" ++ c!"1.1" ++ c!" " ++ code ++ c!" " ++ c!"GONE AWAY" ++ crlf :=
  C42_set Unicode.asciiOnly Response.newEmpty (.other 499 c!"gone away")

/-- the statuses the library itself answers with -/
theorem C42_library_codes :
    StatusCode.ok.fetch = (200, c!"OK") ∧ StatusCode.found.fetch = (302, c!"Found") ∧
    StatusCode.badRequest.fetch = (400, c!"Bad Request") ∧
    StatusCode.notFound.fetch = (404, c!"Not Found") ∧
    StatusCode.notImplemented.fetch = (501, c!"Not Implemented") := by decide +kernel

example : (({ Response.newEmpty with statusCode := .other 299 c!"my own" } : Response).statusLine
    Unicode.asciiOnly) = c!"HTTP/1.1 299 MY OWN\r\n" := by decide +kernel
example : (Response.newEmpty.status .notFound).statusLine Unicode.asciiOnly =
    c!"HTTP/1.1 404 NOT FOUND\r\n" := by decide +kernel

/-! ### C58 -/

/-- `status_codes!` makes exactly the table of its arguments, in order, with Pascal-case names. -/
theorem C58_generated :
    (statusCodes statusToks) = .ok (statusTable.map fun e =>
      { code := e.1, name := e.2, cased := pascalCase e.2 }) := by decide +kernel

theorem alpha_iff (c : Char) : isAsciiAlpha c = true ↔ isLetter c := by
  simp only [isAsciiAlpha, isLetter, Char.le_def, UInt32.le_iff_toNat_le, Bool.or_eq_true,
    Bool.and_eq_true, decide_eq_true_eq]
  exact or_comm

theorem pascalLoop_word (w : Str) (hw : ' ' ∉ w) (up : Bool) (rest : Str) :
    ∃ up', pascalLoop up (w ++ rest) = (match w.filter fun c => isLetter c with
      | [] => []
      | c :: cs => (if up then capital c else small c) :: cs.map small) ++ pascalLoop up' rest := by
  induction w generalizing up with
  | nil => exact ⟨up, rfl⟩
  | cons c w ih =>
    have hc : c ≠ ' ' := fun h => hw (by simp [h])
    have hw' : ' ' ∉ w := fun h => hw (by simp [h])
    by_cases ha : isAsciiAlpha c = true
    · obtain ⟨up', h⟩ := ih hw' false
      refine ⟨up', ?_⟩
      have hl := (alpha_iff c).1 ha
      simp only [List.cons_append, pascalLoop, if_neg hc, ha, Bool.not_true, Bool.false_eq_true,
        if_false, h, List.filter_cons, decide_eq_true hl, if_true]
      have e : (match List.filter (fun c => decide (isLetter c)) w with
        | [] => ([] : Str)
        | c :: cs => (if false = true then capital c else small c) :: cs.map small) =
          (w.filter fun c => isLetter c).map small := by
        cases w.filter fun c => isLetter c <;> rfl
      simp only [Bool.false_eq_true, if_false] at e
      rw [e, asciiLowerC_eq, asciiUpperC_eq c]
    · obtain ⟨up', h⟩ := ih hw' up
      refine ⟨up', ?_⟩
      have hl : ¬ isLetter c := fun h => ha ((alpha_iff c).2 h)
      have ha' : isAsciiAlpha c = false := by simpa using ha
      simp only [List.cons_append, pascalLoop, if_neg hc, ha', Bool.not_false, if_true, h,
        List.filter_cons, decide_eq_false hl, Bool.false_eq_true, if_false]

/-- For every phrase, the generated name is the Pascal case of its words. -/
theorem C58_pascal (words : List Str) (hw : ∀ w ∈ words, ' ' ∉ w) :
    pascalCase ([' '].intercalate words) = words.flatMap pascalWord := by
  induction words with
  | nil => rfl
  | cons w ws ih =>
    cases ws with
    | nil =>
      obtain ⟨up', h⟩ := pascalLoop_word w (hw w (by simp)) true []
      simp only [List.append_nil, if_true] at h
      have e : [' '].intercalate [w] = w := by simp [List.intercalate]
      have e2 : pascalLoop up' [] = [] := by cases up' <;> rfl
      rw [pascalCase, e, h, e2]
      simp only [List.append_nil, List.flatMap_cons, List.flatMap_nil, pascalWord]
      cases w.filter fun c => isLetter c <;> rfl
    | cons w' ws =>
      have ih' := ih (fun x hx => hw x (by simp at hx ⊢; right; exact hx))
      obtain ⟨up', h⟩ := pascalLoop_word w (hw w (by simp)) true
        (' ' :: [' '].intercalate (w' :: ws))
      rw [intercalate_cons_cons, pascalCase, List.append_assoc, List.singleton_append, h]
      have e2 : pascalLoop up' (' ' :: [' '].intercalate (w' :: ws)) =
          pascalCase ([' '].intercalate (w' :: ws)) := by simp [pascalLoop, pascalCase]
      rw [e2, ih', List.flatMap_cons]
      congr 1

/-- every phrase is words joined by spaces -/
theorem C58_every_phrase (s : Str) :
    ∃ words, s = [' '].intercalate words ∧ ∀ w ∈ words, ' ' ∉ w :=
  ⟨splitChar ' ' s, (splitChar_intercalate ' ' s).symm, splitChar_not_mem ' ' s⟩

/-- For every phrase, the generated name has only letters, and starts with a capital letter if it is
not empty. -/
theorem C58_shape (s : Str) :
    (∀ c ∈ pascalCase s, isLetter c) ∧ ∀ c, (pascalCase s).head? = some c → isUpper c := by
  have hcap : ∀ c, isLetter c → isUpper (capital c) := by
    intro c hc
    have : ∀ n : Fin 128, isLetter (Char.ofNat n) → isUpper (capital (Char.ofNat n)) := by decide +kernel
    have hn : c.toNat < 128 := by
      simp only [isLetter, Char.le_def, UInt32.le_iff_toNat_le] at hc
      have e1 : 'z'.val.toNat = 122 := rfl
      have e2 : 'Z'.val.toNat = 90 := rfl
      have : c.toNat = c.val.toNat := rfl
      omega
    have h2 := this ⟨c.toNat, hn⟩
    simp only [Char.ofNat_toNat] at h2
    exact h2 hc
  have hsm : ∀ c, isLetter c → isLetter (small c) := by
    intro c hc
    have : ∀ n : Fin 128, isLetter (Char.ofNat n) → isLetter (small (Char.ofNat n)) := by decide +kernel
    have hn : c.toNat < 128 := by
      simp only [isLetter, Char.le_def, UInt32.le_iff_toNat_le] at hc
      have e1 : 'z'.val.toNat = 122 := rfl
      have e2 : 'Z'.val.toNat = 90 := rfl
      have : c.toNat = c.val.toNat := rfl
      omega
    have h2 := this ⟨c.toNat, hn⟩
    simp only [Char.ofNat_toNat] at h2
    exact h2 hc
  have hword : ∀ w, (∀ c ∈ pascalWord w, isLetter c) ∧
      ∀ c, (pascalWord w).head? = some c → isUpper c := by
    intro w
    unfold pascalWord
    cases hf : w.filter fun c => isLetter c with
    | nil => simp
    | cons c cs =>
      have hall : ∀ d ∈ c :: cs, isLetter d := by
        intro d hd; rw [← hf] at hd; simpa using (List.mem_filter.1 hd).2
      refine ⟨?_, ?_⟩
      · intro d hd
        simp only [List.mem_cons, List.mem_map] at hd
        rcases hd with rfl | ⟨e, he, rfl⟩
        · exact Or.inr (hcap c (hall c (by simp)))
        · exact hsm e (hall e (by simp [he]))
      · intro d hd
        simp only [List.head?_cons, Option.some.injEq] at hd
        rw [← hd]; exact hcap c (hall c (by simp))
  obtain ⟨words, rfl, hw⟩ := C58_every_phrase s
  rw [C58_pascal words hw]
  clear hw
  induction words with
  | nil => simp
  | cons w ws ih =>
    rw [List.flatMap_cons]
    refine ⟨?_, ?_⟩
    · intro c hc
      rcases List.mem_append.1 hc with h | h
      · exact (hword w).1 c h
      · exact ih.1 c h
    · intro c hc
      cases hp : pascalWord w with
      | nil => rw [hp, List.nil_append] at hc; exact ih.2 c hc
      | cons d ds =>
        apply (hword w).2
        rw [hp] at hc ⊢; simpa using hc

/-- The generated names are pairwise different and not empty, and none is `Other`. -/
theorem C58_distinct :
    (statusTable.map fun e => pascalCase e.2).Nodup ∧
      ∀ e ∈ statusTable, pascalCase e.2 ≠ [] ∧ pascalCase e.2 ≠ c!"Other" := by decide +kernel

example : pascalCase c!"I'm a teapot" = c!"ImATeapot" := by decide +kernel

/-! ### C43, C44 -/

theorem lookup_mem {t : List (Str × Str)} {k v : Str} (h : lookup t k = some v) : (k, v) ∈ t := by
  induction t with
  | nil => simp [lookup] at h
  | cons e t ih =>
    obtain ⟨a, b⟩ := e
    by_cases ha : a = k
    · simp only [lookup, if_pos ha, Option.some.injEq] at h; simp [ha, h]
    · simp only [lookup, if_neg ha] at h; exact List.mem_cons_of_mem _ (ih h)

theorem lookup_none {t : List (Str × Str)} {k : Str} : lookup t k = none ↔ ∀ v, (k, v) ∉ t := by
  induction t with
  | nil => simp [lookup]
  | cons e t ih =>
    obtain ⟨a, b⟩ := e
    by_cases ha : a = k
    · subst ha
      simp only [lookup, if_true, reduceCtorEq, false_iff]
      exact fun h => h b (by simp)
    · simp only [lookup, if_neg ha, ih, List.mem_cons, Prod.mk.injEq, not_or]
      constructor
      · exact fun h v => ⟨fun e => ha e.1.symm, h v⟩
      · exact fun h v => (h v).2

theorem rsplitDot_spec {stem ext : Str} (h : '.' ∉ ext) :
    rsplitDot (stem ++ '.' :: ext) = some (stem, ext) := by
  unfold rsplitDot
  have e : ((stem ++ '.' :: ext).reverse.takeWhile (· ≠ '.')) = ext.reverse := by
    rw [List.reverse_append, List.reverse_cons, List.append_assoc, List.singleton_append]
    have hx : '.' ∉ ext.reverse := by simpa using h
    generalize ext.reverse = l at hx
    induction l with
    | nil => simp
    | cons c l ih =>
      have hc : c ≠ '.' := fun e => hx (by simp [e])
      rw [List.cons_append, List.takeWhile_cons]
      simp only [ne_eq, hc, not_false_eq_true, decide_true, if_true, List.cons.injEq, true_and]
      exact ih (fun h => hx (by simp [h]))
  rw [if_pos (by simp), e]
  have hl : stem.length + (ext.length + 1) - ext.length - 1 = stem.length := by omega
  simp [hl]

theorem fileName_spec {path name : Str} (h : FileNamed path name) : fileName path = some name := by
  obtain ⟨pre, post, rfl, hs, hp, h1, h2, h3⟩ := h
  unfold fileName
  rw [splitChar_join (by simp) hs]
  have e : (pre ++ name :: post).filter (fun s => s ≠ [] && s ≠ c!".") =
      pre.filter (fun s => s ≠ [] && s ≠ c!".") ++ [name] := by
    rw [List.filter_append, List.filter_cons]
    have : post.filter (fun s => s ≠ [] && s ≠ c!".") = [] := by
      rw [List.filter_eq_nil_iff]
      intro p hpm
      rcases hp p hpm with rfl | rfl <;> simp
    rw [this]
    simp [h1, h2]
  rw [e, List.getLast?_concat]
  simp [h3]

/-- the type the table gives, with the one row the code gets wrong (see C44) -/
def codeRows : List (Str × Str) :=
  mediaRows.map fun e => if e.1 = c!"bin" then (e.1, c!"applcation/octet-stream") else e

theorem mime_tables : mimeTable = codeRows := by decide +kernel

/-- The type of a file with an extension is the tabulated one of the case-folded last extension
if there is one and `text/plain` otherwise. The one row of the code's table that is not the registered
type is `bin` (see C44). -/
theorem C43_by_extension (U : Unicode) (path name ext : Str) (hn : FileNamed path name)
    (he : LastExt name ext) :
    (∀ t, (U.lower ext, t) ∈ mediaRows → U.lower ext ≠ c!"bin" → getExtension U path = t) ∧
    (U.lower ext = c!"bin" → getExtension U path = c!"applcation/octet-stream") ∧
    ((∀ t, (U.lower ext, t) ∉ mediaRows) → getExtension U path = c!"text/plain") := by
  obtain ⟨stem, hst, rfl, hd⟩ := he
  have e : extension path = some ext := by
    unfold extension
    rw [fileName_spec hn]
    simp only
    rw [rsplitDot_spec hd]
    simp [hst]
  have huniq : (mimeTable.map (·.1)).Nodup := by decide +kernel
  have hlook : ∀ k t, (k, t) ∈ mimeTable → lookup mimeTable k = some t := by
    intro k t hm
    cases hl : lookup mimeTable k with
    | none => exact absurd hm (lookup_none.1 hl t)
    | some t' =>
      have h1 := HMap.get_of_mem (m := mimeTable) huniq hm
      have h2 := HMap.get_of_mem (m := mimeTable) huniq (lookup_mem hl)
      rw [h1] at h2; simpa using h2.symm
  unfold getExtension mimeType
  rw [e]
  refine ⟨?_, ?_, ?_⟩
  · intro t ht hb
    have : (U.lower ext, t) ∈ mimeTable := by
      rw [mime_tables, codeRows, List.mem_map]
      exact ⟨_, ht, by simp [hb]⟩
    simp only [Option.getD_some]
    rw [hlook _ _ this]; rfl
  · intro hb
    simp only [Option.getD_some, hb]
    decide +kernel
  · intro ht
    have : lookup mimeTable (U.lower ext) = none := by
      rw [lookup_none]
      intro v hv
      rw [mime_tables, codeRows, List.mem_map] at hv
      obtain ⟨⟨a, b⟩, hab, h2⟩ := hv
      by_cases hbin : a = c!"bin"
      · simp [hbin] at h2; exact ht b (by rw [← h2.1, ← hbin]; exact hab)
      · simp [hbin] at h2; exact ht b (by rw [← h2.1]; exact hab)
    simp only [Option.getD_some, this, Option.getD_none]

/-- Only the case-folded last extension matters. -/
theorem C43_depends_only (U : Unicode) (p p' n n' e e' : Str) (h1 : FileNamed p n) (h2 : FileNamed p' n')
    (h3 : LastExt n e) (h4 : LastExt n' e') (h : U.lower e = U.lower e') :
    getExtension U p = getExtension U p' := by
  have key : ∀ {p n e}, FileNamed p n → LastExt n e → getExtension U p = mimeType U e := by
    intro p n e hn he
    obtain ⟨stem, hst, rfl, hd⟩ := he
    unfold getExtension extension
    rw [fileName_spec hn]
    simp only
    rw [rsplitDot_spec hd]
    simp [hst]
  rw [key h1 h3, key h2 h4, mimeType, mimeType, h]

/-- A name without an extension (no dot, or only a leading one) is `text/plain`. -/
theorem C43_no_extension (U : Unicode) (path name : Str) (hn : FileNamed path name)
    (h : '.' ∉ name ∨ ∃ ext, name = '.' :: ext ∧ '.' ∉ ext) : getExtension U path = c!"text/plain" := by
  have e : extension path = none := by
    unfold extension
    rw [fileName_spec hn]
    simp only
    rcases h with h | ⟨ext, rfl, hd⟩
    · simp [rsplitDot, h]
    · have := rsplitDot_spec (stem := []) hd
      rw [List.nil_append] at this
      rw [this]; simp
  unfold getExtension mimeType
  rw [e]
  have : U.lower [] = [] := U.lower_ascii [] rfl
  simp only [Option.getD_none, this]
  decide +kernel

theorem last_filter {p : Str → Bool} {l : List Str} {x : Str} (h : (l.filter p).getLast? = some x) :
    ∃ pre post, l = pre ++ x :: post ∧ p x = true ∧ ∀ y ∈ post, p y = false := by
  induction l with
  | nil => simp at h
  | cons a l ih =>
    cases hr : (l.filter p).getLast? with
    | some y =>
      have : ((a :: l).filter p).getLast? = some y := by
        rw [List.filter_cons]
        split
        · rw [List.getLast?_cons, hr]; rfl
        · exact hr
      rw [this] at h
      injection h with h; subst h
      obtain ⟨pre, post, rfl, h1, h2⟩ := ih hr
      exact ⟨a :: pre, post, rfl, h1, h2⟩
    | none =>
      have hnil : l.filter p = [] := List.getLast?_eq_none_iff.1 hr
      rw [List.filter_cons, hnil] at h
      split at h
      · rename_i ha
        simp at h; subst h
        refine ⟨[], l, rfl, ha, fun y hy => ?_⟩
        have := List.filter_eq_nil_iff.1 hnil y hy
        simpa using this
      · simp at h

/-- the name is the one meant by the specification -/
theorem fileNamed_of {path name : Str} (hf : fileName path = some name) : FileNamed path name := by
  unfold fileName at hf
  split at hf
  · simp at hf
  · rename_i s hs
    split at hf
    · simp at hf
    · rename_i hdd
      injection hf with hf; subst hf
      obtain ⟨pre, post, he, h1, h2⟩ := last_filter hs
      simp at h1
      refine ⟨pre, post, ?_, ?_, ?_, h1.1, h1.2, hdd⟩
      · rw [← he, splitChar_intercalate]
      · rw [← he]; exact splitChar_not_mem '/' path
      · intro p hp
        have := h2 p hp
        simp only [Bool.and_eq_false_iff, decide_eq_false_iff_not, ne_eq, Classical.not_not] at this
        exact this

/-- a name has an extension, or no dot, or only a leading one -/
theorem name_cases (name : Str) :
    (∃ ext, LastExt name ext) ∨ '.' ∉ name ∨ ∃ ext, name = '.' :: ext ∧ '.' ∉ ext := by
  by_cases hd : '.' ∈ name
  · have hr : '.' ∈ name.reverse := by simpa using hd
    obtain ⟨a, b, hab, ha⟩ := split_first_mem hr
    have hn : name = b.reverse ++ '.' :: a.reverse := by
      rw [← List.reverse_reverse name, hab]; simp
    have ha' : '.' ∉ a.reverse := by simpa using ha
    by_cases hb : b.reverse = []
    · right; right; exact ⟨a.reverse, by rw [hn, hb]; rfl, ha'⟩
    · left; exact ⟨a.reverse, b.reverse, hb, hn, ha'⟩
  · right; left; exact hd

/-- Every path names a file or has type `text/plain`; so the theorems above cover all paths. -/
theorem C43_every_path (U : Unicode) (path : Str) :
    (∃ name, FileNamed path name ∧ ((∃ ext, LastExt name ext) ∨
      '.' ∉ name ∨ ∃ ext, name = '.' :: ext ∧ '.' ∉ ext)) ∨
    getExtension U path = c!"text/plain" := by
  cases hf : fileName path with
  | none =>
    right
    unfold getExtension mimeType extension
    rw [hf]
    have : U.lower [] = [] := U.lower_ascii [] rfl
    simp only [Option.getD_none, this]
    decide +kernel
  | some name => exact .inl ⟨name, fileNamed_of hf, name_cases name⟩

example : FileNamed c!"/srv/www/Photo.old.JPG" c!"Photo.old.JPG" :=
  ⟨[[], c!"srv", c!"www"], [], by decide +kernel, by decide +kernel, by decide +kernel,
    by decide +kernel, by decide +kernel, by decide +kernel⟩
example : LastExt c!"Photo.old.JPG" c!"JPG" := ⟨c!"Photo.old", by decide +kernel, by decide +kernel, by decide +kernel⟩
example : getExtension Unicode.asciiOnly c!"/srv/www/Photo.old.JPG" = c!"image/jpeg" := by decide +kernel

/-- The full claim of C44: every type produced is `<top>/<sub>` with a registered top-level type. -/
def C44_statement (U : Unicode) : Prop :=
  ∀ ext, ∃ top sub, mimeType U ext = top ++ '/' :: sub ∧ top ∈ topLevel ∧ sub ≠ [] ∧ '/' ∉ sub

/-- It holds for every extension but `bin` (in any case). -/
theorem C44_wellformed_partial (U : Unicode) (ext : Str) (h : U.lower ext ≠ c!"bin") :
    ∃ top sub, mimeType U ext = top ++ '/' :: sub ∧ top ∈ topLevel ∧ sub ≠ [] ∧ '/' ∉ sub := by
  have hall : ∀ e ∈ mimeTable, e.1 ≠ c!"bin" →
      (e.2.takeWhile (· ≠ '/')) ∈ topLevel ∧ (e.2.dropWhile (· ≠ '/')).head? = some '/' ∧
        (e.2.dropWhile (· ≠ '/')).tail ≠ [] ∧ '/' ∉ (e.2.dropWhile (· ≠ '/')).tail := by decide +kernel
  unfold mimeType
  cases hl : lookup mimeTable (U.lower ext) with
  | none => exact ⟨c!"text", c!"plain", by rfl, by decide +kernel, by decide +kernel, by decide +kernel⟩
  | some t =>
    obtain ⟨h1, h2, h3, h4⟩ := hall _ (lookup_mem hl) h
    refine ⟨_, _, ?_, h1, h3, h4⟩
    have e : t = t.takeWhile (· ≠ '/') ++ t.dropWhile (· ≠ '/') := List.takeWhile_append_dropWhile.symm
    simp only [Option.getD_some]
    cases hd : t.dropWhile (· ≠ '/') with
    | nil => rw [hd] at h2; simp at h2
    | cons c cs =>
      rw [hd] at h2
      simp only [List.head?_cons, Option.some.injEq] at h2
      rw [hd, h2] at e
      exact e

/-- The claim is false: `bin` gives `applcation/octet-stream`. -/
theorem C44_counterexample (U : Unicode) : ¬ C44_statement U := by
  intro h
  obtain ⟨top, sub, h1, h2, -, -⟩ := h c!"bin"
  have e : mimeType U c!"bin" = c!"applcation/octet-stream" := by
    unfold mimeType
    rw [U.lower_ascii c!"bin" (by decide)]
    decide +kernel
  rw [e] at h1
  simp only [topLevel, List.mem_cons, List.not_mem_nil, or_false] at h2
  rcases h2 with rfl | rfl | rfl | rfl | rfl | rfl <;> simp at h1

/-- 404, and a status of one's own -/
example := C42_status_line .asciiOnly (Response.newEmpty.status .notFound) _ rfl
example := C42_custom_ascii .asciiOnly (Response.newEmpty.status (.other 299 c!"fine")) 299 c!"fine" rfl (by decide)

/-- two names with the same extension in different case -/
example := C43_depends_only .asciiOnly c!"/d/x.JPG" c!"y.jpg" c!"x.JPG" c!"y.jpg" c!"JPG" c!"jpg"
  (fileNamed_of (by decide +kernel)) (fileNamed_of (by decide +kernel))
  ⟨c!"x", by decide, by decide, by decide⟩ ⟨c!"y", by decide, by decide, by decide⟩ (by decide)
/-- a name with a leading dot only -/
example := C43_no_extension .asciiOnly c!"/d/.profile" c!".profile" (fileNamed_of (by decide +kernel))
  (.inr ⟨c!"profile", rfl, by decide⟩)
example := C44_wellformed_partial .asciiOnly c!"no such extension" (by decide)

end Octane
