import Verif.Model.Response
import Verif.Spec.Response
import Verif.Proof.Request
import Verif.Proof.Show
/-
Helper lemmas about serialised responses and the client's reading of them.
-/
namespace Octane
open Spec

/-! ### copying -/

theorem copyLoop_cursor (fuel : Nat) (b : Bytes) (h : b.length < fuel) :
    copyLoop fuel (.cursor b) = (b, true) := by
  induction fuel generalizing b with
  | zero => omega
  | succ fuel ih =>
    simp only [copyLoop, Reader.pollRead]
    cases b with
    | nil => simp
    | cons x xs =>
      have hne : (x :: xs).take 2048 ≠ [] := by simp
      rw [if_neg hne, ih _ (by simp at h ⊢; omega)]
      simp

theorem copy_cursor (b : Bytes) : copy (.cursor b) = (b, true) :=
  copyLoop_cursor _ b (Nat.lt_succ_self _)

theorem copy_file (b : Bytes) : copy (.file (some b)) = ([], true) := by
  simp [copy, copyLoop, Reader.pollRead]

/-! ### lines -/

theorem intercalate_cons_cons {T : Type u} (sep l l' : List T) (ls : List (List T)) :
    sep.intercalate (l :: l' :: ls) = l ++ sep ++ sep.intercalate (l' :: ls) := by
  simp [List.intercalate]

theorem lines_inj {ls ls' : List Str} (h1 : ls ≠ []) (h2 : ls' ≠ []) (h3 : ∀ l ∈ ls, ¬ Occurs l crlf)
    (h4 : ∀ l ∈ ls', ¬ Occurs l crlf) (h : crlf.intercalate ls = crlf.intercalate ls') : ls = ls' := by
  have e1 := collect_lines ls h1 h3 _ (Nat.le_refl _)
  have e2 := collect_lines ls' h2 h4 _ (Nat.le_refl _)
  rw [h, e2] at e1
  have e3 := Option.some.inj (Res.ok.inj e1)
  exact (List.map_inj_right (fun _ _ => utf8_injective)).1 e3.symm

theorem HeaderLine.unique {f : Bool} {l n v n' v' : Str} (h : HeaderLine f l n v)
    (h' : HeaderLine f l n' v') : n = n' ∧ v = v' := by
  have e1 := (Header.parse_iff f l ⟨n, v⟩).2 h
  have e2 := (Header.parse_iff f l ⟨n', v'⟩).2 h'
  rw [e1] at e2
  simpa using e2

theorem HeaderLines.unique {ls : List Str} {hs hs' : List (Str × Str)} (h : HeaderLines ls hs)
    (h' : HeaderLines ls hs') : hs = hs' := by
  induction h generalizing hs' with
  | nil => cases h'; rfl
  | cons a b ih =>
    cases h' with
    | cons a' b' =>
      obtain ⟨rfl, rfl⟩ := HeaderLine.unique a a'
      rw [ih b']

theorem split_at_space' {a b x y : Str} (ha : ' ' ∉ a) (hb : ' ' ∉ b)
    (h : a ++ ' ' :: x = b ++ ' ' :: y) : a = b ∧ x = y := by
  have e1 := splitN2_append ha x
  have e2 := splitN2_append hb y
  rw [h, e2] at e1
  simp at e1
  exact ⟨e1.1.symm, e1.2.symm⟩

/-- a client reads a byte stream in at most one way -/
theorem Spec.ClientParses.unique {b : Bytes} {v v' : ClientView} (h : ClientParses b v)
    (h' : ClientParses b v') : v = v' := by
  obtain ⟨sl, ls, f1, n1, s1, l1⟩ := h
  obtain ⟨sl', ls', f2, n2, s2, l2⟩ := h'
  obtain ⟨e1, e2⟩ := f1.unique f2
  have e3 := lines_inj (by simp) (by simp) n1 n2 (utf8_injective e1)
  simp only [List.cons.injEq] at e3
  obtain ⟨rfl, rfl⟩ := e3
  have e4 := HeaderLines.unique l1 l2
  obtain ⟨t1, t2, t3⟩ := s1
  obtain ⟨t4, t5, t6⟩ := s2
  rw [t1] at t4
  simp only [List.append_assoc] at t4
  have t7 := List.append_cancel_left t4
  simp only [List.cons_append] at t7
  obtain ⟨a1, a2⟩ := split_at_space' t2 t5 t7
  obtain ⟨a3, a4⟩ := split_at_space' t3 t6 a2
  cases v; cases v'
  simp only [ClientView.mk.injEq] at *
  exact ⟨a1, a3, a4, e4, e2⟩

/-! ### the end of the head -/

theorem cr_not_mem_utf8 {s : Str} (h : '\r' ∉ s) : (13 : UInt8) ∉ utf8 s := by
  intro hm
  obtain ⟨a, b, hab⟩ := List.append_of_mem hm
  obtain ⟨s1, s2, e, -, -⟩ := utf8_split_ascii (by decide) hab
  apply h
  rw [e]
  have : Char.ofNat (13 : UInt8).toNat = '\r' := by decide
  rw [this]; simp

theorem no_crlf_of_no_cr {s : Str} (h : '\r' ∉ s) : ¬ Occurs s crlf := by
  rintro ⟨i, a, b, e, -⟩
  apply h; rw [e]; simp [crlf]

theorem occursAt_getElem {T : Type u} {s n : List T} {j : Nat} (h : OccursAt s n j) (k : Nat)
    (hk : k < n.length) : s[j + k]? = n[k]? := by
  obtain ⟨a, b, rfl, rfl⟩ := h
  rw [List.append_assoc, List.getElem?_append_right (by omega),
    List.getElem?_append_left (by omega)]
  congr 1; omega

/-- an occurrence of the blank line starts with CR, so not inside a piece without CR -/
theorem blank_after {l t : Bytes} (hl : (13 : UInt8) ∉ l) {j : Nat}
    (h : OccursAt (l ++ t) blankLine j) : l.length ≤ j := by
  rcases Nat.lt_or_ge j l.length with hj | hj
  · have e := occursAt_getElem h 0 (by decide)
    rw [Nat.add_zero, List.getElem?_append_left hj] at e
    exact absurd (List.mem_of_getElem? e) hl
  · exact hj

theorem occursAt_drop {T : Type u} {l t n : List T} {j : Nat} (h : OccursAt (l ++ t) n j)
    (hj : l.length ≤ j) : OccursAt t n (j - l.length) := by
  obtain ⟨a, b, e, rfl⟩ := h
  rw [List.append_assoc, List.append_eq_append_iff] at e
  rcases e with ⟨z, rfl, e2⟩ | ⟨z, e1, e2⟩
  · exact ⟨z, b, by simp [e2], by simp⟩
  · have hz : z.length = 0 := by have := congrArg List.length e1; simp at this; omega
    have hz : z = [] := List.length_eq_zero_iff.1 hz
    subst hz
    simp only [List.nil_append, List.append_nil] at e1 e2
    exact ⟨[], b, by simpa using e2.symm, by rw [e1]; simp⟩

/-- lines that contain no CR and are not empty, joined by CRLF, and then a CRLF: no blank line
begins before that last CRLF -/
theorem blank_not_in_lines (l : Str) (ls : List Str) (hl : ∀ x ∈ l :: ls, '\r' ∉ x ∧ x ≠ []) (t : Bytes)
    {j : Nat} (h : OccursAt (utf8 (crlf.intercalate (l :: ls)) ++ (crlfB ++ t)) blankLine j) :
    (utf8 (crlf.intercalate (l :: ls))).length ≤ j := by
  induction ls generalizing l j with
  | nil =>
    have e : crlf.intercalate [l] = l := by simp [List.intercalate]
    rw [e] at h ⊢
    exact blank_after (cr_not_mem_utf8 (hl l (by simp)).1) h
  | cons l' ls ih =>
    rw [intercalate_cons_cons, utf8_append, utf8_append, utf8_crlf] at h ⊢
    simp only [List.append_assoc] at h ⊢
    have h1 := blank_after (cr_not_mem_utf8 (hl l (by simp)).1) h
    have h2 := occursAt_drop h h1
    generalize hk : j - (utf8 l).length = k at h2
    -- the rest starts with a byte that is not CR
    have hne := (hl l' (by simp)).2
    have hcr := (hl l' (by simp)).1
    obtain ⟨x, r, hxr, hx⟩ : ∃ x r, utf8 (crlf.intercalate (l' :: ls)) = x :: r ∧ x ≠ 13 := by
      have hsub : ∃ r', crlf.intercalate (l' :: ls) = l' ++ r' := by
        cases ls with
        | nil => exact ⟨[], by simp [List.intercalate]⟩
        | cons a b => exact ⟨_, by rw [intercalate_cons_cons, List.append_assoc]⟩
      obtain ⟨r', hr'⟩ := hsub
      rw [hr', utf8_append]
      have hu : utf8 l' ≠ [] := by
        intro h0
        exact hne (utf8_injective (by rw [h0]; rfl))
      cases hu' : utf8 l' with
      | nil => exact absurd hu' hu
      | cons x r =>
        refine ⟨x, _, rfl, ?_⟩
        intro h0
        apply cr_not_mem_utf8 hcr
        rw [hu', h0]; simp
    have hk2 : 2 ≤ k := by
      rcases Nat.lt_or_ge k 2 with hlt | hge
      · exfalso
        have hk' : k = 0 ∨ k = 1 := by omega
        rcases hk' with rfl | rfl
        · have e := occursAt_getElem h2 2 (by decide)
          rw [hxr] at e
          simp [crlfB, blankLine] at e
          exact hx e
        · have e := occursAt_getElem h2 0 (by decide)
          simp [crlfB, blankLine] at e
      · exact hge
    have h3 := occursAt_drop (l := crlfB) h2 (by simpa [crlfB] using hk2)
    have h4 := ih l' (fun x hx => hl x (by simp at hx ⊢; right; exact hx)) h3
    simp only [List.length_append]
    have : crlfB.length = 2 := rfl
    omega

theorem firstSplit_lines (l : Str) (ls : List Str) (hl : ∀ x ∈ l :: ls, '\r' ∉ x ∧ x ≠ [])
    (body : Bytes) :
    FirstSplit (utf8 (crlf.intercalate (l :: ls)) ++ blankLine ++ body) blankLine
      (utf8 (crlf.intercalate (l :: ls))) body := by
  refine ⟨rfl, fun j hj ho => ?_⟩
  have : blankLine = crlfB ++ crlfB := rfl
  rw [List.append_assoc] at ho
  have e : utf8 (crlf.intercalate (l :: ls)) ++ (blankLine ++ body) =
    utf8 (crlf.intercalate (l :: ls)) ++ (crlfB ++ (crlfB ++ body)) := by rw [this]; simp
  rw [e] at ho
  have := blank_not_in_lines l ls hl _ ho
  omega

/-! ### serialisation -/

/-- the text of one header line -/
def headerLine (d : Str × Str) : Str := d.1 ++ c!": " ++ d.2

/-- the status line without CRLF -/
def Response.statusText (U : Unicode) (r : Response) : Str :=
  c!"HTTP/" ++ r.httpVersion ++ ' ' :: showInt r.statusCode.code ++ ' ' :: U.upperStr r.statusCode.toStr

theorem flatMap_lines (sl : Str) (m : List (Str × Str)) :
    sl ++ crlf ++ (m.flatMap fun d => d.1 ++ c!":" ++ [' '] ++ d.2 ++ c!"\r\n") =
      crlf.intercalate (sl :: m.map headerLine) ++ crlf := by
  induction m generalizing sl with
  | nil => simp [List.intercalate]
  | cons d m ih =>
    have h := ih (headerLine d)
    rw [List.map_cons, intercalate_cons_cons, List.append_assoc (sl ++ crlf), ← h]
    simp [headerLine, crlf]

theorem join_eq (ls : List Str) : Response.join c!"\r\n" ls = crlf.intercalate ls := by
  induction ls with
  | nil => simp [Response.join, List.intercalate]
  | cons l ls ih =>
    cases ls with
    | nil => simp [Response.join, List.intercalate]
    | cons l' ls =>
      rw [intercalate_cons_cons, ← ih]
      simp [Response.join, crlf]

/-- without cookies the text is the lines, each ended by CRLF, and a blank line -/
theorem getData_plain (U : Unicode) (cookies : Bool) (ord : MapOrder) (r : Response)
    (hc : cookies = false ∨ r.cookies = []) :
    (r.getData U cookies ord).1 =
      crlf.intercalate (r.statusText U :: (ord.enum r.headers).map headerLine) ++ (crlf ++ crlf) := by
  have h0 : (if cookies then Response.join c!"\r\n" (r.cookies.map Cookie.serialise) else []) = [] := by
    rcases hc with h | h
    · rw [h]; rfl
    · rw [h]; simp [Response.join]
  unfold Response.getData Response.headersStr
  simp only [h0, List.append_nil]
  have := flatMap_lines (r.statusText U) (ord.enum r.headers)
  rw [← List.append_assoc, ← this]
  simp [Response.statusLine, Response.statusText, Response.reasonPhrase, crlf]

/-- with cookies there is no blank line after the last one -/
theorem getData_cookies (U : Unicode) (ord : MapOrder) (r : Response) (hc : r.cookies ≠ []) :
    (r.getData U true ord).1 =
      crlf.intercalate (r.statusText U :: ((ord.enum r.headers).map headerLine ++
        r.cookies.map Cookie.serialise)) ++ crlf := by
  unfold Response.getData Response.headersStr
  simp only [if_true, join_eq]
  have h1 := flatMap_lines (r.statusText U) (ord.enum r.headers)
  have h2 : ∀ (a b : List Str), a ≠ [] → b ≠ [] →
      crlf.intercalate (a ++ b) = crlf.intercalate a ++ crlf ++ crlf.intercalate b := by
    intro a b ha hb
    induction a with
    | nil => exact absurd rfl ha
    | cons x a ih =>
      cases a with
      | nil =>
        cases b with
        | nil => exact absurd rfl hb
        | cons y b => rw [List.singleton_append, intercalate_cons_cons]; simp [List.intercalate]
      | cons y a =>
        rw [List.cons_append, List.cons_append, intercalate_cons_cons, intercalate_cons_cons,
          ← List.cons_append, ih (by simp)]
        simp
  rw [← List.cons_append, h2 _ _ (by simp) (by simpa using hc), ← h1]
  simp [Response.statusLine, Response.statusText, Response.reasonPhrase, crlf]

theorem utf8_blank : utf8 (crlf ++ crlf) = blankLine := by decide

end Octane
