import Verif.Model.CostQuery
import Verif.Proof.Query
import Verif.Proof.QuerySize
/-
The counting functions of `Model/CostQuery.lean` compute what the plain ones do, and how much they count.
-/
namespace Octane
namespace Query
open Spec

theorem unescapeLoopC_same (fuel : Nat) (p : DoublePeek) (ret : Str) :
    (unescapeLoopC fuel p ret).1 = unescapeLoop fuel p ret := by
  induction fuel generalizing p ret with
  | zero => rfl
  | succ fuel ih =>
    unfold unescapeLoopC unescapeLoop
    rcases p.next with ⟨o, p'⟩
    cases o with
    | none => rfl
    | some val =>
      simp only
      by_cases hv : val ≠ '%'
      · rw [if_pos hv, if_pos hv]
        exact ih _ _
      · rw [if_neg hv, if_neg hv]
        cases ({ p' with unpeek := true } : DoublePeek).peek with
        | panic => rfl
        | ok x =>
          obtain ⟨o, q⟩ := x
          cases o with
          | none => exact ih _ _
          | some c1 =>
            simp only [Res.bind_ok']
            cases q.peek with
            | panic => rfl
            | ok y =>
              obtain ⟨o, q'⟩ := y
              cases o with
              | none => exact ih _ _
              | some c2 =>
                simp only [Res.bind_ok']
                cases fromHex c1 with
                | none => exact ih _ _
                | some x =>
                  cases fromHex c2 with
                  | none => exact ih _ _
                  | some y =>
                    simp only
                    by_cases hb : x * 16 + y < 256
                    · rw [if_pos hb, if_pos hb]
                      exact ih _ _
                    · rw [if_neg hb, if_neg hb]

theorem unescapeHexC_same (s : Str) : (unescapeHexC s).1 = unescapeHex s := unescapeLoopC_same _ _ _

theorem unescapeLoopC_le (fuel : Nat) (p : DoublePeek) (ret : Str) (hs : p.stored ≤ 2) :
    (unescapeLoopC fuel p ret).2 ≤ 3 * p.content.length + 1 := by
  induction fuel generalizing p ret with
  | zero => simp [unescapeLoopC]
  | succ fuel ih =>
    obtain ⟨h1, h2, h3⟩ := p.next_spec (by omega)
    unfold unescapeLoopC
    rcases hn : p.next with ⟨o, p'⟩
    rw [hn] at h1 h2 h3
    simp only at h1 h2 h3
    cases hc : p.content with
    | nil => rw [hc] at h1; simp [h1]
    | cons val cs =>
      rw [hc] at h1 h2
      simp only [List.head?_cons, List.tail_cons] at h1 h2
      subst h1
      simp only
      by_cases hv : val = '%'
      · subst hv
        simp only [ne_eq, not_true_eq_false, if_false]
        have key : (cs = [] ∧ ∃ q, ({ p' with unpeek := true } : DoublePeek).peek = .ok (none, q) ∧
              q.content = [] ∧ q.stored ≤ 2) ∨
            (∃ a q, cs = [a] ∧ ({ p' with unpeek := true } : DoublePeek).peek = .ok (some a, q) ∧
              ∃ q', q.peek = .ok (none, q') ∧ q'.content = [a] ∧ q'.stored ≤ 2) ∨
            (∃ a b r q, cs = a :: b :: r ∧ ({ p' with unpeek := true } : DoublePeek).peek = .ok (some a, q) ∧
              ∃ q', q.peek = .ok (some b, q') ∧ q'.content = a :: b :: r ∧ q'.stored = 2) := by
          clear hn
          obtain ⟨iter, c0, c1, stored, unpeek⟩ := p'
          simp only at h3
          match stored, h3 with
          | 0, _ =>
            simp only [DoublePeek.content] at h2
            subst h2
            match iter with
            | [] => left; simp [DoublePeek.peek, DoublePeek.content]
            | [a] => right; left; simp [DoublePeek.peek, DoublePeek.content]
            | a :: b :: r =>
              exact .inr (.inr ⟨a, b, r, _, rfl, rfl, _, rfl, rfl, rfl⟩)
          | 1, _ =>
            simp only [DoublePeek.content] at h2
            subst h2
            match iter with
            | [] => right; left; simp [DoublePeek.peek, DoublePeek.content]
            | b :: r =>
              exact .inr (.inr ⟨c0, b, r, _, rfl, rfl, _, rfl, rfl, rfl⟩)
        rcases key with ⟨rfl, q, e1, e2, e3⟩ | ⟨a, q, rfl, e1, q', e2, e3, e4⟩ |
          ⟨a, b, r, q, rfl, e1, q', e2, e3, e4⟩
        · rw [e1]
          have := ih q (ret ++ ['%']) e3
          rw [e2] at this
          simp only [List.length_cons, List.length_nil] at *
          omega
        · rw [e1]
          simp only [e2]
          have := ih q' (ret ++ ['%']) e4
          rw [e3] at this
          simp only [List.length_cons, List.length_nil] at *
          omega
        · rw [e1]
          simp only [e2]
          have hrec := ih q' (ret ++ ['%']) (by omega)
          rw [e3] at hrec
          cases hx : fromHex a with
          | none => simp only [List.length_cons] at *; omega
          | some x =>
            cases hy : fromHex b with
            | none => simp only [List.length_cons] at *; omega
            | some y =>
              obtain ⟨-, n2, n3⟩ := q'.next_spec (by omega)
              obtain ⟨-, m2, m3⟩ := q'.next.2.next_spec (by omega)
              rw [n2, e3] at m2
              simp only
              split
              · have := ih q'.next.2.next.2 (ret ++ [Char.ofNat (x * 16 + y)]) (by omega)
                rw [m2] at this
                simp only [List.length_cons, List.tail_cons] at *
                omega
              · simp only [List.length_cons]; omega
      · rw [if_pos hv]
        have := ih p' (ret ++ [val]) (by omega)
        rw [h2] at this
        simp only [List.length_cons] at *
        omega

/-- one if a `%` is the last character -/
def lastPercent (s : Str) : Nat := if s.getLast? = some '%' then 1 else 0

theorem lastPercent_cons (a b : Char) (s : Str) : lastPercent (a :: b :: s) = lastPercent (b :: s) := by
  simp [lastPercent]

theorem fromHex_ne {c : Char} {x : Nat} (h : fromHex c = some x) : c ≠ '%' := by
  rintro rfl
  rw [show fromHex '%' = none by decide] at h
  exact absurd h (by simp)

theorem lastPercent_tail {c : Char} (h : c ≠ '%') (s : Str) : lastPercent (c :: s) = lastPercent s := by
  cases s with
  | nil => simp [lastPercent, h]
  | cons b s => exact lastPercent_cons c b s

theorem fromHex_byte {a b : Char} {x y : Nat} (hx : fromHex a = some x) (hy : fromHex b = some y) : x * 16 + y < 256 := by
  have key : ∀ {c : Char} {n : Nat}, fromHex c = some n → n < 16 := by
    intro c n h
    unfold fromHex at h
    simp only at h
    split at h
    · simp at h
    · split at h
      · simp only [Option.some.injEq] at h; omega
      · split at h
        · simp only [Option.some.injEq] at h; omega
        · split at h
          · simp only [Option.some.injEq] at h; omega
          · simp at h
  have := key hx
  have := key hy
  omega

theorem unescapeLoopC_eq (fuel : Nat) (p : DoublePeek) (ret : Str) (hs : p.stored ≤ 2) (hf : p.content.length < fuel) :
    (unescapeLoopC fuel p ret).2 + lastPercent p.content = p.content.length + 1 + 2 * p.content.count '%' := by
  induction fuel generalizing p ret with
  | zero => omega
  | succ fuel ih =>
    obtain ⟨h1, h2, h3⟩ := p.next_spec (by omega)
    unfold unescapeLoopC
    rcases hn : p.next with ⟨o, p'⟩
    rw [hn] at h1 h2 h3
    simp only at h1 h2 h3
    cases hc : p.content with
    | nil => rw [hc] at h1; simp [h1, lastPercent]
    | cons val cs =>
      rw [hc] at h1 h2 hf
      simp only [List.head?_cons, List.tail_cons] at h1 h2
      subst h1
      simp only
      by_cases hv : val = '%'
      · subst hv
        simp only [ne_eq, not_true_eq_false, if_false]
        have key : (cs = [] ∧ ∃ q, ({ p' with unpeek := true } : DoublePeek).peek = .ok (none, q) ∧
              q.content = [] ∧ q.stored ≤ 2) ∨
            (∃ a q, cs = [a] ∧ ({ p' with unpeek := true } : DoublePeek).peek = .ok (some a, q) ∧
              ∃ q', q.peek = .ok (none, q') ∧ q'.content = [a] ∧ q'.stored ≤ 2) ∨
            (∃ a b r q, cs = a :: b :: r ∧ ({ p' with unpeek := true } : DoublePeek).peek = .ok (some a, q) ∧
              ∃ q', q.peek = .ok (some b, q') ∧ q'.content = a :: b :: r ∧ q'.stored = 2) := by
          clear hn
          obtain ⟨iter, c0, c1, stored, unpeek⟩ := p'
          simp only at h3
          match stored, h3 with
          | 0, _ =>
            simp only [DoublePeek.content] at h2
            subst h2
            match iter with
            | [] => left; simp [DoublePeek.peek, DoublePeek.content]
            | [a] => right; left; simp [DoublePeek.peek, DoublePeek.content]
            | a :: b :: r =>
              exact .inr (.inr ⟨a, b, r, _, rfl, rfl, _, rfl, rfl, rfl⟩)
          | 1, _ =>
            simp only [DoublePeek.content] at h2
            subst h2
            match iter with
            | [] => right; left; simp [DoublePeek.peek, DoublePeek.content]
            | b :: r =>
              exact .inr (.inr ⟨c0, b, r, _, rfl, rfl, _, rfl, rfl, rfl⟩)
        rcases key with ⟨rfl, q, e1, e2, e3⟩ | ⟨a, q, rfl, e1, q', e2, e3, e4⟩ |
          ⟨a, b, r, q, rfl, e1, q', e2, e3, e4⟩
        · rw [e1]
          have := ih q (ret ++ ['%']) e3 (by rw [e2]; simp at hf ⊢; omega)
          rw [e2] at this
          have e : lastPercent ['%'] = 1 := rfl
          have e' : lastPercent [] = 0 := rfl
          simp only [List.length_cons, List.length_nil, List.count_nil, List.count_singleton_self] at *
          omega
        · rw [e1]
          simp only [e2]
          have := ih q' (ret ++ ['%']) e4 (by rw [e3]; simp at hf ⊢; omega)
          rw [e3] at this
          rw [lastPercent_cons, List.count_cons_self]
          simp only [List.length_cons, List.length_nil] at *
          omega
        · rw [e1]
          simp only [e2]
          have hrec := ih q' (ret ++ ['%']) (by omega) (by rw [e3]; simp at hf ⊢; omega)
          rw [e3] at hrec
          rw [lastPercent_cons, List.count_cons_self]
          cases hx : fromHex a with
          | none => simp only [List.length_cons] at *; omega
          | some x =>
            cases hy : fromHex b with
            | none => simp only [List.length_cons] at *; omega
            | some y =>
              obtain ⟨-, n2, n3⟩ := q'.next_spec (by omega)
              obtain ⟨-, m2, m3⟩ := q'.next.2.next_spec (by omega)
              rw [n2, e3] at m2
              simp only [List.tail_cons] at m2
              have hb := fromHex_byte hx hy
              simp only
              rw [if_pos hb]
              have := ih q'.next.2.next.2 (ret ++ [Char.ofNat (x * 16 + y)]) (by omega)
                (by rw [m2]; simp at hf ⊢; omega)
              rw [m2] at this
              rw [lastPercent_tail (fromHex_ne hx), lastPercent_tail (fromHex_ne hy),
                List.count_cons_of_ne (fromHex_ne hx), List.count_cons_of_ne (fromHex_ne hy)]
              simp only [List.length_cons] at *
              omega
      · rw [if_pos hv]
        have := ih p' (ret ++ [val]) (by omega) (by rw [h2]; simp at hf ⊢; omega)
        rw [h2] at this
        rw [lastPercent_tail hv, List.count_cons_of_ne hv]
        simp only [List.length_cons] at *
        omega

theorem length_le_utf8 (s : Str) : s.length ≤ (utf8 s).length := by
  induction s with
  | nil => simp
  | cons c s ih =>
    have := encode_length_pos c
    simp only [utf8_cons, List.length_append, List.length_cons]
    omega

theorem unescapeHexC_le (s : Str) : (unescapeHexC s).2 ≤ 3 * (utf8 s).length + 1 := by
  have := unescapeLoopC_le (s.length + 1) (DoublePeek.new s) [] (by simp [DoublePeek.new])
  have h : (DoublePeek.new s).content = s := rfl
  rw [h] at this
  have := length_le_utf8 s
  unfold unescapeHexC
  omega

theorem unescapeHexC_ok (s : Str) : (unescapeHexC s).1 = .ok (decode s) := by
  rw [unescapeHexC_same, unescapeHex_eq]

theorem findC_le (c : Char) (s : Str) : findC c s ≤ (utf8 s).length := by
  have h := length_le_utf8 s
  have : findC c s ≤ s.length := by
    clear h
    induction s with
    | nil => simp [findC]
    | cons d s ih =>
      unfold findC
      simp only [List.length_cons]
      split <;> omega
  omega

theorem parseQueryLoopC_same (faithful : Bool) (toks : List Str) (ret : HMap Str Str) :
    (parseQueryLoopC faithful toks ret).1 = parseQueryLoop faithful toks ret := by
  induction toks generalizing ret with
  | nil => rfl
  | cons tok toks ih =>
    unfold parseQueryLoopC parseQueryLoop
    split
    · exact ih _
    · cases hf : findChar '=' tok with
      | none =>
        simp only [unescapeHexC_ok, unescapeHex_eq, Res.bind_ok']
        exact ih _
      | some v =>
        obtain ⟨name, rest, hn1, hn2, hsp⟩ := findChar_some hf
        simp only [hsp, Res.bind_ok', unescapeHexC_ok, unescapeHex_eq,
          sliceFrom_cons_ascii (show '='.toNat < 128 by decide)]
        split
        · exact ih _
        · exact ih _

theorem parseQueryLoopC_le (faithful : Bool) (toks : List Str) (ret : HMap Str Str) :
    (parseQueryLoopC faithful toks ret).2 ≤ 5 * (toks.map fun t => (utf8 t).length + 1).sum := by
  induction toks generalizing ret with
  | nil => simp [parseQueryLoopC]
  | cons tok toks ih =>
    unfold parseQueryLoopC
    simp only [List.map_cons, List.sum_cons]
    split
    · have := ih ret; omega
    · have hfc := findC_le '=' tok
      cases hf : findChar '=' tok with
      | none =>
        simp only [unescapeHexC_ok]
        have := ih (ret.insert (decode tok) [])
        have := unescapeHexC_le tok
        have := size_decode tok
        omega
      | some v =>
        obtain ⟨name, rest, hn1, hn2, hsp⟩ := findChar_some hf
        simp only [hsp, unescapeHexC_ok, sliceFrom_cons_ascii (show '='.toNat < 128 by decide)]
        have hlen : (utf8 tok).length = (utf8 name).length + 1 + (utf8 rest).length := by
          rw [hn1, utf8_append, List.length_append, utf8_cons, List.length_append]
          have : (String.utf8EncodeChar '=').length = 1 := by decide
          omega
        split
        · have := ih ret; simp only; omega
        · have := ih (ret.insert (decode name) (decode rest))
          have := unescapeHexC_le name
          have := unescapeHexC_le rest
          have := size_decode name
          simp only
          omega

theorem extStepC_le (faithful : Bool) (tok : Str) (ret : HMap Str QueryValue) :
    extStepC faithful tok ret ≤ 6 * ((utf8 tok).length + 1) := by
  unfold extStepC
  split
  · omega
  · have hfc := findC_le '=' tok
    cases hf : findChar '=' tok with
    | none =>
      simp only [unescapeHexC_ok]
      have := unescapeHexC_le tok
      have := size_decode tok
      omega
    | some v =>
      obtain ⟨name, rest, hn1, hn2, hsp⟩ := findChar_some hf
      simp only [hsp, unescapeHexC_ok, sliceFrom_cons_ascii (show '='.toNat < 128 by decide)]
      have hlen : (utf8 tok).length = (utf8 name).length + 1 + (utf8 rest).length := by
        rw [hn1, utf8_append, List.length_append, utf8_cons, List.length_append]
        have : (String.utf8EncodeChar '=').length = 1 := by decide
        omega
      have h1 := unescapeHexC_le name
      have h2 := unescapeHexC_le rest
      have h3 := size_decode name
      split
      · omega
      · split
        · omega
        · split
          · cases hr : revPosition (utf8 name) 91 with
            | none => simp only; omega
            | some i =>
              have hi : i < (utf8 name).length := by
                unfold revPosition at hr
                have := (List.findIdx?_eq_some_iff_findIdx_eq.1 hr).1
                rwa [List.length_reverse] at this
              simp only
              cases ho : fromUtf8 ((utf8 name).take ((utf8 name).length - i - 1)) with
              | none => simp only; omega
              | some outside =>
                have hol : (utf8 outside).length = (utf8 name).length - i - 1 := by
                  rw [utf8_of_fromUtf8 ho, List.length_take]; omega
                simp only
                have hil : (List.drop ((utf8 name).length - i - 1 + 1)
                    (List.take ((utf8 name).length - 1) (utf8 name))).length = i - 1 := by
                  rw [List.length_drop, List.length_take]; omega
                cases hin : fromUtf8 (List.drop ((utf8 name).length - i - 1 + 1)
                    (List.take ((utf8 name).length - 1) (utf8 name))) with
                | none => simp only; omega
                | some inside =>
                  have hul : (utf8 inside).length = i - 1 := by
                    rw [utf8_of_fromUtf8 hin]; exact hil
                  simp only
                  split <;> split <;> omega
          · omega

theorem extLoopC_same (faithful : Bool) (toks : List Str) (ret : HMap Str QueryValue) :
    (extLoopC faithful toks ret).1 = extLoop faithful toks ret := by
  induction toks generalizing ret with
  | nil => rfl
  | cons tok toks ih =>
    unfold extLoopC extLoop
    cases extStep faithful tok ret with
    | panic => rfl
    | ok r => exact ih r

theorem extLoopC_le (faithful : Bool) (toks : List Str) (ret : HMap Str QueryValue) :
    (extLoopC faithful toks ret).2 ≤ 6 * (toks.map fun t => (utf8 t).length + 1).sum := by
  induction toks generalizing ret with
  | nil => simp [extLoopC]
  | cons tok toks ih =>
    unfold extLoopC
    have hstep := extStepC_le faithful tok ret
    simp only [List.map_cons, List.sum_cons]
    cases extStep faithful tok ret with
    | panic => simp only; omega
    | ok r =>
      have := ih r
      simp only
      omega

/-! ### from below -/

theorem unescapeHexC_ge (s : Str) : s.length + 1 ≤ (unescapeHexC s).2 := by
  have := unescapeLoopC_eq (s.length + 1) (DoublePeek.new s) [] (by simp [DoublePeek.new]) (Nat.lt_succ_self _)
  have h : (DoublePeek.new s).content = s := rfl
  rw [h] at this
  have hl : lastPercent s ≤ s.count '%' := by
    unfold lastPercent
    split
    · rename_i hl
      exact List.count_pos_iff.2 (List.mem_of_getLast? hl)
    · omega
  unfold unescapeHexC
  omega

theorem findC_pos {c : Char} {s : Str} (h : s ≠ []) : 1 ≤ findC c s := by
  cases s with
  | nil => exact absurd rfl h
  | cons d s => unfold findC; split <;> omega

theorem length_splitChar (c : Char) (s : Str) : ((splitChar c s).map fun t => t.length + 1).sum = s.length + 1 := by
  induction s with
  | nil => simp
  | cons d s ih =>
    by_cases h : d = c
    · subst h
      rw [splitChar_cons_eq]
      simp only [List.map_cons, List.sum_cons, ih, List.length_cons, List.length_nil]
      omega
    · obtain ⟨p, ps, h1, h2⟩ := splitChar_cons_ne s h
      rw [h1] at ih
      rw [h2]
      simp only [List.map_cons, List.sum_cons, List.length_cons] at *
      omega

theorem parseQueryLoopC_ge (toks : List Str) (ret : HMap Str Str) :
    (toks.map fun t => t.length + 1).sum + toks.length ≤ (parseQueryLoopC false toks ret).2 := by
  induction toks generalizing ret with
  | nil => simp [parseQueryLoopC]
  | cons tok toks ih =>
    unfold parseQueryLoopC
    simp only [List.map_cons, List.sum_cons, List.length_cons, Bool.false_eq_true, false_and, if_false]
    cases hf : findChar '=' tok with
    | none =>
      simp only [unescapeHexC_ok]
      have := ih (ret.insert (decode tok) [])
      have := unescapeHexC_ge tok
      omega
    | some v =>
      obtain ⟨name, rest, hn1, hn2, hsp⟩ := findChar_some hf
      simp only [hsp, unescapeHexC_ok, sliceFrom_cons_ascii (show '='.toNat < 128 by decide)]
      have hlen : tok.length = name.length + 1 + rest.length := by
        rw [hn1, List.length_append, List.length_cons]; omega
      have := ih (ret.insert (decode name) (decode rest))
      have := unescapeHexC_ge name
      have := unescapeHexC_ge rest
      omega

theorem extStepC_ge (tok : Str) (ret : HMap Str QueryValue) : tok.length + 1 ≤ extStepC false tok ret := by
  unfold extStepC
  simp only [Bool.false_eq_true, false_and, if_false]
  cases hf : findChar '=' tok with
  | none =>
    simp only [unescapeHexC_ok]
    have := unescapeHexC_ge tok
    omega
  | some v =>
    obtain ⟨name, rest, hn1, hn2, hsp⟩ := findChar_some hf
    simp only [hsp, unescapeHexC_ok, sliceFrom_cons_ascii (show '='.toNat < 128 by decide)]
    have hlen : tok.length = name.length + 1 + rest.length := by
      rw [hn1, List.length_append, List.length_cons]; omega
    have hfc : 1 ≤ findC '=' tok := findC_pos (by rw [hn1]; simp)
    have h1 := unescapeHexC_ge name
    have h2 := unescapeHexC_ge rest
    have h3 := length_le_utf8 name
    by_cases hne : name = []
    · rw [if_pos hne]
      simp only [hne, List.length_nil] at hlen
      omega
    · rw [if_neg hne]
      have hpos : 0 < (utf8 name).length := by
        have := List.length_pos_iff.2 hne
        omega
      rw [List.getElem?_eq_getElem (show (utf8 name).length - 1 < (utf8 name).length by omega)]
      simp only
      split
      · cases hr : revPosition (utf8 name) 91 with
        | none => simp only; omega
        | some i =>
          have hi : i < (utf8 name).length := by
            unfold revPosition at hr
            have := (List.findIdx?_eq_some_iff_findIdx_eq.1 hr).1
            rwa [List.length_reverse] at this
          simp only
          cases fromUtf8 ((utf8 name).take ((utf8 name).length - i - 1)) with
          | none => simp only; omega
          | some outside =>
            simp only
            cases fromUtf8 (List.drop ((utf8 name).length - i - 1 + 1)
                (List.take ((utf8 name).length - 1) (utf8 name))) with
            | none => simp only; omega
            | some inside =>
              simp only
              split <;> split <;> omega
      · omega

theorem extLoopC_ge (toks : List Str) (ret : HMap Str QueryValue) (hp : extLoop false toks ret ≠ .panic) :
    (toks.map fun t => t.length + 1).sum ≤ (extLoopC false toks ret).2 := by
  induction toks generalizing ret with
  | nil => simp [extLoopC]
  | cons tok toks ih =>
    unfold extLoop at hp
    unfold extLoopC
    have hstep := extStepC_ge tok ret
    simp only [List.map_cons, List.sum_cons]
    cases he : extStep false tok ret with
    | panic => rw [he] at hp; exact absurd rfl hp
    | ok r =>
      rw [he] at hp
      have := ih r hp
      simp only
      omega

end Query
end Octane
