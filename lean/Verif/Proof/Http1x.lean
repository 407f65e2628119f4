import Verif.Model.Http1x
import Verif.Spec.Http
import Verif.Proof.Slice
namespace Octane
open Spec

/-! ### first splits -/
section
variable {T : Type u}

theorem Spec.FirstSplit.unique {s sep a b a' b' : List T} (h : FirstSplit s sep a b)
    (h' : FirstSplit s sep a' b') : a = a' ∧ b = b' := by
  obtain ⟨h1, h2⟩ := h
  obtain ⟨h1', h2'⟩ := h'
  have hlen : a.length = a'.length := by
    have e1 : ¬ a.length < a'.length := fun hlt => h2' _ hlt ⟨a, b, h1, rfl⟩
    have e2 : ¬ a'.length < a.length := fun hlt => h2 _ hlt ⟨a', b', h1', rfl⟩
    omega
  rw [h1] at h1'
  rw [List.append_assoc, List.append_assoc] at h1'
  obtain ⟨e1, e2⟩ := List.append_inj h1' hlen
  exact ⟨e1, (List.append_right_inj sep).1 e2⟩

theorem Spec.FirstSplit.exists {s sep : List T} (h : Occurs s sep) : ∃ a b, FirstSplit s sep a b := by
  obtain ⟨i, hi⟩ := h
  induction i using Nat.strongRecOn with
  | ind i ih =>
    by_cases hex : ∃ j, j < i ∧ OccursAt s sep j
    · obtain ⟨j, hj, ho⟩ := hex; exact ih j hj ho
    · obtain ⟨a, b, h1, h2⟩ := hi
      exact ⟨a, b, h1, fun j hj ho => hex ⟨j, h2 ▸ hj, ho⟩⟩

theorem Spec.FirstSplit.occurs {s sep a b : List T} (h : FirstSplit s sep a b) : Occurs s sep :=
  ⟨a.length, a, b, h.1, rfl⟩

theorem Spec.OccursAt.of_append {d t sep : List T} {j : Nat} (h : OccursAt (d ++ t) sep j)
    (hl : j + sep.length ≤ d.length) : OccursAt d sep j := by
  obtain ⟨x, y, h1, h2⟩ := h
  rw [List.append_eq_append_iff] at h1
  rcases h1 with ⟨z, h3, h4⟩ | ⟨z, h3, h4⟩
  · -- `d` ends inside `x ++ sep`: only possible if nothing is left
    have hz : z = [] := by
      have := congrArg List.length h3
      simp only [List.length_append] at this
      exact List.length_eq_zero_iff.1 (by omega)
    subst hz
    rw [List.append_nil] at h3
    exact ⟨x, [], by rw [h3]; simp, h2⟩
  · exact ⟨x, z, h3, h2⟩

theorem Spec.OccursAt.append {d sep : List T} {j : Nat} (h : OccursAt d sep j) (t : List T) :
    OccursAt (d ++ t) sep j := by
  obtain ⟨x, y, h1, h2⟩ := h
  exact ⟨x, y ++ t, by rw [h1]; simp, h2⟩

theorem Spec.FirstSplit.append {d sep a b : List T} (h : FirstSplit d sep a b) (t : List T) :
    FirstSplit (d ++ t) sep a (b ++ t) := by
  refine ⟨by rw [h.1]; simp, fun j hj ho => h.2 j hj (ho.of_append ?_)⟩
  have := congrArg List.length h.1
  simp only [List.length_append] at this
  omega

/-- if the separator already occurs in the first part, the split is the first part's -/
theorem Spec.FirstSplit.of_append {d t sep a b : List T} (h : FirstSplit (d ++ t) sep a b)
    (ho : Occurs d sep) : ∃ b0, FirstSplit d sep a b0 ∧ b = b0 ++ t := by
  obtain ⟨a', b0, h'⟩ := FirstSplit.exists ho
  obtain ⟨e1, e2⟩ := h.unique (h'.append t)
  subst e1
  exact ⟨b0, h', e2⟩

end

/-! ### reading -/

theorem read_spec (cap : Nat) (hcap : 0 < cap) (s : Sock) :
    match s.read cap with
    | .data b s' => (b = [] → s.bytes = [] ∧ s.fin = .eof) ∧
        (b ≠ [] → s.bytes = b ++ s'.bytes ∧ s'.fin = s.fin ∧ b.length ≤ cap)
    | .error => s.bytes = [] ∧ s.fin = .error
    | .pending => s.bytes = [] ∧ s.fin = .silent := by
  obtain ⟨segs, fin⟩ := s
  unfold Sock.read Sock.bytes
  simp only
  induction segs with
  | nil => cases fin <;> simp [readSegs]
  | cons seg segs ih =>
    cases seg with
    | nil => simpa [readSegs] using ih
    | cons b bs =>
      unfold readSegs
      by_cases hl : (b :: bs).length ≤ cap
      · rw [if_pos hl]
        exact ⟨by simp, fun _ => ⟨by simp [], rfl, hl⟩⟩
      · rw [if_neg hl]
        have hne : (b :: bs).take cap ≠ [] := by
          intro h
          have := congrArg List.length h
          simp at this; omega
        refine ⟨fun h => absurd h hne, fun _ => ⟨?_, rfl, by simp; omega⟩⟩
        simp only [List.flatten_cons]
        rw [← List.append_assoc, List.take_append_drop]

/-! ### `str::find` for a string pattern -/

theorem startsWith_iff (s p : Str) : startsWith s p = true ↔ p <+: s := by
  induction p generalizing s with
  | nil => cases s <;> simp [startsWith]
  | cons b p ih =>
    cases s with
    | nil => simp [startsWith]
    | cons a s =>
      rw [startsWith, Bool.and_eq_true, ih, List.cons_prefix_cons, beq_iff_eq, eq_comm]

theorem occursAt_cons_succ {c : T} {s pat : List T} {j : Nat} :
    OccursAt (c :: s) pat (j + 1) ↔ OccursAt s pat j := by
  constructor
  · rintro ⟨a, b, h1, h2⟩
    cases a with
    | nil => simp at h2
    | cons x a =>
      simp only [List.cons_append, List.cons.injEq] at h1
      exact ⟨a, b, h1.2, by simpa using h2⟩
  · rintro ⟨a, b, h1, h2⟩
    exact ⟨c :: a, b, by simp [h1], by simp [h2]⟩

theorem occursAt_zero {s pat : List T} : OccursAt s pat 0 ↔ pat <+: s := by
  constructor
  · rintro ⟨a, b, h1, h2⟩
    rw [List.length_eq_zero_iff] at h2; subst h2
    exact ⟨b, by simpa using h1.symm⟩
  · rintro ⟨b, h⟩; exact ⟨[], b, by simp [h], rfl⟩

theorem findStr_spec (pat s : Str) (hp : pat ≠ []) :
    (findStr pat s = none ∧ ¬ Occurs s pat) ∨
    ∃ a b, FirstSplit s pat a b ∧ findStr pat s = some (utf8 a).length := by
  induction s with
  | nil =>
    left
    refine ⟨by simp [findStr, hp], ?_⟩
    rintro ⟨i, a, b, h, -⟩
    have := congrArg List.length h
    simp only [List.length_nil, List.length_append] at this
    exact hp (List.length_eq_zero_iff.1 (by omega))
  | cons d s ih =>
    unfold findStr
    by_cases hs : startsWith (d :: s) pat = true
    · right
      obtain ⟨b, hb⟩ := (startsWith_iff _ _).1 hs
      exact ⟨[], b, ⟨by simp [hb], by simp⟩, by simp [hs, utf8]⟩
    · have h0 : ¬ OccursAt (d :: s) pat 0 := fun h => hs ((startsWith_iff _ _).2 (occursAt_zero.1 h))
      rw [if_neg hs]
      rcases ih with ⟨h1, h2⟩ | ⟨a, b, h1, h2⟩
      · left
        refine ⟨by simp [h1], ?_⟩
        rintro ⟨i, hi⟩
        cases i with
        | zero => exact h0 hi
        | succ i => exact h2 ⟨i, occursAt_cons_succ.1 hi⟩
      · right
        refine ⟨d :: a, b, ⟨by simp [h1.1], ?_⟩, ?_⟩
        · intro j hj ho
          cases j with
          | zero => exact h0 ho
          | succ j => exact h1.2 j (by simpa using hj) (occursAt_cons_succ.1 ho)
        · rw [h2]
          simp [utf8, String.length_utf8EncodeChar, Nat.add_comm]

theorem parseWithoutBody_spec (text : Str) :
    (parseWithoutBody text = .ok none ∧ ¬ Occurs text crlf) ∨
    ∃ line hdrs, FirstSplit text crlf line hdrs ∧ parseWithoutBody text = .ok (some (line, hdrs)) := by
  unfold parseWithoutBody
  rcases findStr_spec c!"\r\n" text (by simp) with ⟨h1, h2⟩ | ⟨a, b, h1, h2⟩
  · left; exact ⟨by simp [h1], h2⟩
  · right
    refine ⟨a, b, h1, ?_⟩
    have hs : text = a ++ ('\r' :: '\n' :: b) := by rw [h1.1]; simp
    simp only [h2]
    rw [hs, splitAtByte_append, Res.bind_ok']
    have h3 : sliceFrom 2 ('\r' :: '\n' :: b) = .ok b := by
      have := splitAtByte_append ['\r', '\n'] b
      have hl : (utf8 ['\r', '\n']).length = 2 := rfl
      rw [hl] at this
      unfold sliceFrom
      rw [show '\r' :: '\n' :: b = ['\r', '\n'] ++ b from rfl, this]
      rfl
    simp [h3]

/-! ### the head -/

/-- what the reader makes of the bytes before the blank line -/
def headOutcome (head rem : Bytes) (reader : Sock) : HeadOut :=
  match fromUtf8 head with
  | none => .badRequest
  | some s =>
    match parseWithoutBody s with
    | .ok (some (rl, heads)) => .head heads rl rem reader
    | _ => .badRequest

theorem headCheck_spec (data : Bytes) (reader : Sock) :
    (¬ Occurs data blankLine → headCheck data reader = .ok none) ∧
    (∀ a b, FirstSplit data blankLine a b → headCheck data reader = .ok (some (headOutcome a b reader))) := by
  obtain ⟨r, h1, h2, h3⟩ := findInSlice_ok data [13, 10, 13, 10]
  constructor
  · intro hno
    cases r with
    | none => simp [headCheck, h1]
    | some v => exact absurd ⟨v, (h2 v rfl).1⟩ hno
  · intro a b hf
    cases r with
    | none => exact absurd hf.occurs (h3 rfl)
    | some v =>
      obtain ⟨⟨a', b', e1, e2⟩, hmin⟩ := h2 v rfl
      subst e2
      have hf' : FirstSplit data blankLine a' b' := ⟨e1, hmin⟩
      obtain ⟨rfl, rfl⟩ := hf.unique hf'
      have hlen : a.length + 4 ≤ data.length := by rw [e1]; simp
      have htake : data.take a.length = a := by rw [e1, List.append_assoc]; simp
      have hdrop : data.drop (a.length + 4) = b := by
        rw [e1, List.append_assoc, ← List.drop_drop]; simp
      unfold headCheck
      simp only [h1, Res.bind_ok', hlen, if_true, htake, hdrop, headOutcome]
      cases fromUtf8 a with
      | none => rfl
      | some s =>
        rcases parseWithoutBody_spec s with ⟨h, -⟩ | ⟨l, hd, -, h⟩ <;> simp [h]

/-- the outcome when the stream has no blank line -/
def noHead : SockEnd → Io HeadOut
  | .eof => .ok .badRequest
  | .error => .panic
  | .silent => .pending

theorem readHeadLoop_spec (fuel : Nat) (data : Bytes) (s : Sock) (hf : s.bytes.length < fuel)
    (hno : ¬ Occurs data blankLine) :
    (¬ Occurs (data ++ s.bytes) blankLine → readHeadLoop fuel data s = noHead s.fin) ∧
    (∀ a b, FirstSplit (data ++ s.bytes) blankLine a b →
      ∃ rem reader, readHeadLoop fuel data s = .ok (headOutcome a rem reader) ∧
        rem ++ reader.bytes = b ∧ reader.fin = s.fin) := by
  induction fuel generalizing data s with
  | zero => omega
  | succ fuel ih =>
    have hr := read_spec 512 (by omega) s
    unfold readHeadLoop
    cases hrd : s.read 512 with
    | error =>
      rw [hrd] at hr
      simp only at hr
      rw [hr.1, List.append_nil, hr.2]
      exact ⟨fun _ => rfl, fun a b h => absurd h.occurs hno⟩
    | pending =>
      rw [hrd] at hr
      simp only at hr
      rw [hr.1, List.append_nil, hr.2]
      exact ⟨fun _ => rfl, fun a b h => absurd h.occurs hno⟩
    | data b s' =>
      rw [hrd] at hr
      simp only at hr ⊢
      by_cases hb : b = []
      · have := hr.1 hb
        rw [this.1, List.append_nil, this.2]
        exact ⟨fun _ => by simp [hb, noHead], fun a b h => absurd h.occurs hno⟩
      · obtain ⟨hbytes, hfin, -⟩ := hr.2 hb
        rw [if_neg hb, hbytes, ← List.append_assoc]
        by_cases hocc : Occurs (data ++ b) blankLine
        · refine ⟨fun hn => ?_, fun x y hxy => ?_⟩
          · obtain ⟨i, hi⟩ := hocc; exact absurd ⟨i, hi.append _⟩ hn
          · obtain ⟨b0, h1, h2⟩ := hxy.of_append hocc
            refine ⟨b0, s', ?_, h2.symm, hfin⟩
            rw [(headCheck_spec (data ++ b) s').2 x b0 h1]
        · have hlen : s'.bytes.length < fuel := by
            have := List.length_pos_iff.2 hb
            rw [hbytes] at hf
            simp only [List.length_append] at hf
            omega
          rw [(headCheck_spec (data ++ b) s').1 hocc]
          obtain ⟨h1, h2⟩ := ih (data ++ b) s' hlen hocc
          rw [hfin] at h1 h2
          exact ⟨h1, h2⟩

theorem not_occurs_nil_blank : ¬ Occurs ([] : Bytes) blankLine := by
  rintro ⟨i, a, b, h, -⟩
  have := congrArg List.length h
  simp [blankLine] at this

theorem readHead_spec (s : Sock) :
    (¬ Occurs s.bytes blankLine → readHead s = noHead s.fin) ∧
    (∀ a b, FirstSplit s.bytes blankLine a b →
      ∃ rem reader, readHead s = .ok (headOutcome a rem reader) ∧
        rem ++ reader.bytes = b ∧ reader.fin = s.fin) := by
  have := readHeadLoop_spec (s.bytes.length + 1) [] s (by omega) not_occurs_nil_blank
  simpa [readHead] using this

/-! ### the body -/

theorem readExactLoop_spec (fuel n : Nat) (s : Sock) (hf : s.bytes.length < fuel) :
    (n ≤ s.bytes.length → ∃ s', readExactLoop fuel n s = .ok (some (s.bytes.take n, s')) ∧
      s'.bytes = s.bytes.drop n ∧ s'.fin = s.fin) ∧
    (s.bytes.length < n → readExactLoop fuel n s = match s.fin with
      | .silent => .pending
      | _ => .ok none) := by
  induction fuel generalizing n s with
  | zero => omega
  | succ fuel ih =>
    unfold readExactLoop
    by_cases hn : n = 0
    · subst hn
      exact ⟨fun _ => ⟨s, by simp⟩, fun h => by omega⟩
    · rw [if_neg hn]
      have hr := read_spec n (by omega) s
      cases hrd : s.read n with
      | error =>
        rw [hrd] at hr
        simp only at hr
        rw [hr.1, hr.2]
        exact ⟨fun h => by simp at h; omega, fun _ => rfl⟩
      | pending =>
        rw [hrd] at hr
        simp only at hr
        rw [hr.1, hr.2]
        exact ⟨fun h => by simp at h; omega, fun _ => rfl⟩
      | data b s' =>
        rw [hrd] at hr
        simp only at hr ⊢
        by_cases hb : b = []
        · have := hr.1 hb
          rw [this.1, this.2, if_pos hb]
          exact ⟨fun h => by simp at h; omega, fun _ => rfl⟩
        · obtain ⟨hbytes, hfin, hbl⟩ := hr.2 hb
          rw [if_neg hb]
          have hpos := List.length_pos_iff.2 hb
          have hlen : s.bytes.length = b.length + s'.bytes.length := by rw [hbytes]; simp
          obtain ⟨h1, h2⟩ := ih (n - b.length) s' (by omega)
          constructor
          · intro hle
            obtain ⟨s'', e1, e2, e3⟩ := h1 (by omega)
            refine ⟨s'', ?_, ?_, e3.trans hfin⟩
            · rw [e1]
              simp only [Io.bind_ok, hbytes, Io.ok.injEq, Option.some.injEq, Prod.mk.injEq, and_true]
              rw [List.take_append, List.take_of_length_le hbl]
            · rw [e2, hbytes, List.drop_append, List.drop_eq_nil_of_le hbl, List.nil_append]
          · intro hlt
            rw [h2 (by omega), hfin]
            cases s.fin <;> rfl

theorem readExact_spec (n : Nat) (s : Sock) :
    (n ≤ s.bytes.length → ∃ s', readExact n s = .ok (some (s.bytes.take n, s')) ∧
      s'.bytes = s.bytes.drop n ∧ s'.fin = s.fin) ∧
    (s.bytes.length < n → readExact n s = match s.fin with
      | .silent => .pending
      | _ => .ok none) :=
  readExactLoop_spec _ n s (by omega)

end Octane
