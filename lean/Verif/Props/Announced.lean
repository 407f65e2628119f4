import Verif.Spec.Announced
import Verif.Props.Response
import Verif.Proof.Show
/-
C38: exactly which length a response announces, which bytes follow, and when the two agree.
-/
namespace Octane
open Spec

/-- a computation that comes to a value does not panic -/
theorem Res.ne_panic_of_ok {α : Type} {x : Res α} (h : (x.bind fun _ => Res.ok true) = .ok true) : x ≠ .panic := by
  rintro rfl
  exact absurd h (by simp)

/-- nothing is announced before there is a body -/
theorem announced_none : ∀ {ops : List ResOp}, lastBody ops = none → announced ops = none
  | [], _ => rfl
  | op :: ops, h => by
    cases op
    case send => simp [lastBody] at h
    case defaultHeaders => simp only [lastBody] at h; simp [announced, h]
    case sendFile fs path =>
      simp only [lastBody] at h
      split at h
      · simp at h
      · exact announced_none (ops := ops) h
    all_goals exact announced_none (ops := ops) h

theorem execOps_one {U : Unicode} {op : ResOp} {r r' : Response} (h : execOps U r [op] = .ok r') :
    op.exec U r = .ok r' := by
  obtain ⟨x, h1, h2⟩ := execOps_cons_ok h
  simp only [execOps, Res.ok.injEq] at h2
  exact h2 ▸ h1

/-- the state of the response after the operations `rev`, newest first -/
theorem announced_inv {U : Unicode} : ∀ (rev : List ResOp) (r : Response),
    (∀ o ∈ rev, o.changesLength = true → o.setsBody = true) → execOps U Response.newEmpty rev.reverse = .ok r →
    HMap.Uniq r.headers ∧ r.contentLen = (lastBody rev).map (·.2) ∧ (copy r.body.getReader).1 = sentBytes rev ∧
      r.get c!"Content-Length" = (announced rev).map showNat
  | [], r, _, h => by
    simp only [List.reverse_nil, execOps, Res.ok.injEq] at h
    subst h
    exact ⟨HMap.Uniq.nil, rfl, by decide +kernel, rfl⟩
  | op :: rev, r, hl, h => by
    rw [List.reverse_cons] at h
    obtain ⟨x, h1, h2⟩ := execOps_append_ok h
    have h3 := execOps_one h2
    obtain ⟨i1, i2, i3, i4⟩ := announced_inv rev x (fun o ho => hl o (by simp [ho])) h1
    have hu := exec_uniq h3 i1
    refine ⟨hu, ?_⟩
    by_cases hc : op.changesLength = true
    · have hb := hl op (by simp) hc
      cases op <;> simp only [ResOp.setsBody, Bool.false_eq_true] at hb
      case send clock body =>
        obtain ⟨-, e1, -, e2, -, -, -, -, e4, -⟩ := send_spec h3
        exact ⟨e2, by rw [e1, ResBody.getReader, copy_cursor]; rfl, e4⟩
      case sendFile fs path =>
        have hget : r.get c!"Content-Length" = x.get c!"Content-Length" :=
          exec_frame h3 i1 (by simp [ResOp.touches])
        simp only [ResOp.exec] at h3
        cases hs : x.sendFile U fs path with
        | panic => rw [hs] at h3; simp at h3
        | ok p =>
          rw [hs] at h3
          simp only [Res.bind_ok', Res.ok.injEq] at h3
          subst h3
          have ha : announced (.sendFile fs path :: rev) = announced rev := rfl
          rw [ha, hget]
          cases hf : fs path with
          | regular contents len =>
            rcases sendFile_spec hs with rfl | ⟨c, l, _, hf', rfl⟩
            · simp only [Response.sendFile, handleFile, hf] at hs
              cases hn : fileName path with
              | none => rw [hn] at hs; simp at hs
              | some n => rw [hn] at hs; simp at hs
            · rw [hf] at hf'
              injection hf' with c1 c2
              subst c1; subst c2
              refine ⟨by simp [lastBody, hf], ?_, i4⟩
              show (copy (.file (some contents))).1 = _
              rw [copy_file]
              simp [sentBytes, lastBody, hf]
          | _ =>
            have hb : lastBody (.sendFile fs path :: rev) = lastBody rev := by simp [lastBody, hf]
            rcases sendFile_spec hs with rfl | ⟨c, l, _, hf', rfl⟩
            · exact ⟨by rw [hb]; exact i2, by rw [sentBytes, hb]; exact i3, i4⟩
            · rw [hf] at hf'; simp at hf'
    · have hc : op.changesLength = false := by simpa using hc
      by_cases hd : ∃ c, op = .defaultHeaders c
      · obtain ⟨c, rfl⟩ := hd
        obtain ⟨-, b1, -, b2, -, -, -, -, b3, -⟩ := defaultHeaders_spec h3
        refine ⟨b2.trans i2, by rw [b1]; exact i3, ?_⟩
        rw [b3, i2]
        show _ = ((lastBody rev).map (·.2)).map showNat
        cases hlb : lastBody rev with
        | none => rw [announced_none hlb] at i4; exact i4
        | some p => rfl
      · obtain ⟨t1, t2⟩ := touches_len hc (fun c e => hd ⟨c, e⟩)
        have e1 := exec_frame h3 i1 t1
        have e2 := exec_contentLen h3 hc
        have e3 := exec_body h3 t2
        have hx : lastBody (op :: rev) = lastBody rev ∧ announced (op :: rev) = announced rev := by
          cases op
          case send => simp [ResOp.changesLength] at hc
          case sendFile => simp [ResOp.changesLength] at hc
          case defaultHeaders => exact absurd ⟨_, rfl⟩ hd
          all_goals exact ⟨rfl, rfl⟩
        rw [sentBytes, hx.1, hx.2]
        exact ⟨e2.trans i2, by rw [e3]; exact i3, e1.trans i4⟩

/-- Which bytes follow the head and which length it announces, after any operations that do not store the length by
hand. -/
theorem C38_exact (U : Unicode) (ops : List ResOp) (r : Response)
    (hl : ∀ o ∈ ops, o.changesLength = true → o.setsBody = true) (h : execOps U Response.newEmpty ops = .ok r) :
    (copy r.body.getReader).1 = sentBytes ops.reverse ∧
    (announced ops.reverse = none → r.get c!"Content-Length" = none) ∧
    (∀ n, announced ops.reverse = some n → ∃ t, r.get c!"Content-Length" = some t ∧ Numeral n t) := by
  obtain ⟨-, -, i3, i4⟩ := announced_inv (U := U) ops.reverse r (fun o ho => hl o (by simpa using ho))
    (by rw [List.reverse_reverse]; exact h)
  exact ⟨i3, fun e => by rw [i4, e]; rfl, fun n e => ⟨showNat n, by rw [i4, e]; rfl, showNat_numeral n⟩⟩

/-- The length in the head is right exactly if the number announced, when there is one, is the number of bytes that
the operations send. -/
theorem C38_iff (U : Unicode) (ops : List ResOp) (r : Response)
    (hl : ∀ o ∈ ops, o.changesLength = true → o.setsBody = true) (h : execOps U Response.newEmpty ops = .ok r) :
    (∀ t, r.get c!"Content-Length" = some t → Numeral (copy r.body.getReader).1.length t) ↔
      ∀ n, announced ops.reverse = some n → n = (sentBytes ops.reverse).length := by
  obtain ⟨h1, h2, h3⟩ := C38_exact U ops r hl h
  rw [h1]
  constructor
  · intro hr n hn
    obtain ⟨t, ht, hnum⟩ := h3 n hn
    exact showNat_inj (hnum.eq.symm.trans (hr t ht).eq)
  · intro hr t ht
    cases ha : announced ops.reverse with
    | none => rw [h2 ha] at ht; simp at ht
    | some n =>
      obtain ⟨t', ht', hnum⟩ := h3 n ha
      rw [ht] at ht'
      injection ht' with ht'
      subst ht'
      rw [← hr n ha]
      exact hnum

/-- after operations that bring no body the last body is still the same, and so is what is announced unless the default
headers were set -/
theorem quiet_spec {rest : List ResOp} {b : Bytes × Nat} (hb : lastBody rest = some b) : ∀ (post : List ResOp),
    (∀ o ∈ post, o.setsBody = true → ∃ fs path, o = .sendFile fs path ∧ ∀ c l, fs path ≠ .regular c l) →
    lastBody (post ++ rest) = some b ∧
    ((∃ clock, .defaultHeaders clock ∈ post) → announced (post ++ rest) = some b.2) ∧
    ((∀ clock, .defaultHeaders clock ∉ post) → announced (post ++ rest) = announced rest)
  | [], _ => ⟨hb, fun ⟨_, h⟩ => absurd h (by simp), fun _ => rfl⟩
  | op :: post, hq => by
    obtain ⟨i1, i2, i3⟩ := quiet_spec hb post (fun o ho => hq o (by simp [ho]))
    by_cases hd : ∃ c, op = .defaultHeaders c
    · obtain ⟨c, rfl⟩ := hd
      refine ⟨i1, fun _ => ?_, fun hn => absurd (List.mem_cons_self ..) (hn c)⟩
      show (lastBody (post ++ rest)).map (·.2) = _
      rw [i1]; rfl
    · have hx : lastBody (op :: (post ++ rest)) = lastBody (post ++ rest) ∧
          announced (op :: (post ++ rest)) = announced (post ++ rest) := by
        by_cases hs : op.setsBody = true
        · obtain ⟨fs, path, rfl, hf⟩ := hq op (by simp) hs
          refine ⟨?_, rfl⟩
          simp only [lastBody]
        · cases op
          case send => simp [ResOp.setsBody] at hs
          case sendFile => simp [ResOp.setsBody] at hs
          case defaultHeaders => exact absurd ⟨_, rfl⟩ hd
          all_goals exact ⟨rfl, rfl⟩
      rw [List.cons_append, hx.1, hx.2]
      refine ⟨i1, fun ⟨c, hc⟩ => i2 ⟨c, ?_⟩, fun hn => i3 fun c hc => hn c (by simp [hc])⟩
      rcases List.mem_cons.1 hc with hc | hc
      · exact absurd ⟨c, hc.symm⟩ hd
      · exact hc

/-- the operation that the last body comes from -/
theorem lastBody_split : ∀ {rev : List ResOp} {b : Bytes × Nat}, lastBody rev = some b →
    ∃ post op older, rev = post ++ op :: older ∧
      (∀ o ∈ post, o.setsBody = true → ∃ fs path, o = .sendFile fs path ∧ ∀ c l, fs path ≠ .regular c l) ∧
      ((∃ clock, op = .send clock b.1 ∧ b.2 = b.1.length) ∨
        ∃ fs path c, op = .sendFile fs path ∧ fs path = .regular c b.2 ∧ b.1 = [])
  | [], b, h => by simp [lastBody] at h
  | op :: rev, b, h => by
    have step : (op.setsBody = true → ∃ fs path, op = .sendFile fs path ∧ ∀ c l, fs path ≠ .regular c l) →
        lastBody rev = some b → ∃ post op' older, op :: rev = post ++ op' :: older ∧
      (∀ o ∈ post, o.setsBody = true → ∃ fs path, o = .sendFile fs path ∧ ∀ c l, fs path ≠ .regular c l) ∧
      ((∃ clock, op' = .send clock b.1 ∧ b.2 = b.1.length) ∨
        ∃ fs path c, op' = .sendFile fs path ∧ fs path = .regular c b.2 ∧ b.1 = []) := by
      intro hq hb
      obtain ⟨post, op', older, rfl, h1, h2⟩ := lastBody_split hb
      refine ⟨op :: post, op', older, rfl, ?_, h2⟩
      intro o ho
      rcases List.mem_cons.1 ho with rfl | ho
      · exact hq
      · exact h1 o ho
    cases op
    case send clock body =>
      simp only [lastBody, Option.some.injEq] at h
      subst h
      exact ⟨[], _, rev, rfl, by simp, .inl ⟨clock, rfl, rfl⟩⟩
    case sendFile fs path =>
      simp only [lastBody] at h
      split at h
      · rename_i c l e
        simp only [Option.some.injEq] at h
        subst h
        exact ⟨[], _, rev, rfl, by simp, .inr ⟨fs, path, c, rfl, e, rfl⟩⟩
      · rename_i e
        exact step (fun _ => ⟨fs, path, rfl, fun c l => e c l⟩) h
    all_goals exact step (by simp [ResOp.setsBody]) h

/-- What has to happen for the length to be wrong: the last operation with a body is a `send_file` of a file that can be
served, and either the default headers are set after it and the file is not empty, or they are not and the head already
announced a body that was not empty. -/
theorem C38_wrong (U : Unicode) (ops : List ResOp) (r : Response)
    (hl : ∀ o ∈ ops, o.changesLength = true → o.setsBody = true) (h : execOps U Response.newEmpty ops = .ok r) :
    (∃ t, r.get c!"Content-Length" = some t ∧ ¬ Numeral (copy r.body.getReader).1.length t) ↔
      ∃ pre fs path post contents len, ops = pre ++ .sendFile fs path :: post ∧ fs path = .regular contents len ∧
        (∀ o ∈ post, o.setsBody = true → ∃ fs' path', o = .sendFile fs' path' ∧ ∀ c l, fs' path' ≠ .regular c l) ∧
        (((∃ clock, .defaultHeaders clock ∈ post) ∧ len ≠ 0) ∨
          ((∀ clock, .defaultHeaders clock ∉ post) ∧ ∃ n, announced pre.reverse = some n ∧ n ≠ 0)) := by
  have hiff := C38_iff U ops r hl h
  have hneg : (∃ t, r.get c!"Content-Length" = some t ∧ ¬ Numeral (copy r.body.getReader).1.length t) ↔
      ∃ n, announced ops.reverse = some n ∧ n ≠ (sentBytes ops.reverse).length := by
    constructor
    · rintro ⟨t, ht, hne⟩
      apply Classical.byContradiction
      intro hno
      exact hne (hiff.2 (fun n hn => Classical.byContradiction fun hx => hno ⟨n, hn, hx⟩) t ht)
    · rintro ⟨n, hn, hne⟩
      apply Classical.byContradiction
      intro hno
      exact hne (hiff.1 (fun t ht => Classical.byContradiction fun hx => hno ⟨t, ht, hx⟩) n hn)
  rw [hneg]
  constructor
  · rintro ⟨n, hn, hne⟩
    cases hb : lastBody ops.reverse with
    | none => rw [announced_none hb] at hn; simp at hn
    | some b =>
      obtain ⟨post, op, older, e, hq, hop⟩ := lastBody_split hb
      have hb' : lastBody (op :: older) = some b := by
        rcases hop with ⟨clock, rfl, e2⟩ | ⟨fs, path, c, rfl, e2, e3⟩
        · simp only [lastBody]; rw [← e2]
        · simp only [lastBody, e2]; rw [← e3]
      obtain ⟨q1, q2, q3⟩ := quiet_spec hb' post hq
      rw [sentBytes, hb] at hne
      rw [e] at hn
      rcases hop with ⟨clock, rfl, e2⟩ | ⟨fs, path, c, rfl, e2, e3⟩
      · exfalso
        apply hne
        by_cases hd : ∃ clock, .defaultHeaders clock ∈ post
        · rw [q2 hd] at hn
          simpa [e2] using hn.symm
        · rw [q3 (fun c hc => hd ⟨c, hc⟩)] at hn
          simpa [announced] using hn.symm
      · have e' : ops = older.reverse ++ .sendFile fs path :: post.reverse := by
          have := congrArg List.reverse e
          simpa using this
        refine ⟨older.reverse, fs, path, post.reverse, c, b.2, e', e2, fun o ho => hq o (by simpa using ho), ?_⟩
        simp only [List.mem_reverse, List.reverse_reverse]
        simp only [Option.map_some, Option.getD_some, e3, List.length_nil] at hne
        by_cases hd : ∃ clock, .defaultHeaders clock ∈ post
        · rw [q2 hd] at hn
          injection hn with hn
          exact .inl ⟨hd, hn ▸ hne⟩
        · have hd' : ∀ clock, .defaultHeaders clock ∉ post := fun c hc => hd ⟨c, hc⟩
          rw [q3 hd'] at hn
          exact .inr ⟨hd', n, hn, hne⟩
  · rintro ⟨pre, fs, path, post, c, len, rfl, hf, hq, hor⟩
    have e : (pre ++ .sendFile fs path :: post).reverse = post.reverse ++ .sendFile fs path :: pre.reverse := by simp
    have hb : lastBody (.sendFile fs path :: pre.reverse) = some ([], len) := by simp [lastBody, hf]
    obtain ⟨q1, q2, q3⟩ := quiet_spec hb post.reverse (fun o ho => hq o (by simpa using ho))
    rw [e, sentBytes, q1]
    simp only [List.mem_reverse] at q2 q3
    rcases hor with ⟨hd, hne⟩ | ⟨hd, n, hn, hne⟩
    · exact ⟨len, q2 hd, hne⟩
    · exact ⟨n, (q3 hd).trans hn, hne⟩

/-- a file that is not there changes nothing, one that is there leaves the length of the text before it -/
example : announced [.status .found, .sendFile oneFile c!"a.txt", .send 0 [1, 2, 3]] = some 3 ∧
    sentBytes [.status .found, .sendFile oneFile c!"a.txt", .send 0 [1, 2, 3]] = [] ∧
    announced [.defaultHeaders 5, .sendFile oneFile c!"a.txt", .send 0 [1, 2, 3]] = some 1 ∧
    sentBytes [.sendFile (fun _ => .notRegular) c!"a.txt", .send 0 [1, 2, 3]] = [1, 2, 3] := by
  decide +kernel

/-- a length that is right after a file, since the file came first, and one that is wrong -/
example : ∃ r r', execOps Unicode.asciiOnly Response.newEmpty
      [.sendFile oneFile c!"a.txt", .send 0 [1, 2, 3], .status .found] = .ok r ∧
    execOps Unicode.asciiOnly Response.newEmpty [.send 0 [1, 2, 3], .sendFile oneFile c!"a.txt", .status .found] = .ok r' ∧
    (∀ t, r.get c!"Content-Length" = some t → Numeral (copy r.body.getReader).1.length t) ∧
    ∃ t, r'.get c!"Content-Length" = some t ∧ ¬ Numeral (copy r'.body.getReader).1.length t := by
  cases hr : execOps Unicode.asciiOnly Response.newEmpty
      [.sendFile oneFile c!"a.txt", .send 0 [1, 2, 3], .status .found] with
  | panic => exact absurd hr (Res.ne_panic_of_ok (by decide +kernel))
  | ok r =>
    cases hr' : execOps Unicode.asciiOnly Response.newEmpty
        [.send 0 [1, 2, 3], .sendFile oneFile c!"a.txt", .status .found] with
    | panic => exact absurd hr' (Res.ne_panic_of_ok (by decide +kernel))
    | ok r' =>
      refine ⟨r, r', rfl, rfl, (C38_iff _ _ _ ?_ hr).2 ?_, (C38_wrong _ _ _ ?_ hr').2 ?_⟩
      · simp [ResOp.changesLength, ResOp.setsBody]
      · simp [announced, sentBytes, lastBody]
      · simp [ResOp.changesLength, ResOp.setsBody]
      · exact ⟨[.send 0 [1, 2, 3]], oneFile, c!"a.txt", [.status .found], [120], 1, rfl, rfl,
          by simp [ResOp.setsBody], .inr ⟨by simp, 3, rfl, by decide⟩⟩

end Octane
