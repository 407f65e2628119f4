import Verif.Spec.ResOps
import Verif.Proof.Time
import Verif.Proof.Response
/-
Helper lemmas about sequences of response operations.
-/
namespace Octane
open Spec

@[simp] theorem Response.get_set_self (r : Response) (k v : Str) : (r.set k v).get k = some v := by
  simp [Response.set, Response.get]

theorem Response.get_set_ne (r : Response) {k k' : Str} (v : Str) (h : k ≠ k') :
    (r.set k v).get k' = r.get k' := by
  simp [Response.set, Response.get, HMap.get_insert_ne _ _ h]

/-- the Date header value, if one is written -/
theorem dateHeader_ok {clock : Int} (h : 0 ≤ clock) : ∃ d, dateHeader clock = .ok d := by
  by_cases h1 : clock ≤ i64Max
  · obtain ⟨c, -, -, _, _, -, -, e⟩ := dateHeader_spec clock h h1
    exact ⟨_, e⟩
  · refine ⟨none, ?_⟩
    unfold dateHeader Time.now
    rw [if_neg (by omega), if_pos (by omega)]; rfl

theorem dateHeader_panic {clock : Int} (h : clock < 0) : dateHeader clock = .panic := by
  unfold dateHeader Time.now; rw [if_pos h]; rfl

/-- what `default_headers` does, field by field -/
theorem defaultHeaders_spec {U : Unicode} {clock : Int} {r r' : Response}
    (h : r.defaultHeaders U clock = .ok r') :
    0 ≤ clock ∧ r'.body = r.body ∧ r'.statusCode = r.statusCode ∧ r'.contentLen = r.contentLen ∧
    r'.httpVersion = r.httpVersion ∧ r'.charset = r.charset ∧ r'.cookies = r.cookies ∧
    (HMap.Uniq r.headers → HMap.Uniq r'.headers) ∧
    (r'.get c!"Content-Length" = match r.contentLen with
      | some n => some (showNat n)
      | none => r.get c!"Content-Length") ∧
    (r'.get c!"Content-Type" = match r.get c!"Content-Type" with
      | some t => some t
      | none => some (c!"text/html" ++ match r.charset with
        | some cs => c!" ;charset=" ++ U.debug cs
        | none => [])) ∧
    (∃ d, dateHeader clock = .ok d ∧ r'.get c!"Date" = match d with
      | some t => some t
      | none => r.get c!"Date") ∧
    (∀ k, k ≠ c!"Content-Length" → k ≠ c!"Content-Type" → k ≠ c!"Date" → r'.get k = r.get k) := by
  unfold Response.defaultHeaders at h
  have hc : 0 ≤ clock := by
    rcases Int.lt_or_le clock 0 with hn | hn
    · rw [dateHeader_panic hn] at h; simp at h
    · exact hn
  obtain ⟨d, hd⟩ := dateHeader_ok hc
  rw [hd] at h
  simp only [Res.bind_ok'] at h
  obtain ⟨body, sc, cl, ver, hs, cs, ck⟩ := r
  refine ⟨hc, ?_⟩
  have g1 : ∀ (m : HMap Str Str) (k v k'), HMap.get (HMap.insert m k v) k' =
      if k = k' then some v else HMap.get m k' := fun m k v k' => HMap.get_insert m k k' v
  cases cl <;> cases d <;> simp only [Response.set] at h <;> split at h <;> rename_i hct <;>
    · injection h with h
      subst h
      try simp [g1] at hct
      simp +decide [Response.get, g1, hct, hd]
      try grind [HMap.Uniq.insert]

theorem send_spec {U : Unicode} {clock : Int} {r r' : Response} {b : Bytes}
    (h : r.send U clock b = .ok r') :
    0 ≤ clock ∧ r'.body = .sized b.length (.cursor b) ∧ r'.statusCode = r.statusCode ∧
    r'.contentLen = some b.length ∧
    r'.httpVersion = r.httpVersion ∧ r'.charset = r.charset ∧ r'.cookies = r.cookies ∧
    (HMap.Uniq r.headers → HMap.Uniq r'.headers) ∧
    r'.get c!"Content-Length" = some (showNat b.length) ∧
    (r'.get c!"Content-Type" = match r.get c!"Content-Type" with
      | some t => some t
      | none => some (c!"text/html" ++ match r.charset with
        | some cs => c!" ;charset=" ++ U.debug cs
        | none => [])) ∧
    (∀ k, k ≠ c!"Content-Length" → k ≠ c!"Content-Type" → k ≠ c!"Date" → r'.get k = r.get k) := by
  obtain ⟨h1, h2, h3, h4, h5, h6, h7, h8, h9, h10, -, h12⟩ := defaultHeaders_spec h
  exact ⟨h1, h2, h3, h4, h5, h6, h7, h8, h9, h10, h12⟩

theorem defaultHeaders_ok {U : Unicode} {clock : Int} (h : 0 ≤ clock) (r : Response) :
    ∃ r', r.defaultHeaders U clock = .ok r' := by
  obtain ⟨d, hd⟩ := dateHeader_ok h
  unfold Response.defaultHeaders
  rw [hd]
  simp only [Res.bind_ok']
  split <;> exact ⟨_, rfl⟩

theorem send_ok {U : Unicode} {clock : Int} (h : 0 ≤ clock) (r : Response) (b : Bytes) :
    ∃ r', r.send U clock b = .ok r' := defaultHeaders_ok h _

/-- what `send_file` does: nothing, or replace type, length and body -/
theorem sendFile_spec {U : Unicode} {fs : Str → FileAt} {r : Response} {path : Str}
    {p : Response × Bool} (h : r.sendFile U fs path = .ok p) :
    p = (r, false) ∨ ∃ contents len t, fs path = .regular contents len ∧
      p = ({ r with headers := r.headers.insert c!"Content-Type" t, contentLen := some len,
                    body := .sized len (.file (some contents)) }, true) := by
  unfold Response.sendFile handleFile at h
  cases hf : fs path <;> rw [hf] at h <;> simp only [Res.bind_ok'] at h
  · left; injection h with h; exact h.symm
  · left; injection h with h; exact h.symm
  · left; injection h with h; exact h.symm
  · rename_i contents len
    right
    cases hn : fileName path with
    | none => rw [hn] at h; simp at h
    | some n =>
      rw [hn] at h
      simp only [Res.unwrap_some, Res.bind_ok'] at h
      injection h with h
      exact ⟨contents, len, _, rfl, h.symm⟩

theorem exec_uniq {U : Unicode} {op : ResOp} {r r' : Response} (h : op.exec U r = .ok r')
    (hu : HMap.Uniq r.headers) : HMap.Uniq r'.headers := by
  cases op <;> simp only [ResOp.exec] at h
  case send => exact (send_spec h).2.2.2.2.2.2.2.1 hu
  case defaultHeaders => exact (defaultHeaders_spec h).2.2.2.2.2.2.2.1 hu
  case sendFile fs path =>
    cases hs : r.sendFile U fs path with
    | panic => rw [hs] at h; simp at h
    | ok p =>
      rw [hs] at h
      simp only [Res.bind_ok'] at h
      injection h with h; subst h
      rcases sendFile_spec hs with rfl | ⟨_, _, _, -, rfl⟩
      · exact hu
      · exact hu.insert _ _
  all_goals
    injection h with h; subst h
    first
      | exact hu
      | exact hu.insert _ _
      | exact (hu.insert _ _).insert _ _
      | exact hu.remove _

theorem execOps_append {U : Unicode} (a b : List ResOp) (r : Response) :
    execOps U r (a ++ b) = (execOps U r a).bind fun r' => execOps U r' b := by
  induction a generalizing r with
  | nil => rfl
  | cons op a ih =>
    simp only [List.cons_append, execOps]
    cases op.exec U r with
    | panic => rfl
    | ok r1 => simp only [Res.bind_ok', ih]

theorem execOps_cons_ok {U : Unicode} {op : ResOp} {ops : List ResOp} {r r' : Response}
    (h : execOps U r (op :: ops) = .ok r') :
    ∃ r1, op.exec U r = .ok r1 ∧ execOps U r1 ops = .ok r' := by
  simp only [execOps] at h
  cases h1 : op.exec U r with
  | panic => rw [h1] at h; simp at h
  | ok r1 => rw [h1] at h; exact ⟨r1, rfl, h⟩

theorem execOps_append_ok {U : Unicode} {a b : List ResOp} {r r' : Response}
    (h : execOps U r (a ++ b) = .ok r') :
    ∃ r1, execOps U r a = .ok r1 ∧ execOps U r1 b = .ok r' := by
  rw [execOps_append] at h
  cases h1 : execOps U r a with
  | panic => rw [h1] at h; simp at h
  | ok r1 => rw [h1] at h; exact ⟨r1, rfl, h⟩

/-- a step invariant is an invariant of sequences -/
theorem execOps_inv {U : Unicode} {P : Response → Prop} {ops : List ResOp} {r r' : Response}
    (hstep : ∀ op ∈ ops, ∀ a b, P a → op.exec U a = .ok b → P b) (h : execOps U r ops = .ok r')
    (hr : P r) : P r' := by
  induction ops generalizing r with
  | nil => simp only [execOps] at h; injection h with h; subst h; exact hr
  | cons op ops ih =>
    obtain ⟨r1, h1, h2⟩ := execOps_cons_ok h
    exact ih (fun o ho => hstep o (by simp [ho])) h2 (hstep op (by simp) _ _ hr h1)

theorem execOps_uniq {U : Unicode} {ops : List ResOp} {r r' : Response}
    (h : execOps U r ops = .ok r') (hu : HMap.Uniq r.headers) : HMap.Uniq r'.headers :=
  execOps_inv (P := fun r => HMap.Uniq r.headers) (fun _ _ _ _ ha hb => exec_uniq hb ha) h hu

/-- an operation leaves the headers it does not touch -/
theorem exec_frame {U : Unicode} {op : ResOp} {r r' : Response} {k : Str}
    (h : op.exec U r = .ok r') (hu : HMap.Uniq r.headers) (hk : k ∉ op.touches) :
    r'.get k = r.get k := by
  cases op <;> simp only [ResOp.exec] at h <;> simp only [ResOp.touches] at hk
  case send =>
    simp only [List.mem_cons, not_or, List.not_mem_nil, not_false_iff, and_true] at hk
    exact (send_spec h).2.2.2.2.2.2.2.2.2.2 k hk.1 hk.2.2 hk.2.1
  case defaultHeaders =>
    simp only [List.mem_cons, not_or, List.not_mem_nil, not_false_iff, and_true] at hk
    exact (defaultHeaders_spec h).2.2.2.2.2.2.2.2.2.2.2 k hk.1 hk.2.2 hk.2.1
  case sendFile fs path =>
    cases hs : r.sendFile U fs path with
    | panic => rw [hs] at h; simp at h
    | ok p =>
      rw [hs] at h
      simp only [Res.bind_ok'] at h
      injection h with h; subst h
      simp only [List.mem_cons, not_or, List.not_mem_nil, not_false_iff, and_true] at hk
      rcases sendFile_spec hs with rfl | ⟨_, _, _, -, rfl⟩
      · rfl
      · exact HMap.get_insert_ne _ _ (fun e => hk e.symm)
  case removeHeader k' =>
    injection h with h; subst h
    simp only [List.mem_cons, List.not_mem_nil, or_false] at hk
    exact (HMap.get_remove hu k' k).trans (if_neg fun e => hk e.symm)
  all_goals
    injection h with h; subst h
    simp only [List.mem_cons, not_or, List.not_mem_nil, not_false_iff, and_true] at hk
  case set => exact HMap.get_insert_ne _ _ (fun e => hk e.symm)
  case withType => exact HMap.get_insert_ne _ _ (fun e => hk e.symm)
  case attachment => exact HMap.get_insert_ne _ _ (fun e => hk e.symm)
  case attachmentNamed =>
    exact (HMap.get_insert_ne _ _ (fun e => hk.2 e.symm)).trans
      (HMap.get_insert_ne _ _ (fun e => hk.1 e.symm))
  case redirect => exact HMap.get_insert_ne _ _ (fun e => hk e.symm)
  all_goals rfl

theorem execOps_frame {U : Unicode} {ops : List ResOp} {r r' : Response} {k : Str}
    (h : execOps U r ops = .ok r') (hu : HMap.Uniq r.headers) (hk : ∀ op ∈ ops, k ∉ op.touches) :
    r'.get k = r.get k := by
  have := execOps_inv (P := fun x => HMap.Uniq x.headers ∧ x.get k = r.get k)
    (fun op ho a b ha hb => ⟨exec_uniq hb ha.1, (exec_frame hb ha.1 (hk op ho)).trans ha.2⟩) h ⟨hu, rfl⟩
  exact this.2

theorem exec_status {U : Unicode} {op : ResOp} {r r' : Response} (h : op.exec U r = .ok r')
    (hs : op.setsStatus = false) : r'.statusCode = r.statusCode := by
  cases op <;> simp only [ResOp.exec] at h <;> simp only [ResOp.setsStatus, Bool.true_eq_false] at hs
  case send => exact (send_spec h).2.2.1
  case defaultHeaders => exact (defaultHeaders_spec h).2.2.1
  case sendFile fs path =>
    cases hs : r.sendFile U fs path with
    | panic => rw [hs] at h; simp at h
    | ok p =>
      rw [hs] at h
      simp only [Res.bind_ok'] at h
      injection h with h; subst h
      rcases sendFile_spec hs with rfl | ⟨_, _, _, -, rfl⟩ <;> rfl
  all_goals (injection h with h; subst h; rfl)

theorem execOps_status {U : Unicode} {ops : List ResOp} {r r' : Response}
    (h : execOps U r ops = .ok r') (hs : ∀ op ∈ ops, op.setsStatus = false) :
    r'.statusCode = r.statusCode :=
  execOps_inv (P := fun x => x.statusCode = r.statusCode)
    (fun op ho _ _ ha hb => (exec_status hb (hs op ho)).trans ha) h rfl

theorem exec_body {U : Unicode} {op : ResOp} {r r' : Response} (h : op.exec U r = .ok r')
    (hs : op.setsBody = false) : r'.body = r.body := by
  cases op <;> simp only [ResOp.exec] at h <;> simp only [ResOp.setsBody, Bool.true_eq_false] at hs
  case defaultHeaders => exact (defaultHeaders_spec h).2.1
  all_goals (injection h with h; subst h; rfl)

theorem execOps_body {U : Unicode} {ops : List ResOp} {r r' : Response}
    (h : execOps U r ops = .ok r') (hs : ∀ op ∈ ops, op.setsBody = false) : r'.body = r.body :=
  execOps_inv (P := fun x => x.body = r.body)
    (fun op ho _ _ ha hb => (exec_body hb (hs op ho)).trans ha) h rfl

end Octane
