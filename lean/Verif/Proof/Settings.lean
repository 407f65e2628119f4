import Verif.Spec.Settings
import Verif.Proof.ResOps
/-
Helper lemmas: what an operation leaves alone, field by field.
-/
namespace Octane
open Spec

/-- `send_file` changes neither status, version, charset nor cookies -/
theorem exec_sendFile {U : Unicode} {fs : Str → FileAt} {path : Str} {r r' : Response}
    (h : (ResOp.sendFile fs path).exec U r = .ok r') :
    r'.statusCode = r.statusCode ∧ r'.httpVersion = r.httpVersion ∧ r'.charset = r.charset ∧
      r'.cookies = r.cookies ∧ ((∀ contents len, fs path ≠ .regular contents len) → r' = r) := by
  simp only [ResOp.exec] at h
  cases hs : r.sendFile U fs path with
  | panic => rw [hs] at h; simp at h
  | ok p =>
    rw [hs] at h
    simp only [Res.bind_ok'] at h
    injection h with h; subst h
    rcases sendFile_spec hs with rfl | ⟨c, l, _, hf, rfl⟩
    · exact ⟨rfl, rfl, rfl, rfl, fun _ => rfl⟩
    · exact ⟨rfl, rfl, rfl, rfl, fun hn => absurd hf (hn c l)⟩

theorem exec_statusSet {U : Unicode} {op : ResOp} {r r' : Response} (h : op.exec U r = .ok r') :
    r'.statusCode = op.statusSet.getD r.statusCode := by
  cases op
  case send => exact (send_spec h).2.2.1
  case defaultHeaders => exact (defaultHeaders_spec h).2.2.1
  case sendFile => exact (exec_sendFile h).1
  all_goals (injection h with h; subst h; rfl)

theorem exec_versionSet {U : Unicode} {op : ResOp} {r r' : Response} (h : op.exec U r = .ok r') :
    r'.httpVersion = op.versionSet.getD r.httpVersion := by
  cases op
  case send => exact (send_spec h).2.2.2.2.1
  case defaultHeaders => exact (defaultHeaders_spec h).2.2.2.2.1
  case sendFile => exact (exec_sendFile h).2.1
  case httpVersion v => cases v <;> (injection h with h; subst h; rfl)
  all_goals (injection h with h; subst h; rfl)

theorem exec_charsetSet {U : Unicode} {op : ResOp} {r r' : Response} (h : op.exec U r = .ok r') :
    r'.charset = op.charsetSet.getD r.charset := by
  cases op
  case send => exact (send_spec h).2.2.2.2.2.1
  case defaultHeaders => exact (defaultHeaders_spec h).2.2.2.2.2.1
  case sendFile => exact (exec_sendFile h).2.2.1
  all_goals (injection h with h; subst h; rfl)

theorem exec_cookieAdded {U : Unicode} {op : ResOp} {r r' : Response} (h : op.exec U r = .ok r')
    (hn : ¬ op.replacesCookies) : r'.cookies = r.cookies ++ op.cookieAdded.toList := by
  cases op
  case send => simpa [ResOp.cookieAdded] using (send_spec h).2.2.2.2.2.2.1
  case defaultHeaders => simpa [ResOp.cookieAdded] using (defaultHeaders_spec h).2.2.2.2.2.2.1
  case sendFile => simpa [ResOp.cookieAdded] using (exec_sendFile h).2.2.2.1
  case writeCookies => exact absurd trivial hn
  all_goals
    injection h with h; subst h
    simp [ResOp.cookieAdded, Response.set, Response.withType, Response.status,
      Response.setHttpVersion, Response.attachment, Response.attachmentWithFilename,
      Response.redirect, Response.cookie, Response.setCharset]

theorem exec_leavesBody {U : Unicode} {op : ResOp} {r r' : Response} (h : op.exec U r = .ok r')
    (hn : op.leavesBody) : r'.body = r.body := by
  cases op
  case send => exact absurd hn id
  case defaultHeaders => exact (defaultHeaders_spec h).2.1
  case sendFile => rw [(exec_sendFile h).2.2.2.2 hn]
  all_goals (injection h with h; subst h; rfl)

/-- a field that every operation either chooses or leaves alone is what was chosen last -/
theorem execOps_lastSet {α : Type} {U : Unicode} {f : Response → α} {choice : ResOp → Option α}
    (hstep : ∀ (op : ResOp) (r r' : Response), op.exec U r = .ok r' → f r' = (choice op).getD (f r))
    {ops : List ResOp} {r0 r : Response} (h : execOps U r0 ops = .ok r) :
    LastSet choice ops (f r0) (f r) := by
  induction ops generalizing r0 with
  | nil => simp only [execOps] at h; injection h with h; subst h; exact .inr ⟨by simp, rfl⟩
  | cons op ops ih =>
    obtain ⟨r1, h1, h2⟩ := execOps_cons_ok h
    rcases ih h2 with ⟨pre, o, post, e, hc, hp⟩ | ⟨hn, e⟩
    · exact .inl ⟨op :: pre, o, post, by simp [e], hc, hp⟩
    · rw [hstep op r0 r1 h1] at e
      cases hc : choice op with
      | some a => exact .inl ⟨[], op, ops, rfl, by rw [e, hc]; rfl, hn⟩
      | none =>
        refine .inr ⟨?_, by rw [e, hc]; rfl⟩
        intro o ho
        rcases List.mem_cons.1 ho with rfl | ho
        · exact hc
        · exact hn o ho

theorem execOps_cookies {U : Unicode} {ops : List ResOp} {r0 r : Response}
    (h : execOps U r0 ops = .ok r) (hn : ∀ o ∈ ops, ¬ o.replacesCookies) :
    r.cookies = r0.cookies ++ ops.filterMap (·.cookieAdded) := by
  induction ops generalizing r0 with
  | nil => simp only [execOps] at h; injection h with h; subst h; simp
  | cons op ops ih =>
    obtain ⟨r1, h1, h2⟩ := execOps_cons_ok h
    rw [ih h2 (fun o ho => hn o (List.mem_cons_of_mem _ ho)),
      exec_cookieAdded h1 (hn op List.mem_cons_self)]
    cases hc : op.cookieAdded <;> simp [hc]

theorem Cookie.toStr_text (c : Cookie) : c.toStr = cookieText c := by
  unfold Cookie.toStr cookieText
  rw [show c.name ++ c!"=" ++ c.value = c.name ++ '=' :: c.value by simp]
  generalize c.name ++ '=' :: c.value = x
  induction c.attrs generalizing x with
  | nil => simp [List.intercalate]
  | cons a as ih =>
    rw [List.flatMap_cons, intercalate_cons_cons, ← ih a]
    simp

theorem join_intercalate (sep : Str) (l : List Str) : Response.join sep l = sep.intercalate l := by
  induction l with
  | nil => rfl
  | cons a l ih =>
    cases l with
    | nil => simp [Response.join, List.intercalate]
    | cons b l => rw [intercalate_cons_cons, ← ih]; simp [Response.join]

end Octane
