import Verif.Proof.Settings
import Verif.Props.Response
/-
C77: the settings of a response are what was set last; cookies add up.
-/
namespace Octane
open Spec

/-- After any operations: the status, the version and the charset are those chosen by the last
operation that chooses one, and the ones at the start if none does. -/
theorem C77_settings (U : Unicode) (ops : List ResOp) (r0 r : Response)
    (h : execOps U r0 ops = .ok r) :
    LastSet ResOp.statusSet ops r0.statusCode r.statusCode ∧
    LastSet ResOp.versionSet ops r0.httpVersion r.httpVersion ∧
    LastSet ResOp.charsetSet ops r0.charset r.charset :=
  ⟨execOps_lastSet (f := (·.statusCode)) (fun _ _ _ => exec_statusSet) h,
    execOps_lastSet (f := (·.httpVersion)) (fun _ _ _ => exec_versionSet) h,
    execOps_lastSet (f := (·.charset)) (fun _ _ _ => exec_charsetSet) h⟩

/-- The last choice is unique: the previous theorem determines the three settings. -/
theorem C77_determined {α : Type} (choice : ResOp → Option α) (ops : List ResOp) (a0 a b : α)
    (ha : LastSet choice ops a0 a) (hb : LastSet choice ops a0 b) : a = b := by
  rcases ha with ⟨p, o, q, e, hc, hq⟩ | ⟨hn, rfl⟩
  · rcases hb with ⟨p', o', q', e', hc', hq'⟩ | ⟨hn', rfl⟩
    · have key : ∀ (p q : List ResOp) (o : ResOp), choice o = some a → (∀ x ∈ q, choice x = none) →
          (p ++ o :: q).filterMap choice = p.filterMap choice ++ [a] := by
        intro p q o h1 h2
        rw [List.filterMap_append, List.filterMap_cons, h1, List.filterMap_eq_nil_iff.2 h2]
      have key' : ∀ (p q : List ResOp) (o : ResOp), choice o = some b → (∀ x ∈ q, choice x = none) →
          (p ++ o :: q).filterMap choice = p.filterMap choice ++ [b] := by
        intro p q o h1 h2
        rw [List.filterMap_append, List.filterMap_cons, h1, List.filterMap_eq_nil_iff.2 h2]
      have e1 := key p q o hc hq
      have e2 := key' p' q' o' hc' hq'
      rw [← e, e', e2] at e1
      exact ((List.append_inj' e1 rfl).2 |> List.singleton_inj.1).symm
    · rw [hn' o (by rw [e]; simp)] at hc; cases hc
  · rcases hb with ⟨p', o', q', e', hc', hq'⟩ | ⟨hn', rfl⟩
    · rw [hn o' (by rw [e']; simp)] at hc'; cases hc'
    · rfl

/-- Cookies add up: those there at the start (or last written as a whole), then every cookie added
since, in order. -/
theorem C77_cookies (U : Unicode) (ops : List ResOp) (r0 r : Response) (h : execOps U r0 ops = .ok r) :
    ((∀ o ∈ ops, ¬ o.replacesCookies) → r.cookies = r0.cookies ++ ops.filterMap (·.cookieAdded)) ∧
    (∀ pre cs post, ops = pre ++ .writeCookies cs :: post → (∀ o ∈ post, ¬ o.replacesCookies) →
      r.cookies = cs ++ post.filterMap (·.cookieAdded)) := by
  refine ⟨execOps_cookies h, ?_⟩
  rintro pre cs post rfl hp
  obtain ⟨r1, -, h1⟩ := execOps_append_ok h
  obtain ⟨r2, h2, h3⟩ := execOps_cons_ok h1
  injection h2 with h2
  rw [execOps_cookies h3 hp, ← h2]

/-- The body is the one sent last, and the one at the start if none was sent; a `send_file` that finds
no regular file does not count. -/
theorem C77_body (U : Unicode) (ops : List ResOp) (r0 r : Response) (h : execOps U r0 ops = .ok r) :
    ((∀ o ∈ ops, o.leavesBody) → r.body = r0.body) ∧
    (∀ pre clock b post, ops = pre ++ .send clock b :: post → (∀ o ∈ post, o.leavesBody) →
      bodyBytes r = b ∧ InMemory r) := by
  have frame : ∀ (ops : List ResOp) (r0 : Response), execOps U r0 ops = .ok r →
      (∀ o ∈ ops, o.leavesBody) → r.body = r0.body := fun ops r0 h hl =>
    execOps_inv (P := fun x => x.body = r0.body)
      (fun o ho _ _ ha hb => (exec_leavesBody hb (hl o ho)).trans ha) h rfl
  refine ⟨frame ops r0 h, ?_⟩
  rintro pre clock b post rfl hp
  obtain ⟨r1, -, h1⟩ := execOps_append_ok h
  obtain ⟨r2, h2, h3⟩ := execOps_cons_ok h1
  have e : r.body = .sized b.length (.cursor b) := (frame post r2 h3 hp).trans (send_spec h2).2.1
  refine ⟨by rw [bodyBytes, e], ?_⟩
  intro x
  rw [e]
  simp [ResBody.getReader]

/-- On the wire: the bytes are a head without cookies, one `Set-Cookie` line for each cookie added, in
the order they were added, separated by line ends, a line end, and the body that was sent. -/
theorem C77_cookie_lines (U : Unicode) (ord : MapOrder) (pre post : List ResOp) (clock : Int)
    (body : Bytes) (r : Response)
    (h : execOps U Response.newEmpty (pre ++ .send clock body :: post) = .ok r)
    (hn : ∀ o ∈ pre ++ post, ¬ o.replacesCookies) (hb : ∀ o ∈ post, o.leavesBody) :
    ∃ head : Str, sendData (r.getData U false ord) = utf8 (head ++ crlf) ++ body ∧
      sendData (r.getData U true ord) = utf8 (head ++ crlf.intercalate
        (((pre ++ post).filterMap (·.cookieAdded)).map fun c => c!"Set-Cookie: " ++ cookieText c) ++
          crlf) ++ body := by
  have hc := (C77_cookies U _ _ r h).1 (by
    intro o ho
    rcases List.mem_append.1 ho with ho | ho
    · exact hn o (by simp [ho])
    · rcases List.mem_cons.1 ho with rfl | ho
      · exact id
      · exact hn o (by simp [ho]))
  obtain ⟨b1, b2⟩ := (C77_body U _ _ r h).2 pre clock body post rfl hb
  have hcopy : (copy r.body.getReader).1 = body := by
    rw [← b1]
    unfold bodyBytes
    unfold InMemory at b2
    cases hr : r.body with
    | none => simp [ResBody.getReader, copy_cursor]
    | sized n rd =>
      cases rd with
      | cursor b => simp [ResBody.getReader, copy_cursor]
      | file b => exact absurd (by rw [hr]; rfl) (b2 b)
    | «unsized» rd =>
      cases rd with
      | cursor b => simp [ResBody.getReader, copy_cursor]
      | file b => exact absurd (by rw [hr]; rfl) (b2 b)
  have hm : r.cookies.map Cookie.serialise =
      ((pre ++ post).filterMap (·.cookieAdded)).map fun c => c!"Set-Cookie: " ++ cookieText c := by
    rw [hc]
    simp only [List.filterMap_append, List.filterMap_cons, ResOp.cookieAdded, Response.newEmpty,
      List.nil_append]
    apply List.map_congr_left
    intro c _
    simp [Cookie.serialise, Cookie.toStr_text]
  refine ⟨r.statusLine U ++ (ord.enum r.headers).flatMap
    fun d => d.1 ++ c!":" ++ [' '] ++ d.2 ++ c!"\r\n", ?_, ?_⟩
  · simp [sendData, Response.getData, Response.headersStr, hcopy, crlf]
  · simp only [sendData, Response.getData, Response.headersStr, hcopy, hm, join_intercalate, if_true]
    simp [crlf]

/-- two cookies, a redirect overridden by a status, two bodies -/
def C77_ops : List ResOp :=
  [.cookie ⟨c!"a", c!"1", []⟩, .redirect c!"/x", .send 0 [1], .status (.named 25), .charset c!"utf-8",
    .httpVersion .http10, .send 0 [2, 3], .cookie ⟨c!"b", c!"2", [c!"HttpOnly"]⟩]

example : ∃ r, execOps Unicode.asciiOnly Response.newEmpty C77_ops = .ok r ∧
    r.statusCode = .named 25 ∧ r.httpVersion = c!"1.0" ∧ r.charset = some c!"utf-8" ∧
    r.cookies = [⟨c!"a", c!"1", []⟩, ⟨c!"b", c!"2", [c!"HttpOnly"]⟩] ∧ bodyBytes r = [2, 3] := by
  obtain ⟨r1, h1⟩ := send_ok (U := Unicode.asciiOnly) (clock := 0) (by decide)
    ((Response.newEmpty.cookie ⟨c!"a", c!"1", []⟩).redirect c!"/x") [1]
  obtain ⟨r2, h2⟩ := send_ok (U := Unicode.asciiOnly) (clock := 0) (by decide)
    (((r1.status (.named 25)).setCharset c!"utf-8").setHttpVersion .http10) [2, 3]
  have h : execOps Unicode.asciiOnly Response.newEmpty C77_ops =
      .ok (r2.cookie ⟨c!"b", c!"2", [c!"HttpOnly"]⟩) := by
    simp only [C77_ops, execOps, ResOp.exec, Res.bind_ok', h1, h2]
  obtain ⟨s1, s2, s3⟩ := C77_settings _ _ _ _ h
  refine ⟨_, h, ?_, ?_, ?_, ?_, ?_⟩
  · exact C77_determined _ _ _ _ _ s1 (.inl ⟨C77_ops.take 3, _, C77_ops.drop 4, rfl, rfl, by
      simp [C77_ops, ResOp.statusSet]⟩)
  · exact C77_determined _ _ _ _ _ s2 (.inl ⟨C77_ops.take 5, _, C77_ops.drop 6, rfl, rfl, by
      simp [C77_ops, ResOp.versionSet]⟩)
  · exact C77_determined _ _ _ _ _ s3 (.inl ⟨C77_ops.take 4, _, C77_ops.drop 5, rfl, rfl, by
      simp [C77_ops, ResOp.charsetSet]⟩)
  · exact (C77_cookies _ _ _ _ h).1 (by simp [C77_ops, ResOp.replacesCookies])
  · exact ((C77_body _ _ _ _ h).2 (C77_ops.take 6) 0 [2, 3] (C77_ops.drop 7) rfl (by
      simp [C77_ops, ResOp.leavesBody])).1

end Octane
