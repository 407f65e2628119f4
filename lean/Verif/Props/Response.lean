import Verif.Proof.ResOps
import Verif.Props.Tables
import Verif.Props.Request
/-
C36 (serialisation), C37 (header map), C38 (Content-Length), C39 (send_file), C40 (defaults),
C41 (redirect), C53 (version tokens), C55 (error pages).
-/
namespace Octane
open Spec

/-! ### C36 -/

namespace Spec

/-- A header that can be written on a line: a non-empty name without colon, no CR, and a value that
does not begin with a blank (a reader skips those). Weaker than the token and field-value rules. -/
def GoodHeader (k v : Str) : Prop :=
  k ≠ [] ∧ ':' ∉ k ∧ '\r' ∉ k ∧ '\r' ∉ v ∧ ∀ c, v.head? = some c → ¬ isBlank c

/-- A response that can be written: version, phrase and headers of the right form. -/
structure Writable (U : Unicode) (r : Response) : Prop where
  version : ' ' ∉ r.httpVersion ∧ '\r' ∉ r.httpVersion
  phrase : '\r' ∉ U.upperStr r.statusCode.toStr
  headers : ∀ k v, (k, v) ∈ r.headers → GoodHeader k v
  cookies : ∀ c ∈ r.cookies, '\r' ∉ c.toStr ∧ ∀ d, c.toStr.head? = some d → ¬ isBlank d

/-- the bytes the body of a response stands for -/
def bodyBytes (r : Response) : Bytes :=
  match r.body with
  | .none => []
  | .sized _ (.cursor b) => b
  | .unsized (.cursor b) => b
  | .sized _ (.file b) => b.getD []
  | .unsized (.file b) => b.getD []

/-- the body is in memory, not a file -/
def InMemory (r : Response) : Prop := ∀ b, r.body.getReader ≠ .file b

/-- the client sees version, code, phrase, headers, cookies and body of `r` -/
def SeenAs (U : Unicode) (cookies : Bool) (r : Response) (v : ClientView) : Prop :=
  v.version = r.httpVersion ∧ IntNumeral r.statusCode.code v.code ∧
    v.reason = U.upperStr r.statusCode.toStr ∧
    v.headers.Perm (r.headers ++
      (if cookies then r.cookies.map fun c => (c!"Set-Cookie", c.toStr) else [])) ∧
    v.body = bodyBytes r

end Spec

/-- The full claim of C36. -/
def C36_statement : Prop :=
  ∀ (U : Unicode) (cookies : Bool) (ord : MapOrder) (r : Response), Writable U r →
    ∃ v, ClientParses (sendData (r.getData U cookies ord)) v ∧ SeenAs U cookies r v

theorem showInt_no (n : Int) (c : Char) (h1 : ¬ (48 ≤ c.toNat ∧ c.toNat ≤ 57)) (h2 : c ≠ '-') :
    c ∉ showInt n := by
  by_cases hn : 0 ≤ n
  · rw [showInt_nonneg hn]; exact fun h => h1 (showNat_digits _ c h)
  · rw [showInt_neg (by omega)]
    intro h
    rcases List.mem_cons.1 h with h | h
    · exact h2 h
    · exact h1 (showNat_digits _ c h)

theorem headerLine_good {k v : Str} (h : GoodHeader k v) :
    HeaderLine false (headerLine (k, v)) k v ∧ '\r' ∉ headerLine (k, v) ∧ headerLine (k, v) ≠ [] := by
  obtain ⟨h1, h2, h3, h4, h5⟩ := h
  refine ⟨⟨[' '], by simp [headerLine], h1, h2, by simp [isBlank], h5, by simp⟩, ?_, ?_⟩
  · simp [headerLine, h3, h4]
  · simp [headerLine]

theorem headerLines_good (m : List (Str × Str)) (h : ∀ k v, (k, v) ∈ m → GoodHeader k v) :
    HeaderLines (m.map headerLine) m ∧ ∀ l ∈ m.map headerLine, '\r' ∉ l ∧ l ≠ [] := by
  induction m with
  | nil => exact ⟨.nil, by simp⟩
  | cons d m ih =>
    obtain ⟨k, v⟩ := d
    obtain ⟨a, b⟩ := ih (fun k v hm => h k v (by simp [hm]))
    obtain ⟨c, d, e⟩ := headerLine_good (h k v (by simp))
    refine ⟨.cons c a, ?_⟩
    intro l hl
    rw [List.map_cons, List.mem_cons] at hl
    rcases hl with rfl | hl
    · exact ⟨d, e⟩
    · exact b l hl

theorem statusText_good {U : Unicode} {r : Response} (h : Writable U r) :
    StatusLine (r.statusText U) r.httpVersion (showInt r.statusCode.code)
      (U.upperStr r.statusCode.toStr) ∧ '\r' ∉ r.statusText U ∧ r.statusText U ≠ [] := by
  have n1 := showInt_no r.statusCode.code ' ' (by decide) (by decide)
  have n2 := showInt_no r.statusCode.code '\r' (by decide) (by decide)
  refine ⟨⟨rfl, h.version.1, n1⟩, ?_, ?_⟩
  · simp [Response.statusText, h.version.2, n2, h.phrase]
  · simp [Response.statusText]

theorem copy_inMemory {r : Response} (h : InMemory r) : (copy r.body.getReader).1 = bodyBytes r := by
  unfold InMemory at h
  unfold bodyBytes
  cases hb : r.body with
  | none => rw [ResBody.getReader, copy_cursor]
  | sized n rd =>
    rw [hb] at h
    cases rd with
    | cursor b => simp only [ResBody.getReader, copy_cursor]
    | file b => exact absurd rfl (h b)
  | unsized rd =>
    rw [hb] at h
    cases rd with
    | cursor b => simp only [ResBody.getReader, copy_cursor]
    | file b => exact absurd rfl (h b)

/-- C36 for responses without cookies (or with the feature off) whose body is in memory: whatever
order the header map is enumerated in, the client sees exactly the response, in exactly one way. -/
theorem C36_roundtrip_partial (U : Unicode) (cookies : Bool) (ord : MapOrder) (r : Response)
    (hw : Writable U r) (hc : cookies = false ∨ r.cookies = []) (hb : InMemory r) :
    ∃ v, ClientParses (sendData (r.getData U cookies ord)) v ∧ SeenAs U cookies r v ∧
      ∀ v', ClientParses (sendData (r.getData U cookies ord)) v' → v' = v := by
  obtain ⟨s1, s2, s3⟩ := statusText_good hw
  obtain ⟨l1, l2⟩ := headerLines_good (ord.enum r.headers)
    (fun k v hm => hw.headers k v ((ord.perm _).mem_iff.1 hm))
  have hlines : ∀ x ∈ r.statusText U :: (ord.enum r.headers).map headerLine, '\r' ∉ x ∧ x ≠ [] := by
    intro x hx
    rcases List.mem_cons.1 hx with rfl | hx
    · exact ⟨s2, s3⟩
    · exact l2 x hx
  have hp : ClientParses (sendData (r.getData U cookies ord))
      ⟨r.httpVersion, showInt r.statusCode.code, U.upperStr r.statusCode.toStr,
        ord.enum r.headers, bodyBytes r⟩ := by
    refine ⟨r.statusText U, (ord.enum r.headers).map headerLine, ?_,
      fun l hl => no_crlf_of_no_cr (hlines l hl).1, s1, l1⟩
    have e : sendData (r.getData U cookies ord) =
        utf8 (crlf.intercalate (r.statusText U :: (ord.enum r.headers).map headerLine)) ++ blankLine ++
          bodyBytes r := by
      unfold sendData
      rw [getData_plain U cookies ord r hc, utf8_append, utf8_blank, ← copy_inMemory hb]
      rfl
    rw [e]
    exact firstSplit_lines _ _ hlines _
  refine ⟨_, hp, ⟨rfl, showInt_numeral _, rfl, ?_, rfl⟩, fun v' hv' => hv'.unique hp⟩
  have : (if cookies then r.cookies.map fun c => (c!"Set-Cookie", c.toStr) else []) = [] := by
    rcases hc with h | h
    · simp [h]
    · simp [h]
  rw [this, List.append_nil]
  exact ord.perm _

/-- With cookies the head is not ended by a blank line, so whatever the client takes for the body is
shorter than the body sent. -/
theorem C36_cookies_break (U : Unicode) (ord : MapOrder) (r : Response) (hw : Writable U r)
    (hc : r.cookies ≠ []) (hb : InMemory r) (v : ClientView)
    (hv : ClientParses (sendData (r.getData U true ord)) v) :
    v.body.length + 2 ≤ (bodyBytes r).length := by
  obtain ⟨s1, s2, s3⟩ := statusText_good hw
  obtain ⟨l1, l2⟩ := headerLines_good (ord.enum r.headers)
    (fun k v hm => hw.headers k v ((ord.perm _).mem_iff.1 hm))
  have hlines : ∀ x ∈ r.statusText U :: ((ord.enum r.headers).map headerLine ++
      r.cookies.map Cookie.serialise), '\r' ∉ x ∧ x ≠ [] := by
    intro x hx
    rcases List.mem_cons.1 hx with rfl | hx
    · exact ⟨s2, s3⟩
    · rcases List.mem_append.1 hx with hx | hx
      · exact l2 x hx
      · obtain ⟨c, hcm, rfl⟩ := List.mem_map.1 hx
        simp [Cookie.serialise, (hw.cookies c hcm).1]
  have e : sendData (r.getData U true ord) =
      utf8 (crlf.intercalate (r.statusText U :: ((ord.enum r.headers).map headerLine ++
        r.cookies.map Cookie.serialise))) ++ (crlfB ++ bodyBytes r) := by
    unfold sendData
    rw [getData_cookies U ord r hc, utf8_append, utf8_crlf, ← copy_inMemory hb, List.append_assoc]
    rfl
  obtain ⟨sl, ls, ⟨f1, -⟩, -⟩ := hv
  have ho : OccursAt (sendData (r.getData U true ord)) blankLine
      (utf8 (crlf.intercalate (sl :: ls))).length := ⟨_, v.body, f1, rfl⟩
  have hlen := congrArg List.length f1
  rw [e] at ho hlen
  have := blank_not_in_lines _ _ hlines _ ho
  simp only [List.length_append] at hlen
  have h2 : crlfB.length = 2 := rfl
  have h4 : blankLine.length = 4 := rfl
  omega

/-- In particular a response with a cookie and an empty body has no head a client can read. -/
theorem C36_cookies_unreadable (U : Unicode) (ord : MapOrder) (r : Response) (hw : Writable U r)
    (hc : r.cookies ≠ []) (hb : InMemory r) (he : (bodyBytes r).length < 2) (v : ClientView) :
    ¬ ClientParses (sendData (r.getData U true ord)) v := by
  intro hv
  have := C36_cookies_break U ord r hw hc hb v hv
  omega

/-- the simplest enumeration order -/
def MapOrder.id : MapOrder := ⟨fun m => m, fun _ => .refl _⟩

/-- a response with one cookie and body `hi` -/
def C36_example : Response :=
  { Response.newFromSlice (utf8 c!"hi") with cookies := [⟨c!"a", c!"b", []⟩] }

theorem C36_example_writable : Writable Unicode.asciiOnly C36_example := by
  refine ⟨by decide +kernel, by decide +kernel, ?_, ?_⟩
  · intro k v h; exact absurd h List.not_mem_nil
  · intro c hc
    have : c = ⟨c!"a", c!"b", []⟩ := by
      simpa [C36_example] using hc
    subst this
    refine ⟨by decide +kernel, ?_⟩
    intro d hd
    have : d = 'a' := by simpa [Cookie.toStr] using hd.symm
    subst this
    decide

/-- The claim is false: one cookie is enough. -/
theorem C36_counterexample : ¬ C36_statement := by
  intro h
  obtain ⟨v, h1, h2⟩ := h Unicode.asciiOnly true MapOrder.id C36_example C36_example_writable
  have h3 := C36_cookies_break _ _ _ C36_example_writable (by decide +kernel)
    (by intro b hb; exact absurd hb (by simp [C36_example, Response.newFromSlice, ResBody.getReader])) v h1
  rw [h2.2.2.2.2] at h3
  omega

/-- the bytes of the counterexample: the body follows the cookie line directly -/
example : sendData (C36_example.getData Unicode.asciiOnly true MapOrder.id) =
    utf8 c!"HTTP/1.1 200 OK\r\nSet-Cookie: a=b\r\nhi" := by decide +kernel

/-- a response meeting the hypotheses of the round trip -/
def C36_good : Response :=
  { (Response.newFromSlice (utf8 c!"héllo")) with
    headers := [(c!"Content-Type", c!"text/html"), (c!"X-A", c!"b: c")], statusCode := .other 299 c!"fine" }

example : Writable Unicode.asciiOnly C36_good ∧ InMemory C36_good ∧ C36_good.cookies = [] := by
  refine ⟨⟨by decide +kernel, by decide +kernel, ?_, ?_⟩, ?_, rfl⟩
  · intro k v h
    simp [C36_good] at h
    rcases h with ⟨rfl, rfl⟩ | ⟨rfl, rfl⟩
    · refine ⟨by decide, by decide, by decide, by decide, ?_⟩
      intro c hc; simp at hc; subst hc; decide
    · refine ⟨by decide, by decide, by decide, by decide, ?_⟩
      intro c hc; simp at hc; subst hc; decide
  · intro c hc; exact absurd hc List.not_mem_nil
  · intro b hb; exact absurd hb (by simp [C36_good, Response.newFromSlice, ResBody.getReader])

/-! ### C37 -/

/-- Storing a header and reading it back, after any operations that do not touch it; what is stored
last wins, whichever operation stores it. -/
theorem C37_read_back (U : Unicode) (pre post : List ResOp) (op : ResOp) (k v : Str) (r0 r : Response)
    (h0 : HMap.Uniq r0.headers) (h : execOps U r0 (pre ++ op :: post) = .ok r)
    (hs : (k, v) ∈ op.stores) (hp : ∀ o ∈ post, k ∉ o.touches) : r.get k = some v := by
  obtain ⟨r1, h1, h2⟩ := execOps_append_ok h
  obtain ⟨r2, h3, h4⟩ := execOps_cons_ok h2
  rw [execOps_frame h4 (exec_uniq h3 (execOps_uniq h1 h0)) hp]
  cases op <;> simp only [ResOp.stores, List.not_mem_nil] at hs <;>
    simp only [ResOp.exec] at h3 <;> injection h3 with h3 <;> subst h3 <;>
    simp only [List.mem_singleton, Prod.mk.injEq] at hs <;> obtain ⟨rfl, rfl⟩ := hs <;>
    exact HMap.get_insert_self _ _ _

/-- Storing one header does not change another: every header an operation does not touch keeps its
value, through any sequence. -/
theorem C37_frame (U : Unicode) (ops : List ResOp) (k : Str) (r0 r : Response)
    (h0 : HMap.Uniq r0.headers) (h : execOps U r0 ops = .ok r) (hk : ∀ o ∈ ops, k ∉ o.touches) :
    r.get k = r0.get k := execOps_frame h h0 hk

/-- A removed header reads as absent until stored again. -/
theorem C37_removed (U : Unicode) (pre post : List ResOp) (k : Str) (r0 r : Response)
    (h0 : HMap.Uniq r0.headers) (h : execOps U r0 (pre ++ .removeHeader k :: post) = .ok r)
    (hp : ∀ o ∈ post, k ∉ o.touches) : r.get k = none := by
  obtain ⟨r1, h1, h2⟩ := execOps_append_ok h
  obtain ⟨r2, h3, h4⟩ := execOps_cons_ok h2
  have hu := execOps_uniq h1 h0
  rw [execOps_frame h4 (exec_uniq h3 hu) hp]
  simp only [ResOp.exec] at h3
  injection h3 with h3
  subst h3
  exact (HMap.get_remove hu k k).trans (if_pos rfl)

/-- There is never more than one entry under a name, starting from an empty response. -/
theorem C37_one_entry (U : Unicode) (ops : List ResOp) (r : Response)
    (h : execOps U Response.newEmpty ops = .ok r) :
    ∀ k v v', (k, v) ∈ r.headers → (k, v') ∈ r.headers → v = v' := by
  intro k v v' h1 h2
  have hu := execOps_uniq h HMap.Uniq.nil
  have e1 := HMap.get_of_mem hu h1
  have e2 := HMap.get_of_mem hu h2
  rw [e1] at e2; simpa using e2

/-- Names are compared exactly: a header stored under another spelling is another header. -/
theorem C37_case_sensitive (r : Response) (k k' v : Str) (h : k ≠ k') : (r.set k v).get k' = r.get k' :=
  Response.get_set_ne r v h

example : ((execOps Unicode.asciiOnly Response.newEmpty
    [.set c!"A" c!"1", .send 0 [104], .set c!"A" c!"2", .redirect c!"/x", .removeHeader c!"B"]).bind fun r => .ok (r.get c!"A")) =
      .ok (some c!"2") := by decide +kernel

/-! ### C38 -/

/-- may the operation change the length that was announced? -/
def Spec.ResOp.changesLength : ResOp → Bool
  | .send .. => true
  | .sendFile .. => true
  | .set k _ => k = c!"Content-Length"
  | .removeHeader k => k = c!"Content-Length"
  | .writeContentLen _ => true
  | _ => false

theorem touches_len {op : ResOp} (h : op.changesLength = false) (hd : ∀ c, op ≠ .defaultHeaders c) :
    c!"Content-Length" ∉ op.touches ∧ op.setsBody = false := by
  cases op
  case defaultHeaders c => exact absurd rfl (hd c)
  case set k v =>
    refine ⟨?_, rfl⟩
    simp only [ResOp.changesLength, decide_eq_false_iff_not] at h
    simp only [ResOp.touches, List.mem_singleton]
    exact fun e => h e.symm
  case removeHeader k =>
    refine ⟨?_, rfl⟩
    simp only [ResOp.changesLength, decide_eq_false_iff_not] at h
    simp only [ResOp.touches, List.mem_singleton]
    exact fun e => h e.symm
  case send => simp [ResOp.changesLength] at h
  case sendFile => simp [ResOp.changesLength] at h
  case writeContentLen => simp [ResOp.changesLength] at h
  all_goals exact ⟨by simp [ResOp.touches], rfl⟩

theorem exec_contentLen {U : Unicode} {op : ResOp} {r r' : Response} (hb : op.exec U r = .ok r')
    (h : op.changesLength = false) : r'.contentLen = r.contentLen := by
  cases op
  case defaultHeaders c => exact (defaultHeaders_spec hb).2.2.2.1
  case send => simp [ResOp.changesLength] at h
  case sendFile => simp [ResOp.changesLength] at h
  case writeContentLen => simp [ResOp.changesLength] at h
  all_goals
    simp only [ResOp.exec] at hb
    injection hb with hb
    subst hb
    rfl

theorem exec_length {U : Unicode} {op : ResOp} {r r' : Response} (hb : op.exec U r = .ok r')
    (h : op.changesLength = false) (hu : HMap.Uniq r.headers)
    (hl : r.get c!"Content-Length" = r.contentLen.map showNat) :
    r'.get c!"Content-Length" = r'.contentLen.map showNat ∧ r'.body = r.body := by
  by_cases hd : ∃ c, op = .defaultHeaders c
  · obtain ⟨c, rfl⟩ := hd
    obtain ⟨-, b1, -, b2, -, -, -, -, b3, -⟩ := defaultHeaders_spec hb
    refine ⟨?_, b1⟩
    rw [b3, b2]
    cases hcl : r.contentLen with
    | some n => rfl
    | none => rw [hcl] at hl; exact hl
  · obtain ⟨t1, t2⟩ := touches_len h (fun c e => hd ⟨c, e⟩)
    exact ⟨by rw [exec_frame hb hu t1, exec_contentLen hb h, hl], exec_body hb t2⟩

/-- The full claim of C38: in any response built by operations that do not store the length by hand,
a Content-Length header is the length of the bytes that follow the head. -/
def C38_statement : Prop :=
  ∀ (U : Unicode) (ops : List ResOp) (r : Response),
    (∀ o ∈ ops, o.changesLength = true → o.setsBody = true) →
    execOps U Response.newEmpty ops = .ok r → ∀ t, r.get c!"Content-Length" = some t →
    Numeral (copy r.body.getReader).1.length t

/-- C38 for every response whose last body operation is a `send`: whatever happened before (files,
hand-written lengths included) and whatever harmless operations follow, the header is the length of
the body on the wire, which is what was sent. -/
theorem C38_length_partial (U : Unicode) (pre post : List ResOp) (clock : Int) (body : Bytes)
    (r0 r : Response) (h0 : HMap.Uniq r0.headers)
    (h : execOps U r0 (pre ++ .send clock body :: post) = .ok r)
    (hp : ∀ o ∈ post, o.changesLength = false) :
    (∃ t, r.get c!"Content-Length" = some t ∧ Numeral (copy r.body.getReader).1.length t) ∧
      (copy r.body.getReader).1 = body := by
  obtain ⟨r1, h1, h2⟩ := execOps_append_ok h
  obtain ⟨r2, h3, h4⟩ := execOps_cons_ok h2
  have hu := execOps_uniq h1 h0
  obtain ⟨-, e1, -, e2, -, -, -, e3, e4, -⟩ := send_spec h3
  have inv := execOps_inv (U := U)
    (P := fun x => HMap.Uniq x.headers ∧ x.body = .sized body.length (.cursor body) ∧
      x.contentLen = some body.length ∧ x.get c!"Content-Length" = x.contentLen.map showNat)
    (ops := post) (fun op ho a b ⟨a1, a2, a3, a4⟩ hb => by
      have hx := exec_length hb (hp op ho) a1 a4
      exact ⟨exec_uniq hb a1, hx.2.trans a2, (exec_contentLen hb (hp op ho)).trans a3, hx.1⟩) h4
    ⟨e3 hu, e1, e2, by rw [e4, e2]; rfl⟩
  obtain ⟨-, i1, i0, i2⟩ := inv
  rw [i0] at i2
  rw [i1, ResBody.getReader, copy_cursor]
  exact ⟨⟨_, i2, showNat_numeral _⟩, rfl⟩

/-- Without any body operation there is no body and no computed Content-Length. -/
theorem C38_no_body_partial (U : Unicode) (ops : List ResOp) (r : Response)
    (h : execOps U Response.newEmpty ops = .ok r) (hp : ∀ o ∈ ops, o.changesLength = false) :
    r.hasBody = false ∧ r.get c!"Content-Length" = none := by
  have inv := execOps_inv (U := U)
    (P := fun x => HMap.Uniq x.headers ∧ x.body = .none ∧
      x.contentLen = none ∧ x.get c!"Content-Length" = x.contentLen.map showNat)
    (ops := ops) (fun op ho a b ⟨a1, a2, a3, a4⟩ hb => by
      have hx := exec_length hb (hp op ho) a1 a4
      exact ⟨exec_uniq hb a1, hx.2.trans a2, (exec_contentLen hb (hp op ho)).trans a3, hx.1⟩) h
    ⟨HMap.Uniq.nil, rfl, rfl, rfl⟩
  obtain ⟨-, i1, i0, i2⟩ := inv
  rw [i0] at i2
  exact ⟨by rw [Response.hasBody, i1]; rfl, i2⟩

/-- What happens when the last body operation is a successful `send_file`: no byte of a body follows the
head, and the header is the size of the file if the default headers were set after it, and otherwise
whatever it was before the file. -/
theorem C38_file (U : Unicode) (pre post : List ResOp) (fs : Str → FileAt) (path : Str) (contents : Bytes)
    (len : Nat) (hf : fs path = .regular contents len) (r0 r1 r : Response) (h0 : HMap.Uniq r0.headers)
    (h1 : execOps U r0 pre = .ok r1) (h : execOps U r0 (pre ++ .sendFile fs path :: post) = .ok r)
    (hp : ∀ o ∈ post, o.changesLength = false) :
    (copy r.body.getReader).1 = [] ∧
    ((∃ clock, .defaultHeaders clock ∈ post) → ∃ t, r.get c!"Content-Length" = some t ∧ Numeral len t) ∧
    ((∀ clock, .defaultHeaders clock ∉ post) → r.get c!"Content-Length" = r1.get c!"Content-Length") := by
  obtain ⟨r1', h1', h2⟩ := execOps_append_ok h
  obtain rfl : r1 = r1' := Res.ok.inj (h1.symm.trans h1')
  obtain ⟨r2, h3, h4⟩ := execOps_cons_ok h2
  have hu := execOps_uniq h1 h0
  have hu2 := exec_uniq h3 hu
  have hget : r2.get c!"Content-Length" = r1.get c!"Content-Length" :=
    exec_frame h3 hu (by simp [ResOp.touches])
  obtain ⟨e1, e2⟩ : r2.contentLen = some len ∧ r2.body = .sized len (.file (some contents)) := by
    simp only [ResOp.exec] at h3
    cases hs : r1.sendFile U fs path with
    | panic => rw [hs] at h3; simp at h3
    | ok p =>
      rw [hs] at h3
      simp only [Res.bind_ok', Res.ok.injEq] at h3
      subst h3
      rcases sendFile_spec hs with rfl | ⟨c, l, _, hf', rfl⟩
      · have := hf
        simp only [Response.sendFile, handleFile, hf] at hs
        cases hn : fileName path with
        | none => rw [hn] at hs; simp at hs
        | some n => rw [hn] at hs; simp at hs
      · rw [hf] at hf'
        injection hf' with c1 c2
        subst c1; subst c2
        exact ⟨rfl, rfl⟩
  have key : ∀ (post : List ResOp) (x : Response), (∀ o ∈ post, o.changesLength = false) →
      execOps U x post = .ok r → HMap.Uniq x.headers → x.contentLen = some len →
      r.body = x.body ∧
      ((∃ clock, .defaultHeaders clock ∈ post) ∨ x.get c!"Content-Length" = some (showNat len) →
        r.get c!"Content-Length" = some (showNat len)) ∧
      ((∀ clock, .defaultHeaders clock ∉ post) → r.get c!"Content-Length" = x.get c!"Content-Length") := by
    intro post
    induction post with
    | nil =>
      intro x _ hx _ _
      simp only [execOps, Res.ok.injEq] at hx
      subst hx
      refine ⟨rfl, ?_, fun _ => rfl⟩
      rintro (⟨_, hc⟩ | hc)
      · simp at hc
      · exact hc
    | cons op post ih =>
      intro x hpost hx hux hl
      obtain ⟨y, hy, hr⟩ := execOps_cons_ok hx
      have hop := hpost op (by simp)
      obtain ⟨i1, i2, i3⟩ := ih y (fun o ho => hpost o (by simp [ho])) hr (exec_uniq hy hux)
        ((exec_contentLen hy hop).trans hl)
      by_cases hd : ∃ c, op = .defaultHeaders c
      · obtain ⟨c, rfl⟩ := hd
        obtain ⟨-, b1, -, b2, -, -, -, -, b3, -⟩ := defaultHeaders_spec hy
        refine ⟨i1.trans b1, fun _ => i2 (.inr (by rw [b3, hl])), fun hn => absurd (List.mem_cons_self ..) (hn c)⟩
      · obtain ⟨t1, t2⟩ := touches_len hop (fun c e => hd ⟨c, e⟩)
        have hxy := exec_frame hy hux t1
        refine ⟨i1.trans (exec_body hy t2), fun hor => i2 ?_, fun hn => (i3 fun c hc => hn c (by simp [hc])).trans hxy⟩
        rcases hor with ⟨c, hc⟩ | hc
        · rcases List.mem_cons.1 hc with hc | hc
          · exact absurd ⟨c, hc.symm⟩ hd
          · exact .inl ⟨c, hc⟩
        · exact .inr (hxy.trans hc)
  obtain ⟨k1, k2, k3⟩ := key post r2 hp h4 hu2 e1
  refine ⟨?_, fun hd => ⟨_, k2 (.inl hd), showNat_numeral _⟩, fun hn => (k3 hn).trans hget⟩
  rw [k1, e2]
  show (copy (.file (some contents))).1 = []
  rw [copy_file]

/-- a file system with one file of one byte -/
def oneFile : Str → FileAt := fun _ => .regular [120] 1

/-- The claim is false: `send` and then `send_file` keeps the old length. -/
theorem C38_counterexample : ¬ C38_statement := by
  intro h
  have e : ((execOps Unicode.asciiOnly Response.newEmpty
      [.send 0 [1, 2, 3], .sendFile oneFile c!"a.txt"]).bind fun r =>
        .ok (r.get c!"Content-Length", showNat (copy r.body.getReader).1.length)) =
      .ok (some c!"3", c!"0") := by decide +kernel
  cases hr : execOps Unicode.asciiOnly Response.newEmpty
      [.send 0 [1, 2, 3], .sendFile oneFile c!"a.txt"] with
  | panic => rw [hr] at e; simp at e
  | ok r =>
    rw [hr] at e
    simp only [Res.bind_ok', Res.ok.injEq, Prod.mk.injEq] at e
    have := (h _ _ r (by intro o ho hl; simp at ho; rcases ho with rfl | rfl <;> rfl) hr _ e.1).eq
    rw [e.2] at this
    exact absurd this (by decide)

example : ((execOps Unicode.asciiOnly Response.newEmpty
    [.sendFile oneFile c!"a.txt", .send 0 [1, 2, 3], .status .found, .defaultHeaders 5]).bind fun r => .ok (r.get c!"Content-Length")) =
      .ok (some c!"3") := by decide +kernel

/-- a file of one byte after a body of three, with and without the default headers -/
example : ((execOps Unicode.asciiOnly Response.newEmpty
    [.send 0 [1, 2, 3], .sendFile oneFile c!"a.txt", .status .found]).bind fun r =>
      .ok (r.get c!"Content-Length", (copy r.body.getReader).1)) = .ok (some c!"3", []) ∧
    ((execOps Unicode.asciiOnly Response.newEmpty
    [.send 0 [1, 2, 3], .sendFile oneFile c!"a.txt", .defaultHeaders 5]).bind fun r =>
      .ok (r.get c!"Content-Length", (copy r.body.getReader).1)) = .ok (some c!"1", []) := by
  constructor <;> decide +kernel

/-! ### C39 -/

/-- The full claim of C39. -/
def C39_statement : Prop :=
  ∀ (U : Unicode) (fs : Str → FileAt) (path : Str) (contents : Bytes) (r r' : Response),
    fs path = .regular contents contents.length → r.sendFile U fs path = .ok (r', true) →
    (copy r'.body.getReader).1 = contents

/-- What happens: whatever the file contains, the body on the wire is empty. -/
theorem C39_nothing_delivered (U : Unicode) (fs : Str → FileAt) (path : Str) (r r' : Response)
    (h : r.sendFile U fs path = .ok (r', true)) : (copy r'.body.getReader).1 = [] := by
  rcases sendFile_spec h with he | ⟨contents, len, t, -, he⟩
  · simp at he
  · simp only [Prod.mk.injEq, and_true] at he
    rw [he]
    show (copy (.file (some contents))).1 = []
    rw [copy_file]

/-- So the claim holds exactly for empty files. -/
theorem C39_empty_file_partial (U : Unicode) (fs : Str → FileAt) (path : Str) (contents : Bytes)
    (len : Nat) (r r' : Response) (_hf : fs path = .regular contents len)
    (h : r.sendFile U fs path = .ok (r', true)) :
    (copy r'.body.getReader).1 = contents ↔ contents = [] := by
  rw [C39_nothing_delivered U fs path r r' h]
  exact ⟨fun e => e.symm, fun e => e.symm⟩

/-- The claim is false. -/
theorem C39_counterexample : ¬ C39_statement := by
  intro h
  have := h Unicode.asciiOnly oneFile c!"a.txt" [120] Response.newEmpty _ rfl (by rfl)
  exact absurd this (by decide +kernel)

/-- When it succeeds and what it sets: a readable regular file with a file name. -/
theorem C39_success (U : Unicode) (fs : Str → FileAt) (path name : Str) (contents : Bytes) (len : Nat)
    (r : Response) (hf : fs path = .regular contents len) (hn : FileNamed path name) :
    ∃ r', r.sendFile U fs path = .ok (r', true) ∧ r'.hasBody = true ∧
      r'.get c!"Content-Type" = some (getExtension U path) ∧
      ∀ k, k ≠ c!"Content-Type" → r'.get k = r.get k := by
  unfold Response.sendFile handleFile
  rw [hf]
  simp only [fileName_spec hn, Res.unwrap_some, Res.bind_ok']
  refine ⟨_, rfl, rfl, ?_, ?_⟩
  · exact HMap.get_insert_self _ _ _
  · intro k hk; exact HMap.get_insert_ne _ _ (fun e => hk e.symm)

/-- What cannot be opened or is not a regular file leaves the response unchanged. -/
theorem C39_failure (U : Unicode) (fs : Str → FileAt) (path : Str) (r : Response)
    (hf : ∀ contents len, fs path ≠ .regular contents len) :
    r.sendFile U fs path = .ok (r, false) := by
  unfold Response.sendFile handleFile
  cases h : fs path with
  | regular c l => exact absurd h (hf c l)
  | _ => rfl

/-- The file handler itself, on any path: what cannot be opened or is not a regular file is an error; a
regular file without a name (`..` at the end) is a panic; and otherwise it has the name, the contents,
the length and the last extension of the file (the empty one if there is none). -/
theorem C39_file (fs : Str → FileAt) (path : Str) :
    ((∀ contents len, fs path ≠ .regular contents len) → handleFile fs path = .ok none) ∧
    ∀ contents len, fs path = .regular contents len →
      ((∀ name, ¬ FileNamed path name) → handleFile fs path = .panic) ∧
      ∀ name, FileNamed path name → ∃ f, handleFile fs path = .ok (some f) ∧ f.fileName = name ∧
        f.contents = contents ∧ f.len = len ∧
        (∀ ext, LastExt name ext → f.extension = ext) ∧
        ((∀ ext, ¬ LastExt name ext) → f.extension = []) := by
  refine ⟨?_, ?_⟩
  · intro hf
    unfold handleFile
    cases h : fs path with
    | regular c l => exact absurd h (hf c l)
    | _ => rfl
  · intro contents len hf
    unfold handleFile
    rw [hf]
    refine ⟨?_, ?_⟩
    · intro hn
      cases hc : fileName path with
      | none => rfl
      | some name => exact absurd (fileNamed_of hc) (hn name)
    · intro name hn
      simp only [fileName_spec hn, Res.unwrap_some, Res.bind_ok']
      refine ⟨_, rfl, rfl, rfl, rfl, ?_, ?_⟩
      · rintro ext ⟨stem, hst, rfl, hd⟩
        simp only [extension, fileName_spec hn]
        rw [rsplitDot_spec hd]
        simp [hst]
      · intro he
        simp only [extension, fileName_spec hn]
        rcases name_cases name with ⟨ext, h⟩ | h | ⟨ext, rfl, hd⟩
        · exact absurd h (he ext)
        · simp [rsplitDot, h]
        · have := rsplitDot_spec (stem := []) hd
          rw [List.nil_append] at this
          rw [this]; simp

/-! ### C40 -/

/-- Sending after any operations: it does not fail (for a clock at or after 1970), the length header is
the length of the body, an explicit Content-Type is kept and otherwise it is `text/html` with the
charset if there is one. -/
theorem C40_send (U : Unicode) (pre : List ResOp) (clock : Int) (body : Bytes) (r0 r1 : Response)
    (h : execOps U r0 pre = .ok r1) (hc : 0 ≤ clock) :
    ∃ r, execOps U r0 (pre ++ [.send clock body]) = .ok r ∧
      (∃ t, r.get c!"Content-Length" = some t ∧ Numeral body.length t) ∧
      (∀ t, r1.get c!"Content-Type" = some t → r.get c!"Content-Type" = some t) ∧
      (r1.get c!"Content-Type" = none → r1.charset = none →
        r.get c!"Content-Type" = some c!"text/html") ∧
      (∀ cs, r1.get c!"Content-Type" = none → r1.charset = some cs →
        r.get c!"Content-Type" = some (c!"text/html ;charset=" ++ U.debug cs)) := by
  obtain ⟨r, hr⟩ := send_ok (U := U) hc r1 body
  refine ⟨r, ?_, ?_⟩
  · rw [execOps_append, h]
    simp only [Res.bind_ok', execOps, ResOp.exec, hr]
  · obtain ⟨-, -, -, -, -, -, -, -, e1, e2, -⟩ := send_spec hr
    refine ⟨⟨_, e1, showNat_numeral _⟩, ?_, ?_, ?_⟩
    · intro t ht; rw [e2, ht]
    · intro h1 h2; rw [e2, h1, h2]; rfl
    · intro cs h1 h2; rw [e2, h1, h2]; rfl

/-- A type given with `with_type` is the one explicitly set: it is kept by any later operations that do not touch
it, and by sending. -/
theorem C40_with_type (U : Unicode) (pre mid : List ResOp) (t : Str) (clock : Int) (body : Bytes) (r0 r1 : Response)
    (h0 : HMap.Uniq r0.headers) (h : execOps U r0 (pre ++ .withType t :: mid) = .ok r1)
    (hm : ∀ o ∈ mid, c!"Content-Type" ∉ o.touches) (hc : 0 ≤ clock) :
    ∃ r, execOps U r0 (pre ++ .withType t :: mid ++ [.send clock body]) = .ok r ∧
      r.get c!"Content-Type" = some t := by
  obtain ⟨r, h1, -, h2, -⟩ := C40_send U (pre ++ .withType t :: mid) clock body r0 r1 h hc
  exact ⟨r, h1, h2 t (C37_read_back U pre mid (.withType t) _ t r0 r1 h0 h (by simp [ResOp.stores]) hm)⟩

/-- a plain charset name is written between quotes -/
theorem C40_charset_text (U : Unicode) (cs : Str)
    (h : ∀ c ∈ cs, isLetter c ∨ ('0' ≤ c ∧ c ≤ '9') ∨ c = '-' ∨ c = '_') :
    U.debug cs = '"' :: cs ++ ['"'] := by
  have e : ∀ c, (isLetter c ∨ ('0' ≤ c ∧ c ≤ '9') ∨ c = '-' ∨ c = '_') → U.debugChar c = [c] := by
    intro c hc
    have hn : c.toNat < 128 := by
      simp only [isLetter, Char.le_def, UInt32.le_iff_toNat_le] at hc
      have e1 : 'z'.val.toNat = 122 := rfl
      have e2 : 'Z'.val.toNat = 90 := rfl
      have e3 : '9'.val.toNat = 57 := rfl
      have : c.toNat = c.val.toNat := rfl
      rcases hc with h | h | rfl | rfl
      · omega
      · omega
      · decide
      · decide
    have key : ∀ n : Fin 128, (isLetter (Char.ofNat n) ∨ ('0' ≤ Char.ofNat n ∧ Char.ofNat n ≤ '9') ∨
        Char.ofNat n = '-' ∨ Char.ofNat n = '_') → Unicode.asciiOnly.debugChar (Char.ofNat n) =
          [Char.ofNat n] := by decide +kernel
    have h2 := key ⟨c.toNat, hn⟩
    simp only [Char.ofNat_toNat] at h2
    have h3 := h2 hc
    have : U.debugChar c = Unicode.asciiOnly.debugChar c := by
      unfold Unicode.debugChar
      simp [isAscii, hn]
    rw [this, h3]
  unfold Unicode.debug
  congr 2
  induction cs with
  | nil => rfl
  | cons c cs ih =>
    rw [List.flatMap_cons, e c (h c (by simp)), ih (fun d hd => h d (by simp [hd]))]
    rfl

/-- Later sends keep the type of the first one. -/
theorem C40_first_type_stays (U : Unicode) (r0 r1 r2 : Response) (clock clock' : Int) (b b' : Bytes)
    (h1 : r0.send U clock b = .ok r1) (h2 : r1.send U clock' b' = .ok r2) :
    r2.get c!"Content-Type" = r1.get c!"Content-Type" := by
  obtain ⟨-, -, -, -, -, -, -, -, -, e, -⟩ := send_spec h1
  obtain ⟨-, -, -, -, -, -, -, -, -, e2, -⟩ := send_spec h2
  rw [e2]
  cases hg : r0.get c!"Content-Type" with
  | some t => rw [hg] at e; rw [e]
  | none => rw [hg] at e; rw [e]

example : ((execOps Unicode.asciiOnly Response.newEmpty
    [.charset c!"utf-8", .send 0 [1]]).bind fun r => .ok (r.get c!"Content-Type")) =
      .ok (some c!"text/html ;charset=\"utf-8\"") := by decide +kernel
example : ((execOps Unicode.asciiOnly Response.newEmpty
    [.withType c!"text/css", .send 0 [1]]).bind fun r => .ok (r.get c!"Content-Type")) =
      .ok (some c!"text/css") := by decide +kernel

/-- the hypotheses of `C40_with_type`: the type, then another header and a status -/
example := C40_with_type Unicode.asciiOnly [.charset c!"utf-8"] [.set c!"A" c!"b", .status .notFound] c!"text/css" 0 [1]
  Response.newEmpty _ List.nodup_nil rfl (by simp [ResOp.touches]) (by decide)

/-! ### C41 (see Props/Server for what happens to a redirect without a body) -/

/-- After `redirect l` the status is 302 and `Location` is `l` until changed. -/
theorem C41_redirect_state (U : Unicode) (pre post : List ResOp) (l : Str) (r0 r : Response)
    (h0 : HMap.Uniq r0.headers) (h : execOps U r0 (pre ++ .redirect l :: post) = .ok r)
    (h1 : ∀ o ∈ post, c!"Location" ∉ o.touches) (h2 : ∀ o ∈ post, o.setsStatus = false) :
    r.statusCode.code = 302 ∧ r.get c!"Location" = some l := by
  refine ⟨?_, C37_read_back U pre post (.redirect l) _ l r0 r h0 h (by simp [ResOp.stores]) h1⟩
  obtain ⟨r1, -, h4⟩ := execOps_append_ok h
  obtain ⟨r2, h5, h6⟩ := execOps_cons_ok h4
  rw [execOps_status h6 h2]
  simp only [ResOp.exec] at h5
  injection h5 with h5
  subst h5
  show StatusCode.found.code = 302
  decide +kernel

/-- The emitted response carries both. -/
theorem C41_redirect_wire_partial (U : Unicode) (cookies : Bool) (ord : MapOrder) (pre post : List ResOp)
    (l : Str) (r0 r : Response) (h0 : HMap.Uniq r0.headers)
    (h : execOps U r0 (pre ++ .redirect l :: post) = .ok r)
    (h1 : ∀ o ∈ post, c!"Location" ∉ o.touches) (h2 : ∀ o ∈ post, o.setsStatus = false)
    (hw : Writable U r) (hc : cookies = false ∨ r.cookies = []) (hb : InMemory r) :
    ∃ v, ClientParses (sendData (r.getData U cookies ord)) v ∧ v.code = c!"302" ∧ v.reason = c!"FOUND" ∧
      (c!"Location", l) ∈ v.headers := by
  obtain ⟨e1, e2⟩ := C41_redirect_state U pre post l r0 r h0 h h1 h2
  obtain ⟨v, v1, ⟨-, v2, v3, v4, -⟩, -⟩ := C36_roundtrip_partial U cookies ord r hw hc hb
  refine ⟨v, v1, ?_, ?_, ?_⟩
  · rw [v2.eq, e1]; decide +kernel
  · rw [v3]
    have : r.statusCode = .found := by
      obtain ⟨r1, -, h4⟩ := execOps_append_ok h
      obtain ⟨r2, h5, h6⟩ := execOps_cons_ok h4
      rw [execOps_status h6 h2]
      simp only [ResOp.exec] at h5
      injection h5 with h5
      subst h5; rfl
    rw [this]
    have := upperStr_ascii U (phrase_ascii 16)
    exact this.trans (by decide +kernel)
  · exact v4.mem_iff.2 (List.mem_append_left _ (HMap.mem_of_get e2))

example : ((execOps Unicode.asciiOnly Response.newEmpty
    [.redirect c!"/there", .send 0 [104, 105]]).bind fun r => .ok (r.statusCode.code, r.get c!"Location")) =
      .ok (302, some c!"/there") := by decide +kernel

/-! ### C53 -/

/-- The full claim of C53: a version accepted in a request line is printed back as the same token. -/
def C53_statement : Prop :=
  ∀ tok, versionOf tok ≠ .httpInvalid → (versionOf tok).toStr = tok

/-- It holds for every known version but 2.0. -/
theorem C53_roundtrip_partial (tok : Str) (h : versionOf tok ≠ .httpInvalid) (h2 : tok ≠ c!"2.0") :
    (versionOf tok).toStr = tok ∧ ∀ r : Response, (r.setHttpVersion (versionOf tok)).httpVersion = tok := by
  have e : (versionOf tok).toStr = tok := by
    unfold versionOf at h ⊢
    by_cases h1 : tok = c!"1.1"
    · rw [if_pos h1, h1]; rfl
    · by_cases h3 : tok = c!"1.0"
      · rw [if_neg h1, if_pos h3, h3]; rfl
      · by_cases h4 : tok = c!"0.9"
        · rw [if_neg h1, if_neg h3, if_neg h2, if_pos h4, h4]; rfl
        · simp [h1, h2, h3, h4] at h
  exact ⟨e, fun r => e⟩

/-- which tokens are accepted -/
theorem C53_accepted (tok : Str) :
    versionOf tok ≠ .httpInvalid ↔ tok ∈ [c!"1.1", c!"1.0", c!"2.0", c!"0.9"] := by
  unfold versionOf
  constructor
  · intro h
    by_cases h1 : tok = c!"1.1"
    · simp [h1]
    · by_cases h2 : tok = c!"1.0"
      · simp [h2]
      · by_cases h3 : tok = c!"2.0"
        · simp [h3]
        · by_cases h4 : tok = c!"0.9"
          · simp [h4]
          · simp [h1, h2, h3, h4] at h
  · intro h
    simp only [List.mem_cons, List.not_mem_nil, or_false] at h
    rcases h with rfl | rfl | rfl | rfl <;> decide

/-- The claim is false: 2.0 is printed as 0.2. -/
theorem C53_counterexample : ¬ C53_statement := by
  intro h
  exact absurd (h c!"2.0" (by decide +kernel)) (by decide +kernel)

/-! ### C55 -/

theorem phrase_no_cr (U : Unicode) (i : Fin 61) : '\r' ∉ U.upperStr (StatusCode.named i).toStr := by
  rw [upperStr_ascii U (phrase_ascii i)]
  have : ∀ e ∈ statusTable, '\r' ∉ asciiUpper e.2 := by decide +kernel
  exact this _ (named_mem i)

/-- the headers of an error page -/
theorem errorPage_headers {U : Unicode} {clock : Int} {kind : StatusCode} {res : Response}
    (h : ((Response.newFromSlice (utf8 notFoundPage)).status kind).defaultHeaders U clock = .ok res) :
    ∃ d, dateHeader clock = .ok d ∧ (res.set c!"Content-Type" c!"text/html").headers =
      [(c!"Content-Length", showNat (utf8 notFoundPage).length)] ++
        (match d with | some t => [(c!"Date", t)] | none => []) ++ [(c!"Content-Type", c!"text/html")] := by
  have hc := (defaultHeaders_spec h).1
  obtain ⟨d, hd⟩ := dateHeader_ok hc
  refine ⟨d, hd, ?_⟩
  unfold Response.defaultHeaders at h
  rw [hd] at h
  cases d with
  | none =>
    simp only [Res.bind_ok', Response.status, Response.newFromSlice, Response.newEmpty] at h
    simp +decide [HMap.insert, HMap.get, Response.set] at h
    rw [← h]
    simp +decide [Response.set, HMap.insert]
  | some t =>
    simp only [Res.bind_ok', Response.status, Response.newFromSlice, Response.newEmpty] at h
    simp +decide [HMap.insert, HMap.get, Response.set] at h
    rw [← h]
    simp +decide [Response.set, HMap.insert]

theorem date_good {clock : Int} {t : Str} (h : dateHeader clock = .ok (some t)) :
    '\r' ∉ t ∧ ∀ c, t.head? = some c → ¬ isBlank c := by
  have hc : 0 ≤ clock := by
    rcases Int.lt_or_le clock 0 with hn | hn
    · rw [dateHeader_panic hn] at h; simp at h
    · exact hn
  have h1 : clock ≤ i64Max := by
    rcases Int.lt_or_le i64Max clock with hn | hn
    · unfold dateHeader Time.now at h
      rw [if_neg (by omega), if_pos (by omega)] at h
      simp at h
    · exact hn
  obtain ⟨c, hv, hi, w, mon, hw, hmon, e⟩ := dateHeader_spec clock hc h1
  rw [e] at h
  injection h with h
  injection h with h
  have hwm := List.mem_of_getElem? hw
  have hmm := List.mem_of_getElem? hmon
  have w1 : ∀ w ∈ dayNames, '\r' ∉ w ∧ w ≠ [] ∧ ∀ c, w.head? = some c → ¬ isBlank c := by
    intro w hw
    simp only [dayNames, List.mem_cons, List.not_mem_nil, or_false] at hw
    rcases hw with rfl | rfl | rfl | rfl | rfl | rfl | rfl <;>
      exact ⟨by decide, by decide, by intro c hc; simp at hc; subst hc; decide⟩
  have m1 : ∀ m ∈ months, '\r' ∉ m := by decide +kernel
  have two1 : ∀ n : Int, '\r' ∉ two n := by
    intro n
    have hdc : ∀ k, digitChar k ≠ '\r' := by
      intro k hk
      have h3 := congrArg Char.toNat hk
      have e0 : '0'.toNat = 48 := rfl
      have e1 : '\r'.toNat = 13 := rfl
      rw [digitChar, e0] at h3
      by_cases hv : (48 + k).isValidChar
      · have : (Char.ofNat (48 + k)).toNat = 48 + k := by rw [Char.ofNat, dif_pos hv]; rfl
        omega
      · have : (Char.ofNat (48 + k)).toNat = 0 := by rw [Char.ofNat, dif_neg hv]; rfl
        omega
    simp only [two, List.mem_cons, List.not_mem_nil, or_false, not_or]
    exact ⟨fun h => hdc _ h.symm, fun h => hdc _ h.symm⟩
  have s1 := showInt_no c.year '\r' (by decide) (by decide)
  obtain ⟨wa, wb, wc⟩ := w1 w hwm
  constructor
  · rw [← h]
    simp [wa, m1 mon hmm, two1, s1]
  · intro d hd
    apply wc
    rw [← h] at hd
    cases w with
    | nil => exact absurd rfl wb
    | cons a w => simpa using hd

/-- Every error page: with the clock at or after 1970 it is written, and the client reads exactly one
way the status code and phrase, a Content-Length equal to the length of the body, Content-Type
`text/html` and the date (C45), each once and nothing else, and the library's page as body. -/
theorem C55_error_pages (U : Unicode) (cookies : Bool) (ord : MapOrder) (clock : Int) (i : Fin 61)
    (hc : 0 ≤ clock) :
    ∃ bytes v, errorPage U cookies ord clock (.named i) = .ok bytes ∧ ClientParses bytes v ∧
      v.version = c!"1.1" ∧ IntNumeral (StatusCode.named i).code v.code ∧
      v.reason = capitals (StatusCode.named i).toStr ∧
      (∃ t, (c!"Content-Length", t) ∈ v.headers ∧ Numeral v.body.length t) ∧
      (c!"Content-Type", c!"text/html") ∈ v.headers ∧
      (clock ≤ i64Max → ∃ t, dateHeader clock = .ok (some t) ∧ (c!"Date", t) ∈ v.headers) ∧
      (∀ h ∈ v.headers, h.1 ∈ [c!"Content-Length", c!"Date", c!"Content-Type"]) ∧
      (v.headers.map (·.1)).Nodup ∧
      v.body = utf8 notFoundPage ∧ ∀ v', ClientParses bytes v' → v' = v := by
  obtain ⟨res, hres⟩ := defaultHeaders_ok (U := U) hc
    ((Response.newFromSlice (utf8 notFoundPage)).status (.named i))
  obtain ⟨d, hd, hh⟩ := errorPage_headers hres
  obtain ⟨-, b1, b2, b3, b4, b5, b6, -⟩ := defaultHeaders_spec hres
  let r' := res.set c!"Content-Type" c!"text/html"
  have hb : r'.body = .sized (utf8 notFoundPage).length (.cursor (utf8 notFoundPage)) := b1
  have hmem : InMemory r' := by
    intro b h; rw [hb] at h; exact absurd h (by simp [ResBody.getReader])
  have hbb : bodyBytes r' = utf8 notFoundPage := by unfold bodyBytes; rw [hb]
  have hck : r'.cookies = [] := b6
  have hver : r'.httpVersion = c!"1.1" := b4
  have hst : r'.statusCode = .named i := b2
  have hlen : ∀ n, GoodHeader c!"Content-Length" (showNat n) := by
    intro n
    refine ⟨by decide, by decide, by decide, ?_, ?_⟩
    · intro h; have := showNat_digits n _ h; revert this; decide
    · intro c hcc hbl
      have hm := List.mem_of_head? hcc
      have := showNat_digits n c hm
      rcases hbl with rfl | rfl <;> revert this <;> decide
  have hw : Writable U r' := by
    refine ⟨by rw [hver]; decide, by rw [hst]; exact phrase_no_cr U i, ?_, ?_⟩
    · intro k v hkv
      have hkv' : (k, v) ∈ (res.set c!"Content-Type" c!"text/html").headers := hkv
      rw [hh] at hkv'
      simp only [List.mem_append, List.mem_singleton, Prod.mk.injEq] at hkv'
      rcases hkv' with (⟨rfl, rfl⟩ | hkv') | ⟨rfl, rfl⟩
      · exact hlen _
      · cases d with
        | none => simp at hkv'
        | some t =>
          simp only [List.mem_singleton, Prod.mk.injEq] at hkv'
          obtain ⟨rfl, rfl⟩ := hkv'
          obtain ⟨g1, g2⟩ := date_good hd
          exact ⟨by decide, by decide, by decide, g1, g2⟩
      · refine ⟨by decide, by decide, by decide, by decide, ?_⟩
        intro c hcc; simp at hcc; subst hcc; decide
    · intro c hcc; rw [hck] at hcc; exact absurd hcc List.not_mem_nil
  obtain ⟨v, v1, ⟨v2, v3, v4, v5, v6⟩, v7⟩ := C36_roundtrip_partial U cookies ord r' hw (Or.inr hck) hmem
  have hperm : v.headers.Perm r'.headers := by
    rw [hck] at v5; simpa using v5
  refine ⟨sendData (r'.getData U cookies ord), v, ?_, v1, v2.trans hver, by rw [← hst]; exact v3, ?_, ?_, ?_, ?_, ?_, ?_,
    v6.trans hbb, v7⟩
  · unfold errorPage; rw [hres]; rfl
  · rw [v4, hst, upperStr_ascii U (phrase_ascii i), asciiUpper_eq]
  · refine ⟨_, ?_, showNat_numeral _⟩
    rw [hperm.mem_iff, v6, hbb]
    show _ ∈ (res.set c!"Content-Type" c!"text/html").headers
    rw [hh]; simp
  · rw [hperm.mem_iff]
    show _ ∈ (res.set c!"Content-Type" c!"text/html").headers
    rw [hh]; simp
  · intro h1
    obtain ⟨c, -, -, _, _, -, -, e⟩ := dateHeader_spec clock hc h1
    refine ⟨_, e, ?_⟩
    rw [hd] at e
    injection e with e
    rw [hperm.mem_iff]
    show _ ∈ (res.set c!"Content-Type" c!"text/html").headers
    rw [hh, e]; simp
  · intro h hm
    rw [hperm.mem_iff] at hm
    have hm' : h ∈ (res.set c!"Content-Type" c!"text/html").headers := hm
    rw [hh] at hm'
    cases d with
    | none => simp at hm'; rcases hm' with rfl | rfl <;> simp
    | some t => simp at hm'; rcases hm' with rfl | rfl | rfl <;> simp
  · rw [(hperm.map (·.1)).nodup_iff]
    show ((res.set c!"Content-Type" c!"text/html").headers.map (·.1)).Nodup
    rw [hh]
    cases d <;> simp +decide

/-- With a clock before 1970 the error page is not written: the code panics. -/
theorem C55_clock_before_epoch (U : Unicode) (cookies : Bool) (ord : MapOrder) (clock : Int)
    (kind : StatusCode) (h : clock < 0) : errorPage U cookies ord clock kind = .panic := by
  unfold errorPage
  cases hd : ((Response.newFromSlice (utf8 notFoundPage)).status kind).defaultHeaders U clock with
  | panic => rfl
  | ok r => have := (defaultHeaders_spec hd).1; omega

example : errorPage Unicode.asciiOnly true MapOrder.id (2 ^ 63) .badRequest = .ok
    (utf8 (c!"HTTP/1.1 400 BAD REQUEST\r\nContent-Length: 189\r\nContent-Type: text/html\r\n\r\n" ++
      notFoundPage)) := by decide +kernel

/-- a response with a cookie and one byte of body -/
def C36_short : Response := { C36_example with body := .sized 1 (.cursor [104]) }

example (v : ClientView) : ¬ ClientParses (sendData (C36_short.getData .asciiOnly true MapOrder.id)) v :=
  C36_cookies_unreadable .asciiOnly MapOrder.id C36_short ⟨C36_example_writable.1, C36_example_writable.2,
    C36_example_writable.3, C36_example_writable.4⟩ (by decide)
    (by intro b hb; simp [C36_short, ResBody.getReader] at hb) (by decide) v

/-- a file that is sent, and one that is not there -/
example := C39_success .asciiOnly oneFile c!"/d/a.txt" c!"a.txt" [120] 1 Response.newEmpty rfl
  (fileNamed_of (by decide +kernel))
example := C39_failure .asciiOnly (fun _ => .cannotOpen) c!"a.txt" Response.newEmpty (by simp)

example := C40_charset_text .asciiOnly c!"utf-8" (by decide)
example := C53_roundtrip_partial c!"1.0" (by decide) (by decide)

end Octane
