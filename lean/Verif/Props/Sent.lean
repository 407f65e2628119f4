import Verif.Props.Settings
import Verif.Props.Strict
/-
C90, C91: `headers_sent`, and the Date of every answer.
-/
namespace Octane
open Spec

/-! ### C90 -/

/-- does the operation send a body, as far as the documentation is concerned? -/
def Spec.ResOp.sends : ResOp → Prop
  | .send .. => True
  | .sendFile fs path => ∃ contents len, fs path = .regular contents len
  | _ => False

/-- does the operation store a header? -/
def Spec.ResOp.storesHeader : ResOp → Prop
  | .set .. | .send .. | .defaultHeaders _ | .withType _ | .attachment | .attachmentNamed _ | .redirect _ => True
  | .sendFile fs path => ∃ contents len, fs path = .regular contents len
  | _ => False

/-- The full claim of C90: `headers_sent` is true once something was sent, and not before. -/
def C90_statement : Prop :=
  ∀ (U : Unicode) (ops : List ResOp) (r : Response), execOps U Response.newEmpty ops = .ok r →
    (r.headersSent = true ↔ ∃ o ∈ ops, o.sends)

theorem headersSent_iff (r : Response) : r.headersSent = true ↔ ∃ k v, r.get k = some v := by
  unfold Response.headersSent Response.get
  cases h : r.headers with
  | nil => simp [HMap.get]
  | cons kv m =>
    obtain ⟨k, v⟩ := kv
    simp only [List.isEmpty_cons, Bool.not_false, true_iff]
    exact ⟨k, v, by simp [HMap.get]⟩

theorem sendFile_regular {U : Unicode} {fs : Str → FileAt} {r : Response} {path : Str} {p : Response × Bool}
    {contents : Bytes} {len : Nat} (hf : fs path = .regular contents len)
    (h : r.sendFile U fs path = .ok p) :
    ∃ t, p = ({ r with headers := r.headers.insert c!"Content-Type" t, contentLen := some len,
                       body := .sized len (.file (some contents)) }, true) := by
  rcases sendFile_spec h with rfl | ⟨c, l, t, hf', rfl⟩
  · simp only [Response.sendFile, handleFile, hf] at h
    cases hn : fileName path with
    | none => rw [hn] at h; simp at h
    | some n => rw [hn] at h; simp at h
  · rw [hf] at hf'
    injection hf' with c1 c2
    subst c1; subst c2
    exact ⟨t, rfl⟩

theorem mem_of_get {m : HMap Str Str} {k v : Str} (h : HMap.get m k = some v) : (k, v) ∈ m := by
  induction m with
  | nil => simp [HMap.get] at h
  | cons kv m ih =>
    obtain ⟨k', v'⟩ := kv
    simp only [HMap.get] at h
    by_cases hk : k' = k
    · rw [if_pos hk] at h
      simp only [Option.some.injEq] at h
      simp [hk, h]
    · rw [if_neg hk] at h
      exact List.mem_cons_of_mem _ (ih h)

theorem exec_stores {U : Unicode} {o : ResOp} {r r' : Response} (h : o.exec U r = .ok r') (ho : o.storesHeader) :
    r'.headersSent = true := by
  have ins : ∀ (x : Response) (k v : Str), x.headers = r.headers.insert k v → x.headersSent = true := by
    intro x k v hx
    exact (headersSent_iff x).2 ⟨k, v, by rw [Response.get, hx, HMap.get_insert, if_pos rfl]⟩
  cases o <;> simp only [ResOp.exec] at h <;> simp only [ResOp.storesHeader] at ho
  case send =>
    exact (headersSent_iff r').2 ⟨_, _, (send_spec h).2.2.2.2.2.2.2.2.1⟩
  case defaultHeaders =>
    have := (defaultHeaders_spec h).2.2.2.2.2.2.2.2.2.1
    cases ht : r.get c!"Content-Type" <;> rw [ht] at this <;> exact (headersSent_iff r').2 ⟨_, _, this⟩
  case sendFile fs path =>
    obtain ⟨contents, len, hf⟩ := ho
    cases hs : r.sendFile U fs path with
    | panic => rw [hs] at h; simp at h
    | ok p =>
      rw [hs] at h
      simp only [Res.bind_ok', Res.ok.injEq] at h
      obtain ⟨t, rfl⟩ := sendFile_regular hf hs
      subst h
      exact ins _ _ _ rfl
  case set => injection h with h; subst h; exact ins _ _ _ rfl
  case withType => injection h with h; subst h; exact ins _ _ _ rfl
  case attachment => injection h with h; subst h; exact ins _ _ _ rfl
  case redirect => injection h with h; subst h; exact ins _ _ _ rfl
  case attachmentNamed =>
    injection h with h; subst h
    exact (headersSent_iff _).2 ⟨_, _, by
      rw [Response.attachmentWithFilename, Response.get, Response.set, HMap.get_insert, if_pos rfl]⟩

theorem exec_keeps {U : Unicode} {o : ResOp} {r r' : Response} (h : o.exec U r = .ok r') (ho : ¬ o.storesHeader)
    (hr : ∀ k, o ≠ .removeHeader k) : r'.headers = r.headers := by
  cases o <;> simp only [ResOp.exec] at h <;> simp only [ResOp.storesHeader, not_true_eq_false] at ho
  case sendFile fs path =>
    cases hs : r.sendFile U fs path with
    | panic => rw [hs] at h; simp at h
    | ok p =>
      rw [hs] at h
      simp only [Res.bind_ok', Res.ok.injEq] at h
      subst h
      rcases sendFile_spec hs with rfl | ⟨c, l, t, hf', rfl⟩
      · rfl
      · exact absurd ⟨c, l, hf'⟩ ho
  case removeHeader k => exact absurd rfl (hr k)
  all_goals injection h with h; subst h; rfl

/-- `headers_sent` stays true as long as no header is removed -/
theorem exec_sent {U : Unicode} {o : ResOp} {r r' : Response} (h : o.exec U r = .ok r')
    (hr : ∀ k, o ≠ .removeHeader k) (hs : r.headersSent = true) : r'.headersSent = true := by
  by_cases ho : o.storesHeader
  · exact exec_stores h ho
  · unfold Response.headersSent at hs ⊢
    rw [exec_keeps h ho hr]; exact hs

/-- What it is, as long as no header is removed: true once any header was stored. -/
theorem C90_exact (U : Unicode) (ops : List ResOp) (r : Response) (h : execOps U Response.newEmpty ops = .ok r)
    (hr : ∀ k, .removeHeader k ∉ ops) : r.headersSent = true ↔ ∃ o ∈ ops, o.storesHeader := by
  have key : ∀ (ops : List ResOp) (r0 : Response), execOps U r0 ops = .ok r → (∀ k, .removeHeader k ∉ ops) →
      (r.headersSent = true ↔ r0.headersSent = true ∨ ∃ o ∈ ops, o.storesHeader) := by
    intro ops
    induction ops with
    | nil => intro r0 h _; simp only [execOps, Res.ok.injEq] at h; simp [h]
    | cons o ops ih =>
      intro r0 h hr
      obtain ⟨r1, h1, h2⟩ := execOps_cons_ok h
      have ho : ∀ k, o ≠ .removeHeader k := fun k e => hr k (by simp [e])
      rw [ih r1 h2 fun k hk => hr k (List.mem_cons_of_mem _ hk)]
      by_cases hst : o.storesHeader
      · simp [exec_stores h1 hst, hst]
      · simp [Response.headersSent, exec_keeps h1 hst ho, hst]
  rw [key ops _ h hr]
  simp [Response.headersSent, Response.newEmpty]

/-- What holds of C90, the example of the documentation and more: a response nothing was done to has
nothing sent, and after a `send` or a successful `send_file` it is true, unless headers are removed
by hand. -/
theorem C90_sent_partial (U : Unicode) (ops : List ResOp) (r : Response)
    (h : execOps U Response.newEmpty ops = .ok r) :
    (ops = [] → r.headersSent = false) ∧
    ((∀ k, .removeHeader k ∉ ops) → (∃ o ∈ ops, o.sends) → r.headersSent = true) := by
  constructor
  · rintro rfl
    simp only [execOps, Res.ok.injEq] at h
    subst h; rfl
  · rintro hr ⟨o, ho, hs⟩
    refine (C90_exact U ops r h hr).2 ⟨o, ho, ?_⟩
    cases o <;> simp only [ResOp.sends] at hs <;> first | exact hs | trivial

/-- C90 is false of the code, both ways: after `set` and nothing else it is true; and after `send`, if
the handler then removes the three headers that made, it is false. -/
theorem C90_counterexample : ¬ C90_statement ∧
    ∃ r, execOps .asciiOnly Response.newEmpty [.send 0 (utf8 c!"hi"), .removeHeader c!"Content-Length",
      .removeHeader c!"Date", .removeHeader c!"Content-Type"] = .ok r ∧ r.headersSent = false := by
  constructor
  · intro h
    have h1 := (h .asciiOnly [.set c!"A" c!"b"] (Response.newEmpty.set c!"A" c!"b") rfl).1 (by decide)
    obtain ⟨o, ho, hs⟩ := h1
    simp only [List.mem_singleton] at ho
    subst ho
    exact hs
  · exact ⟨{ Response.newEmpty with body := .sized 2 (.cursor (utf8 c!"hi")), contentLen := some 2 },
      by decide +kernel, rfl⟩

/-- the hypotheses of `C90_exact` and `C90_sent_partial` are met -/
example : ∃ r, execOps .asciiOnly Response.newEmpty [.status .found, .send 0 (utf8 c!"hi")] = .ok r ∧
    r.headersSent = true := by
  obtain ⟨r, h, -⟩ := C40_send .asciiOnly [.status .found] 0 (utf8 c!"hi") Response.newEmpty _ rfl (by decide)
  exact ⟨r, h, (C90_sent_partial _ _ r h).2 (by simp) ⟨.send 0 (utf8 c!"hi"), by simp, trivial⟩⟩

/-! ### C91: the Date of answers -/

/-- The full claim of C91: every answer a client can read has a Date. -/
def C91_statement : Prop :=
  ∀ (W : Type) (sv : Server W) (s : Sock) (w w' : W) (bytes : Bytes) (v : ClientView),
    (∀ x, 0 ≤ sv.clock x ∧ sv.clock x ≤ i64Max) → sv.serve w s = .ok (w', bytes) → ClientParses bytes v →
    ∃ t, (c!"Date", t) ∈ v.headers

/-- Whatever the body is made of, the client reads the head, and then what the copying of the body
delivered. -/
theorem client_head (U : Unicode) (cookies : Bool) (ord : MapOrder) (r : Response) (hw : Writable U r)
    (hc : cookies = false ∨ r.cookies = []) :
    ∃ v, ClientParses (sendData (r.getData U cookies ord)) v ∧ v.headers.Perm r.headers ∧
      v.body = (copy r.body.getReader).1 := by
  obtain ⟨v, h1, ⟨-, -, -, h2, h3⟩, -⟩ := C36_roundtrip_partial U cookies ord
    { r with body := .unsized (.cursor (copy r.body.getReader).1) }
    ⟨hw.version, hw.phrase, hw.headers, hw.cookies⟩ hc (by intro b; simp [ResBody.getReader])
  refine ⟨v, ?_, ?_, h3⟩
  · have : sendData (r.getData U cookies ord) = sendData (Response.getData U cookies ord
        { r with body := .unsized (.cursor (copy r.body.getReader).1) }) := by
      unfold sendData Response.getData
      simp only [ResBody.getReader, copy_cursor]
      rfl
    rw [this]; exact h1
  · rcases hc with rfl | hc
    · simpa using h2
    · simpa [hc] using h2

/-- What `send` and `default_headers` do: the Date is that of the clock at the last of them, unless it
is set or removed by hand afterwards. -/
theorem C91_date (U : Unicode) (pre post : List ResOp) (clock : Int) (o : ResOp) (r : Response)
    (ho : o = .defaultHeaders clock ∨ ∃ b, o = .send clock b)
    (h : execOps U Response.newEmpty (pre ++ o :: post) = .ok r) (hc : clock ≤ i64Max)
    (hp : ∀ x ∈ post, c!"Date" ∉ x.touches) :
    ∃ t, dateHeader clock = .ok (some t) ∧ r.get c!"Date" = some t := by
  obtain ⟨r1, h1, h2⟩ := execOps_append_ok h
  obtain ⟨r2, h3, h4⟩ := execOps_cons_ok h2
  have hu1 : HMap.Uniq r1.headers := execOps_uniq h1 HMap.Uniq.nil
  have hu2 := exec_uniq h3 hu1
  rw [execOps_frame h4 hu2 hp]
  have key : ∀ x, Response.defaultHeaders U clock x = .ok r2 →
      ∃ t, dateHeader clock = .ok (some t) ∧ r2.get c!"Date" = some t := by
    intro x hx
    obtain ⟨h0, -, -, -, -, -, -, -, -, -, ⟨d, hd, hg⟩, -⟩ := defaultHeaders_spec hx
    obtain ⟨c, -, -, _, _, -, -, e⟩ := dateHeader_spec clock h0 hc
    rw [hd] at e
    injection e with e
    subst e
    exact ⟨_, hd, hg⟩
  rcases ho with rfl | ⟨b, rfl⟩
  · exact key _ h3
  · simp only [ResOp.exec, Response.send] at h3
    exact key _ h3

/-- And without them there is none. -/
theorem C91_none (U : Unicode) (ops : List ResOp) (r : Response) (h : execOps U Response.newEmpty ops = .ok r)
    (hp : ∀ x ∈ ops, c!"Date" ∉ x.touches) : r.get c!"Date" = none :=
  execOps_frame h HMap.Uniq.nil hp

/-- What holds of C91: the answer to a request whose handlers end by `send` (or set the default headers)
has the Date, as the client reads it; and so has every error page (`C55_error_pages`). -/
theorem C91_send_partial {W : Type u} (sv : Server W) (w w' : W) (s : Sock) (req : Request)
    (h : Reads sv.feat sv.allocOk s req)
    (hv : req.requestLine.version ≠ .http11 ∨ ∃ hd ∈ req.headers.raw, lowered hd.name = c!"host")
    (hm : req.requestLine.method ≠ .none) (pre post : List ResOp) (clock : Int) (body : Bytes) (r : Response)
    (hr : Router.run sv.feat.urlVariables sv.router req (w, Response.newEmpty) = .ok (w', r))
    (hops : execOps sv.U Response.newEmpty (pre ++ .send clock body :: post) = .ok r)
    (hp : ∀ x ∈ post, c!"Date" ∉ x.touches ∧ x.leavesBody) (hc : clock ≤ i64Max) (hw : Writable sv.U r)
    (hck : sv.feat.cookies = false ∨ r.cookies = []) :
    ∃ bytes v t, sv.serve w s = .ok (w', bytes) ∧ ClientParses bytes v ∧ dateHeader clock = .ok (some t) ∧
      (c!"Date", t) ∈ v.headers ∧ v.body = body := by
  obtain ⟨t, h1, h2⟩ := C91_date sv.U pre post clock _ r (.inr ⟨body, rfl⟩) hops hc fun x hx => (hp x hx).1
  obtain ⟨b1, b2⟩ := (C77_body sv.U _ _ r hops).2 pre clock body post rfl fun x hx => (hp x hx).2
  obtain ⟨v, v1, v2, v3⟩ := client_head sv.U sv.feat.cookies sv.ord r hw hck
  have hb : r.body ≠ .none := by
    obtain ⟨r1, g1, g2⟩ := execOps_append_ok hops
    obtain ⟨r2, g3, g4⟩ := execOps_cons_ok g2
    rw [(C77_body sv.U post r2 r g4).1 fun x hx => (hp x hx).2, (send_spec g3).2.1]
    simp
  refine ⟨_, v, t, ((C34_dispatch sv w s req h hv hm).1 w' r hr).2 hb, v1, h1, ?_, ?_⟩
  · rw [v2.mem_iff]; exact mem_of_get h2
  · rw [v3, copy_inMemory b2, b1]

namespace SentExample

/-- a handler that sends a file -/
def sendIt : Closure (Unit × Response) := fun _ st =>
  (st.2.sendFile .asciiOnly (fun _ => .regular (utf8 c!"x") 1) c!"f.txt").bind fun p => .ok ((st.1, p.1), .stop)
def calls : List (Call (Unit × Response)) := [.route .get c!"/a" sendIt]
/-- what it leaves -/
def left : Response :=
  { Response.newEmpty with
    headers := [(c!"Content-Type", c!"text/plain")], contentLen := some 1, body := .sized 1 (.file (some (utf8 c!"x"))) }

theorem log_calls : logOfL calls = [⟨.on .get [c!"a"], sendIt⟩] := by
  have : Path.parse c!"/a" = some [c!"a"] := by decide
  simp [calls, logOfL, logOf, this, Verb.target, Verb.method]

theorem sendIt_left (mr : MatchedRequest) : sendIt mr ((), Response.newEmpty) = .ok (((), left), .stop) := by
  unfold sendIt
  have : Response.newEmpty.sendFile .asciiOnly (fun _ => .regular (utf8 c!"x") 1) c!"f.txt" = .ok (left, true) := by
    decide +kernel
  rw [this]; rfl

end SentExample

open SentExample StrictExample in
/-- C91 is false of the code: the answer to a request for a file has no Date. -/
theorem C91_counterexample : ¬ C91_statement := by
  intro h
  have hfair : FairL SentExample.calls := by simp [SentExample.calls, FairL, Fair]
  have hlen : (logOfL SentExample.calls).length < 2 ^ 64 := by rw [SentExample.log_calls]; decide
  obtain ⟨r, hr, -⟩ := C12_run_is_replay SentExample.calls hfair hlen
  let sv : Server Unit := ⟨.default, fun _ => true, .asciiOnly, .id, fun _ => 0, r⟩
  obtain ⟨req, g1, g2, g3, g4, g5, g6, -⟩ := reads_bodyless sv.feat sv.allocOk qa ⟨[qa.bytes], .eof⟩ [] qa_good rfl
    (by simp [Sock.bytes])
  have hrep : replay sv.feat.urlVariables req (logOfL SentExample.calls) ((), Response.newEmpty) = .ok ((), left) := by
    rw [SentExample.log_calls]
    have hp : req.requestLine.path = [c!"a"] := by rw [g3]; decide
    have ha : Target.applies sv.feat.urlVariables (.on .get [c!"a"]) req.requestLine.method
        req.requestLine.path = true := by
      rw [g2 .get (by decide), hp]
      show Target.applies Features.default.urlVariables _ _ _ = true
      decide
    simp only [replay, ha, if_true, sendIt_left]
  have hs := served_replay sv SentExample.calls hfair hlen hr _ req g1
    (host_ok (q := qa) (fun _ => ⟨(c!"Host", c!"b"), by decide, by decide +kernel⟩) g4 g5 g6)
    (by rw [g2 .get (by decide)]; simp) () () left hrep (by simp [left])
  obtain ⟨v, v1, v2, -⟩ := client_head sv.U sv.feat.cookies sv.ord left
    ⟨by decide, by show '\r' ∉ Unicode.asciiOnly.upperStr StatusCode.ok.toStr; decide +kernel, (by
      intro k v hkv
      simp only [left, List.mem_singleton, Prod.mk.injEq] at hkv
      obtain ⟨rfl, rfl⟩ := hkv
      refine ⟨by decide, by decide, by decide, by decide, ?_⟩
      intro c hcc; simp at hcc; subst hcc; decide), by simp [left, Response.newEmpty]⟩ (.inr rfl)
  obtain ⟨t, ht⟩ := h Unit sv _ () () _ v (fun _ => ⟨Int.le_refl 0, by show (0 : Int) ≤ i64Max; decide⟩) hs v1
  rw [v2.mem_iff] at ht
  simp [left] at ht

/-- the hypotheses of `C91_date` are met -/
example : ∃ r t, execOps .asciiOnly Response.newEmpty ([.status .found] ++ .send 0 (utf8 c!"hi") :: []) = .ok r ∧
    r.get c!"Date" = some t ∧ dateHeader 0 = .ok (some t) := by
  obtain ⟨r, h, -⟩ := C40_send .asciiOnly [.status .found] 0 (utf8 c!"hi") Response.newEmpty _ rfl (by decide)
  obtain ⟨t, h1, h2⟩ := C91_date .asciiOnly [.status .found] [] 0 _ r (.inr ⟨_, rfl⟩) h (by decide) (by simp)
  exact ⟨r, t, h, h2, h1⟩

/-- a response to which only a header was stored -/
example (r : Response) (h : execOps .asciiOnly Response.newEmpty [.set c!"A" c!"b", .status .found] = .ok r) :=
  C91_none .asciiOnly _ r h (by decide)

end Octane
