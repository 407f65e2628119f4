import Verif.Spec.Answer
import Verif.Props.Sent
/-
C96, C98, C99: what an answer should be besides readable.
-/
namespace Octane
open Spec
variable {W : Type u}

/-! ### helpers -/

/-- what a client reads off a response, wherever its body comes from -/
theorem client_all (U : Unicode) (cookies : Bool) (ord : MapOrder) (r : Response) (hw : Writable U r)
    (hc : cookies = false ∨ r.cookies = []) :
    ∃ v, ClientParses (sendData (r.getData U cookies ord)) v ∧ IntNumeral r.statusCode.code v.code ∧
      v.headers.Perm r.headers ∧ v.body = (copy r.body.getReader).1 := by
  obtain ⟨v, h1, ⟨-, h4, -, h2, h3⟩, -⟩ := C36_roundtrip_partial U cookies ord
    { r with body := .unsized (.cursor (copy r.body.getReader).1) }
    ⟨hw.version, hw.phrase, hw.headers, hw.cookies⟩ hc (by intro b; simp [ResBody.getReader])
  refine ⟨v, ?_, h4, ?_, h3⟩
  · have : sendData (r.getData U cookies ord) = sendData (Response.getData U cookies ord
        { r with body := .unsized (.cursor (copy r.body.getReader).1) }) := by
      unfold sendData Response.getData
      simp only [ResBody.getReader, copy_cursor]
      rfl
    rw [this]; exact h1
  · rcases hc with rfl | hc
    · simpa using h2
    · simpa [hc] using h2

/-- what a server with a single handler answers -/
theorem demo_serve (h : Closure (Unit × Response)) (res : Response)
    (hh : ∀ mr, h mr ((), Response.newEmpty) = .ok (((), res), .stop)) (s : Sock) (req : Request)
    (hr : Reads Features.default (fun _ => true) s req)
    (hv : req.requestLine.version ≠ .http11 ∨ ∃ hd ∈ req.headers.raw, lowered hd.name = c!"host")
    (hm : req.requestLine.method ≠ .none) (hb : res.body ≠ .none) :
    (demo h).serve () s = .ok ((), sendData (res.getData Unicode.asciiOnly true MapOrder.id)) := by
  have hlog : logOfL [Call.add h] = [⟨.everywhere, h⟩] := by simp [logOfL, logOf]
  refine served_replay (demo h) [.add h] (by simp [FairL, Fair]) (by rw [hlog]; simp)
    (by simp [execL, exec, demo]) s req hr hv hm () () res ?_ hb
  rw [hlog]
  simp only [replay, Target.applies, if_true, hh]

/-! ### C96: short names of types -/

/-- The full claim of C96: `with_type` makes the type of the answer the one its argument names. -/
def C96_statement : Prop :=
  ∀ (r : Response) (t m : Str), TypeNamed t m → (r.withType t).get c!"Content-Type" = some m

/-- What it does, exactly: the argument is the type, whatever it is; nothing else changes. -/
theorem C96_verbatim (r : Response) (t : Str) :
    (r.withType t).get c!"Content-Type" = some t ∧
      (∀ k, k ≠ c!"Content-Type" → (r.withType t).get k = r.get k) ∧
      (r.withType t).body = r.body ∧ (r.withType t).statusCode = r.statusCode ∧
      (r.withType t).cookies = r.cookies ∧ (r.withType t).contentLen = r.contentLen ∧
      (r.withType t).charset = r.charset ∧ (r.withType t).httpVersion = r.httpVersion := by
  refine ⟨HMap.get_insert_self _ _ _, fun k hk => ?_, rfl, rfl, rfl, rfl, rfl, rfl⟩
  exact Response.get_set_ne r t (Ne.symm hk)

/-- And so the client reads it, when the handlers send a body after it and leave the type alone. -/
theorem C96_seen (sv : Server W) (w w' : W) (s : Sock) (req : Request)
    (h : Reads sv.feat sv.allocOk s req)
    (hv : req.requestLine.version ≠ .http11 ∨ ∃ hd ∈ req.headers.raw, lowered hd.name = c!"host")
    (hm : req.requestLine.method ≠ .none) (pre mid post : List ResOp) (t : Str) (clock : Int) (body : Bytes)
    (r : Response) (hr : Router.run sv.feat.urlVariables sv.router req (w, Response.newEmpty) = .ok (w', r))
    (hops : execOps sv.U Response.newEmpty (pre ++ .withType t :: (mid ++ .send clock body :: post)) = .ok r)
    (hmid : ∀ x ∈ mid, c!"Content-Type" ∉ x.touches)
    (hpost : ∀ x ∈ post, c!"Content-Type" ∉ x.touches ∧ x.leavesBody) (hw : Writable sv.U r)
    (hck : sv.feat.cookies = false ∨ r.cookies = []) :
    ∃ bytes v, sv.serve w s = .ok (w', bytes) ∧ ClientParses bytes v ∧ (c!"Content-Type", t) ∈ v.headers ∧
      v.body = body := by
  have hops' := hops
  rw [show pre ++ ResOp.withType t :: (mid ++ .send clock body :: post) =
    (pre ++ ResOp.withType t :: mid) ++ .send clock body :: post by simp] at hops'
  obtain ⟨b1, b2⟩ := (C77_body sv.U _ _ r hops').2 _ clock body post rfl fun x hx => (hpost x hx).2
  obtain ⟨v, v1, -, v2, v3⟩ := client_all sv.U sv.feat.cookies sv.ord r hw hck
  obtain ⟨r1, g1, g2⟩ := execOps_append_ok hops'
  obtain ⟨r2, g3, g4⟩ := execOps_cons_ok g2
  have hb : r.body ≠ .none := by
    rw [(C77_body sv.U post r2 r g4).1 fun x hx => (hpost x hx).2, (send_spec g3).2.1]
    simp
  have ht : r1.get c!"Content-Type" = some t :=
    C37_read_back sv.U pre mid (.withType t) _ _ _ _ HMap.Uniq.nil g1 (by simp [ResOp.stores]) hmid
  have ht2 : r2.get c!"Content-Type" = some t := by
    have := (defaultHeaders_spec (by simpa only [ResOp.exec, Response.send] using g3)).2.2.2.2.2.2.2.2.2.1
    have e : Response.get { r1 with body := .sized body.length (.cursor body), contentLen := some body.length }
        c!"Content-Type" = r1.get c!"Content-Type" := rfl
    rw [e, ht] at this
    exact this
  have ht3 : r.get c!"Content-Type" = some t := by
    rw [execOps_frame g4 (exec_uniq g3 (execOps_uniq g1 HMap.Uniq.nil)) fun x hx => (hpost x hx).1, ht2]
  refine ⟨_, v, ((C34_dispatch sv w s req h hv hm).1 w' r hr).2 hb, v1, ?_, ?_⟩
  · rw [v2.mem_iff]; exact mem_of_get ht3
  · rw [v3, copy_inMemory b2, b1]

/-- What holds of C96: full types. Missing: the short names, see `C96_counterexample`. -/
theorem C96_full_partial (r : Response) (t m : Str) (h : TypeNamed t m) (hs : '/' ∈ t) :
    (r.withType t).get c!"Content-Type" = some m := by
  rcases h with ⟨-, rfl⟩ | ⟨h, -⟩
  · exact (C96_verbatim r m).1
  · exact absurd hs h

/-- No short name works: all media types have a slash. -/
theorem C96_short_never (r : Response) (t m : Str) (h : TypeNamed t m) (hs : '/' ∉ t) :
    (r.withType t).get c!"Content-Type" ≠ some m := by
  rcases h with ⟨h, -⟩ | ⟨-, h⟩
  · exact absurd h hs
  · rw [(C96_verbatim r t).1]
    simp only [ne_eq, Option.some.injEq]
    rintro rfl
    have : ∀ p ∈ mediaRows, '/' ∈ p.2 := by decide +kernel
    exact hs (this _ h)

/-- C96 is false of the code: the example of the documentation, `with_type("json")`. -/
theorem C96_counterexample : ¬ C96_statement ∧
    (Response.newEmpty.withType c!"json").get c!"Content-Type" = some c!"json" := by
  refine ⟨fun h => ?_, by decide +kernel⟩
  exact C96_short_never Response.newEmpty c!"json" c!"application/json" (.inr ⟨by decide, by decide +kernel⟩) (by decide)
    (h _ _ _ (.inr ⟨by decide, by decide +kernel⟩))

example : TypeNamed c!"application/json" c!"application/json" := .inl ⟨by decide, rfl⟩
example : TypeNamed c!"png" c!"image/png" := .inr ⟨by decide, by decide +kernel⟩

/-! ### C98: answers without a body -/

/-- The full claim of C98: the answer with a status that excludes a body has none, and no
Content-Length if the status excludes that as well. -/
def C98_statement : Prop :=
  ∀ (sv : Server Unit) (s : Sock) (req : Request) (res : Response) (bytes : Bytes) (v : ClientView),
    Reads sv.feat sv.allocOk s req →
    (req.requestLine.version ≠ .http11 ∨ ∃ hd ∈ req.headers.raw, lowered hd.name = c!"host") →
    req.requestLine.method ≠ .none →
    Router.run sv.feat.urlVariables sv.router req ((), Response.newEmpty) = .ok ((), res) →
    res.body ≠ .none → Bodiless res.statusCode.code → sv.serve () s = .ok ((), bytes) →
    ClientParses bytes v →
    v.body = [] ∧ (Lengthless res.statusCode.code → NoField v.headers c!"content-length")

/-- What happens, exactly, and whatever the status is: the client gets the body the handlers left, and
their headers. So the claim holds of an answer just if the handlers left an empty body and no
Content-Length. -/
theorem C98_iff (sv : Server W) (w w' : W) (s : Sock) (req : Request) (res : Response)
    (h : Reads sv.feat sv.allocOk s req)
    (hv : req.requestLine.version ≠ .http11 ∨ ∃ hd ∈ req.headers.raw, lowered hd.name = c!"host")
    (hm : req.requestLine.method ≠ .none)
    (hr : Router.run sv.feat.urlVariables sv.router req (w, Response.newEmpty) = .ok (w', res))
    (hb : res.body ≠ .none) (hw : Writable sv.U res) (hc : sv.feat.cookies = false ∨ res.cookies = []) :
    ∃ bytes v, sv.serve w s = .ok (w', bytes) ∧ ClientParses bytes v ∧
      IntNumeral res.statusCode.code v.code ∧
      (v.body = [] ↔ (copy res.body.getReader).1 = []) ∧
      (NoField v.headers c!"content-length" ↔ NoField res.headers c!"content-length") := by
  obtain ⟨v, v1, v2, v3, v4⟩ := client_all sv.U sv.feat.cookies sv.ord res hw hc
  refine ⟨_, v, ((C34_dispatch sv w s req h hv hm).1 w' res hr).2 hb, v1, v2, by rw [v4], ?_⟩
  unfold NoField
  constructor
  · intro h hd hm; exact h hd (v3.mem_iff.2 hm)
  · intro h hd hm; exact h hd (v3.mem_iff.1 hm)

/-- In particular, no answer made by `send` keeps the rule about the length, even if it is empty. -/
theorem C98_sent (sv : Server W) (w w' : W) (s : Sock) (req : Request)
    (h : Reads sv.feat sv.allocOk s req)
    (hv : req.requestLine.version ≠ .http11 ∨ ∃ hd ∈ req.headers.raw, lowered hd.name = c!"host")
    (hm : req.requestLine.method ≠ .none) (pre post : List ResOp) (clock : Int) (body : Bytes) (r : Response)
    (hr : Router.run sv.feat.urlVariables sv.router req (w, Response.newEmpty) = .ok (w', r))
    (hops : execOps sv.U Response.newEmpty (pre ++ .send clock body :: post) = .ok r)
    (hp : ∀ x ∈ post, x.changesLength = false) (hw : Writable sv.U r)
    (hck : sv.feat.cookies = false ∨ r.cookies = []) :
    ∃ bytes v t, sv.serve w s = .ok (w', bytes) ∧ ClientParses bytes v ∧
      IntNumeral r.statusCode.code v.code ∧ v.body = body ∧ (c!"Content-Length", t) ∈ v.headers ∧
      Numeral body.length t := by
  obtain ⟨⟨t, t1, t2⟩, t3⟩ := C38_length_partial sv.U pre post clock body _ r HMap.Uniq.nil hops hp
  obtain ⟨v, v1, v2, v3, v4⟩ := client_all sv.U sv.feat.cookies sv.ord r hw hck
  have hb : r.body ≠ .none := by
    intro hb
    obtain ⟨r1, g1, g2⟩ := execOps_append_ok hops
    obtain ⟨r2, g3, g4⟩ := execOps_cons_ok g2
    have hsb : ∀ x ∈ post, x.setsBody = false := by
      intro x hx
      have := hp x hx
      cases x <;> simp_all [ResOp.changesLength, ResOp.setsBody]
    have e := execOps_body g4 hsb
    rw [hb, (send_spec g3).2.1] at e
    simp at e
  refine ⟨_, v, t, ((C34_dispatch sv w s req h hv hm).1 w' r hr).2 hb, v1, v2, by rw [v4, t3], ?_, ?_⟩
  · rw [v3.mem_iff]; exact mem_of_get t1
  · rw [← t3]; exact t2

/-- What holds of C98: an empty body the handlers leave stays empty, and a length they do not store is
not added. (The files of `send_file` count as empty, see C39.) Missing: bodies and lengths are not left
out, see `C98_counterexample`. -/
theorem C98_empty_partial (sv : Server W) (w w' : W) (s : Sock) (req : Request) (res : Response)
    (h : Reads sv.feat sv.allocOk s req)
    (hv : req.requestLine.version ≠ .http11 ∨ ∃ hd ∈ req.headers.raw, lowered hd.name = c!"host")
    (hm : req.requestLine.method ≠ .none)
    (hr : Router.run sv.feat.urlVariables sv.router req (w, Response.newEmpty) = .ok (w', res))
    (hb : res.body ≠ .none) (hw : Writable sv.U res) (hc : sv.feat.cookies = false ∨ res.cookies = [])
    (he : (copy res.body.getReader).1 = []) (hl : NoField res.headers c!"content-length")
    (bytes : Bytes) (v : ClientView) (hs : sv.serve w s = .ok (w', bytes)) (hp : ClientParses bytes v) :
    v.body = [] ∧ NoField v.headers c!"content-length" := by
  obtain ⟨bytes', v', h1, h2, -, h3, h4⟩ := C98_iff sv w w' s req res h hv hm hr hb hw hc
  rw [hs] at h1
  simp only [Io.ok.injEq, Prod.mk.injEq, true_and] at h1
  subst h1
  rw [hp.unique h2]
  exact ⟨h3.2 he, h4.2 hl⟩

namespace AnswerExample

/-- 204, with a text -/
def noContent : List ResOp := [.status (.named 8), .send 0 (utf8 c!"x")]

/-- what it leaves -/
def left : Response :=
  { Response.newEmpty with
    statusCode := .named 8, contentLen := some 1, body := .sized 1 (.cursor (utf8 c!"x")),
    headers := [(c!"Content-Length", c!"1"), (c!"Date", c!"Thu, 01 Jan 1970 00:00:00 GMT"),
      (c!"Content-Type", c!"text/html")] }

theorem noContent_left (mr : MatchedRequest) :
    doing (fun _ => noContent) mr ((), Response.newEmpty) = .ok (((), left), .stop) := by
  have : execOps Unicode.asciiOnly Response.newEmpty noContent = .ok left := by decide +kernel
  unfold doing
  simp only [this, Res.bind_ok']

/-- an answer without surprises can be written -/
theorem writable {r : Response} (h1 : ' ' ∉ r.httpVersion ∧ '\r' ∉ r.httpVersion)
    (h2 : '\r' ∉ Unicode.asciiOnly.upperStr r.statusCode.toStr)
    (h3 : ∀ h ∈ r.headers, h.1 ≠ [] ∧ ':' ∉ h.1 ∧ '\r' ∉ h.1 ∧ '\r' ∉ h.2 ∧
      h.2.head? ≠ some ' ' ∧ h.2.head? ≠ some '\t')
    (h4 : r.cookies = []) : Writable Unicode.asciiOnly r := by
  refine ⟨h1, h2, fun k v hkv => ?_, by simp [h4]⟩
  obtain ⟨g1, g2, g3, g4, g5, g6⟩ := h3 _ hkv
  refine ⟨g1, g2, g3, g4, fun c hc hb => ?_⟩
  simp only at g5 g6
  rw [hc] at g5 g6
  rcases hb with rfl | rfl
  · exact g5 rfl
  · exact g6 rfl

theorem left_writable : Writable Unicode.asciiOnly left :=
  writable (by decide) (by decide +kernel) (by decide +kernel) rfl

def request : Sock := sends c!"GET /a HTTP/1.0\r\nA: b\r\n\r\n"
def asked : Request := ⟨⟨.get, [c!"a"], .http10⟩, ⟨[(c!"a", c!"b")], [⟨c!"A", c!"b"⟩]⟩, [], []⟩

theorem reads : Reads Features.default (fun _ => true) request asked :=
  ⟨c!"A: b", c!"GET /a HTTP/1.0", [], ⟨[], .eof⟩, ⟨[(c!"a", c!"b")], [⟨c!"A", c!"b"⟩]⟩,
    ⟨.get, [c!"a"], .http10⟩, by rfl, by decide +kernel, by decide +kernel, by decide +kernel⟩

theorem demo_run (h : Closure (Unit × Response)) (res : Response)
    (hh : ∀ mr, h mr ((), Response.newEmpty) = .ok (((), res), .stop)) :
    Router.run (demo h).feat.urlVariables (demo h).router asked ((), Response.newEmpty) = .ok ((), res) := by
  have hlog : logOfL [Call.add h] = [⟨.everywhere, h⟩] := by simp [logOfL, logOf]
  obtain ⟨r, g1, g2⟩ := C12_run_is_replay [Call.add h] (by simp [FairL, Fair]) (by rw [hlog]; simp)
  have : (demo h).router = r := by
    have e : execL Router.new [Call.add h] = .ok (demo h).router := by simp [execL, exec, demo]
    rw [g1] at e
    injection e with e
    exact e.symm
  rw [this, g2 _ _ _ (by decide), hlog]
  simp only [replay, Target.applies, if_true, hh]

end AnswerExample

open AnswerExample in
/-- C98 is false of the code: a 204 with a text is sent with the text and its length. -/
theorem C98_counterexample : ¬ C98_statement := by
  intro h
  obtain ⟨bytes, v, h1, h2, -, h3, h4⟩ := C98_iff (demo (doing fun _ => noContent)) () () request asked left reads
    (.inl (by decide)) (by decide) (demo_run _ _ noContent_left) (by simp [left]) left_writable (.inr rfl)
  have := h (demo (doing fun _ => noContent)) request asked left bytes v reads (.inl (by decide)) (by decide)
    (demo_run _ _ noContent_left) (by simp [left]) (.inr (.inl (by decide))) h1 h2
  exact absurd (h3.1 this.1) (by decide +kernel)

open AnswerExample in
/-- the hypotheses of `C98_sent` are met, with a status that excludes a body -/
example : Bodiless left.statusCode.code ∧ ∃ bytes v, (demo (doing fun _ => noContent)).serve () request = .ok ((), bytes) ∧
    ClientParses bytes v ∧ v.body = utf8 c!"x" ∧ (c!"Content-Length", c!"1") ∈ v.headers := by
  refine ⟨.inr (.inl (by decide)), ?_⟩
  obtain ⟨bytes, v, t, h1, h2, -, h3, h4, h5⟩ := C98_sent (demo (doing fun _ => noContent)) () () request asked reads
    (.inl (by decide)) (by decide) [.status (.named 8)] [] 0 (utf8 c!"x") left (demo_run _ _ noContent_left)
    (by decide +kernel) (by simp) left_writable (.inr rfl)
  exact ⟨bytes, v, h1, h2, h3, by rw [show c!"1" = t from (h5.eq).symm ▸ (by decide +kernel)]; exact h4⟩

open AnswerExample in
/-- the hypotheses of `C98_empty_partial` are met: a 204 whose body is an empty file, of no known length -/
example : ∃ bytes v, (demo fun _ st => .ok (((), { st.2 with statusCode := .named 8, body := .unsized (.cursor []) }), .stop)).serve
      () request = .ok ((), bytes) ∧ ClientParses bytes v ∧ v.body = [] ∧ NoField v.headers c!"content-length" := by
  have hw : Writable Unicode.asciiOnly { Response.newEmpty with statusCode := .named 8, body := .unsized (.cursor []) } :=
    writable (by decide) (by decide +kernel) (by decide +kernel) rfl
  have hrun := demo_run (fun _ st => .ok (((), { st.2 with statusCode := .named 8, body := .unsized (.cursor []) }), .stop))
    { Response.newEmpty with statusCode := .named 8, body := .unsized (.cursor []) } (fun _ => rfl)
  obtain ⟨bytes, v, h1, h2, -⟩ := C98_iff (demo fun _ st => .ok (((), { st.2 with statusCode := .named 8, body := .unsized (.cursor []) }), .stop))
    () () request asked _ reads (.inl (by decide)) (by decide) hrun (by simp) hw (.inr rfl)
  exact ⟨bytes, v, h1, h2, C98_empty_partial _ () () request asked _ reads (.inl (by decide)) (by decide) hrun (by simp) hw
    (.inr rfl) (by decide +kernel) (by intro h hh; revert h; decide +kernel) bytes v h1 h2⟩

/-! ### C99: the end of the connection is announced -/

/-- one of the headers is `Connection` with the option `close` (RFC 7230 section 6.1) -/
def Spec.SaysClose (hs : List (Str × Str)) : Prop :=
  ∃ h ∈ hs, lowered h.1 = c!"connection" ∧ ConnOption h.2 c!"close"

/-- The full claim of C99 (RFC 7230 section 6.6): as the server closes every connection after one
answer (C35), every answer says so. -/
def C99_statement : Prop :=
  ∀ (sv : Server Unit) (s : Sock) (bytes : Bytes) (v : ClientView), sv.serve () s = .ok ((), bytes) →
    ClientParses bytes v → SaysClose v.headers

/-- What happens, exactly: the answer says so if the handlers have stored it. -/
theorem C99_iff (sv : Server W) (w w' : W) (s : Sock) (req : Request) (res : Response)
    (h : Reads sv.feat sv.allocOk s req)
    (hv : req.requestLine.version ≠ .http11 ∨ ∃ hd ∈ req.headers.raw, lowered hd.name = c!"host")
    (hm : req.requestLine.method ≠ .none)
    (hr : Router.run sv.feat.urlVariables sv.router req (w, Response.newEmpty) = .ok (w', res))
    (hb : res.body ≠ .none) (hw : Writable sv.U res) (hc : sv.feat.cookies = false ∨ res.cookies = []) :
    ∃ bytes v, sv.serve w s = .ok (w', bytes) ∧ ClientParses bytes v ∧
      (SaysClose v.headers ↔ SaysClose res.headers) := by
  obtain ⟨v, v1, -, v3, -⟩ := client_all sv.U sv.feat.cookies sv.ord res hw hc
  refine ⟨_, v, ((C34_dispatch sv w s req h hv hm).1 w' res hr).2 hb, v1, ?_⟩
  unfold SaysClose
  constructor <;> rintro ⟨h, hm, hx⟩
  · exact ⟨h, v3.mem_iff.1 hm, hx⟩
  · exact ⟨h, v3.mem_iff.2 hm, hx⟩

/-- No error page says so. -/
theorem C99_pages (U : Unicode) (cookies : Bool) (ord : MapOrder) (clock : Int) (i : Fin 61) (bytes : Bytes)
    (h : errorPage U cookies ord clock (.named i) = .ok bytes) (v : ClientView) (hv : ClientParses bytes v) :
    ¬ SaysClose v.headers := by
  rintro ⟨hd, hm, hn, -⟩
  by_cases hc : 0 ≤ clock
  · obtain ⟨bytes', v', g1, g2, -, -, -, -, -, -, g3, -, -, g4⟩ := C55_error_pages U cookies ord clock i hc
    rw [g1] at h
    injection h with h
    subst h
    rw [g4 v hv] at hm
    have := g3 hd hm
    simp only [List.mem_cons, List.not_mem_nil, or_false] at this
    rcases this with e | e | e <;> rw [e] at hn <;> exact absurd hn (by decide +kernel)
  · rw [C55_clock_before_epoch U cookies ord clock _ (by omega)] at h
    simp at h

theorem standard_names : ∀ k ∈ [c!"Content-Length", c!"Date", c!"Content-Type", c!"Content-Disposition",
    c!"Location"], lowered k ≠ c!"connection" := by decide +kernel

/-- No operation of the library stores it except `set`: a response made without it does not say so. -/
theorem C99_not_added (U : Unicode) (ops : List ResOp) (r : Response)
    (h : execOps U Response.newEmpty ops = .ok r)
    (hp : ∀ o ∈ ops, ∀ k v, o = .set k v → lowered k ≠ c!"connection") : ¬ SaysClose r.headers := by
  suffices hinv : ∀ x ∈ r.headers, lowered x.1 ≠ c!"connection" by
    rintro ⟨x, hx, hn, -⟩; exact hinv x hx hn
  have hu : HMap.Uniq r.headers := execOps_uniq h HMap.Uniq.nil
  rintro ⟨k, v⟩ hx hn
  have hg : r.get k = some v := HMap.get_of_mem hu hx
  have hnone : HMap.Uniq r.headers ∧ r.get k = none := by
    refine execOps_inv (P := fun x => HMap.Uniq x.headers ∧ x.get k = none) ?_ h ⟨HMap.Uniq.nil, rfl⟩
    rintro o ho a b ⟨ha, hk⟩ hb
    refine ⟨exec_uniq hb ha, ?_⟩
    by_cases ht : k ∈ o.touches
    · cases o <;> simp only [ResOp.touches, List.mem_cons, List.not_mem_nil, or_false] at ht
      case set k' v' => subst ht; exact absurd hn (hp _ ho _ _ rfl)
      case removeHeader k' =>
        subst ht
        exact C37_removed U [] [] k a b ha (by rw [List.nil_append, execOps, hb]; rfl) (by simp)
      all_goals
        refine absurd hn (standard_names k ?_)
        simp only [List.mem_cons, List.not_mem_nil, or_false]
        grind
    · rw [exec_frame hb ha ht]; exact hk
  rw [hg] at hnone
  simp at hnone

/-- What holds of C99: a handler that stores the header `Connection: close` has it sent. Missing:
everything else, see `C99_pages`, `C99_not_added` and `C99_counterexample`. -/
theorem C99_set_partial (sv : Server W) (w w' : W) (s : Sock) (req : Request)
    (h : Reads sv.feat sv.allocOk s req)
    (hv : req.requestLine.version ≠ .http11 ∨ ∃ hd ∈ req.headers.raw, lowered hd.name = c!"host")
    (hm : req.requestLine.method ≠ .none) (pre post : List ResOp) (res : Response)
    (hr : Router.run sv.feat.urlVariables sv.router req (w, Response.newEmpty) = .ok (w', res))
    (hops : execOps sv.U Response.newEmpty (pre ++ .set c!"Connection" c!"close" :: post) = .ok res)
    (hp : ∀ o ∈ post, c!"Connection" ∉ o.touches)
    (hb : res.body ≠ .none) (hw : Writable sv.U res) (hc : sv.feat.cookies = false ∨ res.cookies = []) :
    ∃ bytes v, sv.serve w s = .ok (w', bytes) ∧ ClientParses bytes v ∧ SaysClose v.headers := by
  obtain ⟨bytes, v, h1, h2, h3⟩ := C99_iff sv w w' s req res h hv hm hr hb hw hc
  refine ⟨bytes, v, h1, h2, h3.2 ⟨(c!"Connection", c!"close"), ?_, by decide +kernel, ?_⟩⟩
  · exact mem_of_get (C37_read_back sv.U pre post _ _ _ _ _ HMap.Uniq.nil hops (by simp [ResOp.stores]) hp)
  · exact (connOption_single (by decide) ((trimmed_iff _ _).2 (by decide +kernel))).2 (by decide +kernel)

/-- C99 is false of the code: the 404 page of a server on which nothing is registered. -/
theorem C99_counterexample : ¬ C99_statement := by
  intro h
  have hrun : Router.run empty.feat.urlVariables empty.router AnswerExample.asked ((), Response.newEmpty) =
      .ok ((), Response.newEmpty) := by decide +kernel
  have hs : empty.serve () AnswerExample.request = Io.ofRes (empty.declareError () .notFound) := by
    rw [serve_reads AnswerExample.reads, handle_spec, if_neg (by decide), if_neg (by decide), hrun]
    rfl
  obtain ⟨bytes, v, e1, e2, -⟩ := declareError_ok empty () 25 (by simp [empty])
  have e3 : empty.serve () AnswerExample.request = .ok ((), bytes) := by
    rw [hs]; exact congrArg Io.ofRes e1
  refine C99_pages empty.U empty.feat.cookies empty.ord 0 25 bytes ?_ v e2 (h empty _ bytes v e3 e2)
  unfold Server.declareError at e1
  cases hp : errorPage empty.U empty.feat.cookies empty.ord (empty.clock ()) (.named 25) with
  | panic => rw [hp] at e1; simp at e1
  | ok b =>
    rw [hp] at e1
    simp only [Res.bind_ok', Res.ok.injEq, Prod.mk.injEq, true_and] at e1
    rw [← e1]; exact hp

/-! ### the theorems apply -/

namespace AnswerExample

def polite : List ResOp := [.withType c!"application/json", .set c!"Connection" c!"close", .send 0 (utf8 c!"{}")]

/-- what it leaves -/
def politely : Response :=
  { Response.newEmpty with
    contentLen := some 2, body := .sized 2 (.cursor (utf8 c!"{}")),
    headers := [(c!"Content-Type", c!"application/json"), (c!"Connection", c!"close"), (c!"Content-Length", c!"2"),
      (c!"Date", c!"Thu, 01 Jan 1970 00:00:00 GMT")] }

theorem polite_ops : execOps Unicode.asciiOnly Response.newEmpty polite = .ok politely := by decide +kernel

theorem polite_left (mr : MatchedRequest) :
    doing (fun _ => polite) mr ((), Response.newEmpty) = .ok (((), politely), .stop) := by
  unfold doing
  simp only [polite_ops, Res.bind_ok']

theorem politely_writable : Writable Unicode.asciiOnly politely :=
  writable (by decide) (by decide +kernel) (by decide +kernel) rfl

example : ∃ bytes v, (demo (doing fun _ => polite)).serve () request = .ok ((), bytes) ∧ ClientParses bytes v ∧
    SaysClose v.headers :=
  C99_set_partial (demo (doing fun _ => polite)) () () request asked reads (.inl (by decide)) (by decide)
    [.withType c!"application/json"] [.send 0 (utf8 c!"{}")] politely (demo_run _ _ polite_left) polite_ops
    (by simp [ResOp.touches]) (by simp [politely]) politely_writable (.inr rfl)

example : ∃ bytes v, (demo (doing fun _ => polite)).serve () request = .ok ((), bytes) ∧ ClientParses bytes v ∧
    (c!"Content-Type", c!"application/json") ∈ v.headers ∧ v.body = utf8 c!"{}" :=
  C96_seen (demo (doing fun _ => polite)) () () request asked reads (.inl (by decide)) (by decide)
    [] [.set c!"Connection" c!"close"] [] c!"application/json" 0 (utf8 c!"{}") politely (demo_run _ _ polite_left)
    polite_ops (by simp [ResOp.touches]) (by simp) politely_writable (.inr rfl)

end AnswerExample

/-- the hypotheses of `C96_full_partial` are met -/
example : (Response.newEmpty.withType c!"text/plain").get c!"Content-Type" = some c!"text/plain" :=
  C96_full_partial _ _ _ (.inl ⟨by decide, rfl⟩) (by decide)

/-- the hypotheses of `C99_not_added` are met -/
example : ¬ SaysClose AnswerExample.left.headers :=
  C99_not_added Unicode.asciiOnly AnswerExample.noContent AnswerExample.left (by decide +kernel)
    (by simp [AnswerExample.noContent])

end Octane
