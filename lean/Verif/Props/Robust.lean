import Verif.Props.Target
import Verif.Props.Frame
import Verif.Props.Whole
import Verif.Props.Field
/-
C110 – C112: spellings of a target, an empty line before the request, a path registered for another
method.
-/
namespace Octane
open Spec
variable {W : Type u}

/-! ### C110: spellings of a target -/

/-- two requests that differ only in the spelling of the target; what is read of them -/
theorem reads_spelling (feat : Features) (allocOk : Nat → Bool) (q : WireReq) (pieces' : List Str)
    (hq : q.Framed) (hq' : { q with pieces := pieces' }.Framed)
    (s s' : Sock) (hb : s.bytes = q.bytes) (hb' : s'.bytes = { q with pieces := pieces' }.bytes)
    (halloc : ∀ k ≤ q.body.length, allocOk k = true) (hmax : q.body.length ≤ i64Max) :
    ∃ hdrs line line' rem rem' reader reader' H rl,
      readHead s = .ok (.head hdrs line rem reader) ∧ readHead s' = .ok (.head hdrs line' rem' reader') ∧
      Headers.parse feat.faithful hdrs = .ok (some H) ∧
      RequestLine.parse feat.faithful line = .ok (some rl) ∧
      RequestLine.parse feat.faithful line' = .ok (some { rl with path := resolve pieces' }) ∧
      rl.path = resolve q.pieces ∧
      Request.fromRaw feat allocOk H rl rem reader = .ofRes (Request.parse feat rl H q.body) ∧
      Request.fromRaw feat allocOk H { rl with path := resolve pieces' } rem' reader' =
        .ofRes (Request.parse feat { rl with path := resolve pieces' } H q.body) := by
  obtain ⟨rem, reader, H, rl, e1, e2, e3, e4, e5, e6, e7, e8, e9, -⟩ :=
    wire_texts feat allocOk q hq s [] (by simpa using hb) (.inl rfl) halloc hmax
  obtain ⟨rem', reader', H', rl', e1', e2', e3', e4', e5', e6', e7', e8', e9', -⟩ :=
    wire_texts feat allocOk _ hq' s' [] (by simpa using hb') (.inl rfl) halloc hmax
  simp only at e2' e4' e5' e6' e7' e8' e9'
  rw [e2] at e2'
  simp only [Res.ok.injEq, Option.some.injEq] at e2'
  subst e2'
  have hmeth : rl.method = rl'.method := by
    by_cases hk : ∃ x, (q.method, x) ∈ methodTable
    · obtain ⟨x, hx⟩ := hk
      rw [e5 x hx, e5' x hx]
    · rw [e6 fun x hx => hk ⟨x, hx⟩, e6' fun x hx => hk ⟨x, hx⟩]
  have hver : rl.version = rl'.version := by
    by_cases hk : ∃ x, (q.version, x) ∈ versionTable
    · obtain ⟨x, hx⟩ := hk
      rw [e8 x hx, e8' x hx]
    · rw [e9 fun x hx => hk ⟨x, hx⟩, e9' fun x hx => hk ⟨x, hx⟩]
  have hrl : rl' = { rl with path := resolve pieces' } := by
    cases rl'; cases rl; simp_all
  subst hrl
  exact ⟨_, _, _, rem, rem', reader, reader', H, rl, e1, e1', e2, e3, e3', e7, e4, e4'⟩

/-- C110: two requests whose targets are spelled differently but name the same path — `//` for `/`, `/./`,
`/x/../`, a slash at the end — are one and the same request to the server: whatever is registered, whatever
the handlers do and however the bytes are cut, the answer and the effects are the same. -/
theorem C110_same (sv : Server W) (q : WireReq) (pieces' : List Str)
    (hq : q.Framed) (hq' : { q with pieces := pieces' }.Framed) (hr : resolve q.pieces = resolve pieces')
    (s s' : Sock) (hb : s.bytes = q.bytes) (hb' : s'.bytes = { q with pieces := pieces' }.bytes)
    (halloc : ∀ k ≤ q.body.length, sv.allocOk k = true) (hmax : q.body.length ≤ i64Max) (w : W) :
    sv.serve w s = sv.serve w s' := by
  obtain ⟨hdrs, line, line', rem, rem', reader, reader', H, rl, h1, h1', h2, h3, h3', h4, h5, h5'⟩ :=
    reads_spelling sv.feat sv.allocOk q pieces' hq hq' s s' hb hb' halloc hmax
  have hrl : { rl with path := resolve pieces' } = rl := by
    rw [← hr, ← h4]
  rw [hrl] at h3' h5'
  unfold Server.serve
  simp only [h1, h1', Io.bind_ok, h2, Res.bind_ok', Res.unwrap_some, Io.ofRes_ok, h3, h3', h5, h5']

/-- And only those: two targets give the handlers the same request exactly when they name the same path. -/
theorem C110_iff (feat : Features) (allocOk : Nat → Bool) (q : WireReq) (pieces' : List Str)
    (hq : q.Good) (hq' : { q with pieces := pieces' }.Good)
    (s s' : Sock) (hb : s.bytes = q.bytes) (hb' : s'.bytes = { q with pieces := pieces' }.bytes)
    (halloc : ∀ k ≤ q.body.length, allocOk k = true) (hmax : q.body.length ≤ i64Max) :
    ∃ req req', Reads feat allocOk s req ∧ Reads feat allocOk s' req' ∧
      (req = req' ↔ resolve q.pieces = resolve pieces') := by
  obtain ⟨hdrs, line, line', rem, rem', reader, reader', H, rl, h1, h1', h2, h3, h3', h4, h5, h5'⟩ :=
    reads_spelling feat allocOk q pieces' hq.toFramed hq'.toFramed s s' hb hb' halloc hmax
  obtain ⟨req, g, -, -, g4, -⟩ := reads_wire feat allocOk q hq s [] (by simpa using hb) (.inl rfl) halloc hmax
  obtain ⟨req', g', -, -, g4', -⟩ := reads_wire feat allocOk _ hq' s' [] (by simpa using hb') (.inl rfl) halloc hmax
  refine ⟨req, req', g, g', fun h => ?_, fun h => ?_⟩
  · rw [← g4, h, g4']
  · have hrl : { rl with path := resolve pieces' } = rl := by rw [← h, ← h4]
    rw [hrl] at h3' h5'
    have key : Reads feat allocOk s' req := by
      obtain ⟨a, b, c, d, e, f, k1, k2, k3, k4⟩ := g
      rw [h1] at k1
      simp only [Io.ok.injEq, HeadOut.head.injEq] at k1
      obtain ⟨rfl, rfl, rfl, rfl⟩ := k1
      rw [h2] at k2
      simp only [Res.ok.injEq, Option.some.injEq] at k2
      subst k2
      rw [h3] at k3
      simp only [Res.ok.injEq, Option.some.injEq] at k3
      subst k3
      exact ⟨_, _, _, _, _, _, h1', h2, h3', by rw [h5', ← h5, k4]⟩
    exact key.unique g'

theorem survivorsRev_congr (up : Nat) (a b c : List Str)
    (h : ∀ up, survivorsRev up b = survivorsRev up c) : survivorsRev up (a ++ b) = survivorsRev up (a ++ c) := by
  induction a generalizing up with
  | nil => exact h up
  | cons x a ih =>
    simp only [List.cons_append, survivorsRev, ih]

/-- Which spellings name the same path: empty pieces (that is, doubled slashes) and `.` may be left out
anywhere, and a name followed by `..` too. -/
theorem C110_spellings (ps qs : List Str) (x : Str) (hx : isName x = true) :
    resolve (ps ++ [] :: qs) = resolve (ps ++ qs) ∧
    resolve (ps ++ c!"." :: qs) = resolve (ps ++ qs) ∧
    resolve (ps ++ x :: c!".." :: qs) = resolve (ps ++ qs) := by
  have hu : isUp x = false := by
    cases h : isUp x with
    | false => rfl
    | true =>
      rw [isUp, beq_iff_eq] at h
      subst h
      exact absurd hx (by decide)
  have e1 : isUp [] = false ∧ isName [] = false ∧ isUp c!"." = false ∧ isName c!"." = false ∧
      isUp c!".." = true := by decide
  obtain ⟨a1, a2, a3, a4, a5⟩ := e1
  simp only [resolve, List.reverse_append, List.reverse_cons, List.append_assoc]
  refine ⟨?_, ?_, ?_⟩ <;> congr 1 <;> apply survivorsRev_congr <;> intro up
  · simp [survivorsRev, a1, a2]
  · simp only [List.cons_append, List.nil_append, survivorsRev, a3, a4]; simp
  · simp only [List.cons_append, List.nil_append, survivorsRev, a5, hu, hx]; simp

/-! ### C111: an empty line before the request -/

/-- The full claim of C111 (RFC 7230, 3.5): an empty line before the request line is ignored. -/
def C111_statement : Prop :=
  ∀ (W : Type) (sv : Server W) (q : WireReq) (s s' : Sock), q.Good → (∀ k, sv.allocOk k = true) →
    q.body.length ≤ i64Max → s.bytes = q.bytes → s'.bytes = crlfB ++ q.bytes →
    ∀ w, sv.serve w s = sv.serve w s'

theorem firstSplit_crlf {head tail : Bytes} {b : UInt8} (hb : b ≠ 13)
    (h : FirstSplit (b :: head ++ blankLine ++ tail) blankLine (b :: head) tail) :
    FirstSplit (crlfB ++ (b :: head ++ blankLine ++ tail)) blankLine (crlfB ++ b :: head) tail := by
  refine ⟨by simp, fun j hj ho => ?_⟩
  match j, ho with
  | 0, ho =>
    have := occursAt_getElem ho 2 (by decide)
    simp [crlfB, blankLine] at this
    exact hb this
  | 1, ho =>
    exact absurd (occursAt_getElem ho 0 (by decide)) (by simp [crlfB, blankLine])
  | j + 2, ho =>
    have := occursAt_drop ho (by simp [crlfB])
    have e : j + 2 - crlfB.length = j := by simp [crlfB]
    rw [e] at this
    exact h.2 j (by simp [crlfB] at hj ⊢; omega) this

/-- What happens instead, whatever follows: if the head after the empty line is text that does not begin with
another CR, the task panics and nothing is answered; no handler runs. -/
theorem C111_panics (sv : Server W) (s : Sock) (c : Char) (text : Str) (tail : Bytes) (hc : c ≠ '\r')
    (hh : FirstSplit (utf8 (c :: text) ++ blankLine ++ tail) blankLine (utf8 (c :: text)) tail)
    (hb : s.bytes = crlfB ++ (utf8 (c :: text) ++ blankLine ++ tail)) (w : W) : sv.serve w s = .panic := by
  have h13 : (13 : UInt8) ∉ utf8 [c] := cr_not_mem_utf8 (by simpa using fun h => hc h.symm)
  have hcons : ∃ b rest, utf8 (c :: text) = b :: rest ∧ b ≠ 13 := by
    rw [utf8_cons]
    rw [utf8_cons, utf8_nil, List.append_nil] at h13
    cases he : String.utf8EncodeChar c with
    | nil =>
      have := String.length_utf8EncodeChar c
      rw [he] at this
      have h := c.utf8Size_pos
      rw [← this] at h
      exact absurd h (by simp)
    | cons b rest =>
      rw [he] at h13
      exact ⟨b, rest ++ utf8 text, rfl, fun h => h13 (by simp [h])⟩
  obtain ⟨b, rest, e, hb13⟩ := hcons
  rw [e] at hh hb
  have hsplit := firstSplit_crlf hb13 hh
  rw [← hb] at hsplit
  have htext : crlfB ++ b :: rest = utf8 (crlf ++ c :: text) := by rw [utf8_append, utf8_crlf, e]
  obtain ⟨rem, reader, e1, -⟩ := ((C25_head_from_bytes s).2 _ _ hsplit).1 [] (c :: text)
    ⟨_, htext, ⟨rfl, fun j hj => by simp at hj⟩⟩
  have hline : RequestLine.parse sv.feat.faithful [] = .ok none := rfl
  unfold Server.serve
  rw [e1, Io.bind_ok]
  simp only
  cases hp : (Headers.parse sv.feat.faithful (c :: text)).bind Res.unwrap with
  | panic => rfl
  | ok H => rw [hline]; rfl

/-- Two empty lines are taken for a complete head: they are answered by the 400 page, whatever follows. -/
theorem C111_two_lines (sv : Server W) (s : Sock) (tail : Bytes) (hb : s.bytes = crlfB ++ crlfB ++ tail) (w : W)
    (hc : 0 ≤ sv.clock w) : Page sv w s w c!"400" c!"BAD REQUEST" := by
  have hsplit : FirstSplit s.bytes blankLine [] tail := ⟨by rw [hb]; rfl, fun j hj => by simp at hj⟩
  have h := ((C25_head_from_bytes s).2 _ _ hsplit).2 (by
    rintro text ht ⟨i, a, b, e, -⟩
    rw [e] at ht
    have := congrArg List.length ht
    simp [utf8_append, utf8_crlf, crlfB] at this)
  refine page_of (w' := w) 21 hc ?_ (by decide +kernel) (by decide +kernel)
  unfold Server.serve
  rw [h]
  rfl

namespace RobustExample
open TargetExample

theorem slash_framed : (q [c!"a"]).Good := good _ (by decide) (by decide)

/-- `GET /a` after an empty line -/
def late : Sock := ⟨[crlfB, (q [c!"a"]).bytes], .eof⟩

theorem late_panics (sv : Server Unit) : sv.serve () late = .panic := by
  have e : (q [c!"a"]).line = 'G' :: c!"ET /a HTTP/1.0" := by decide +kernel
  have hs := firstSplit_lines (q [c!"a"]).line ((q [c!"a"]).headers.map wireHeader) (by
    intro x hx
    rcases List.mem_cons.1 hx with rfl | hx
    · exact ⟨slash_framed.line_cr, by simp [WireReq.line]⟩
    · obtain ⟨h, hh, rfl⟩ := List.mem_map.1 hx
      exact slash_framed.header_cr hh) []
  rw [e] at hs
  exact C111_panics sv late 'G' _ [] (by decide) hs (by
    simp only [late, Sock.bytes, WireReq.bytes, e]
    simp [q]) ()

end RobustExample

open RobustExample TargetExample in
/-- C111 is false of the code: an empty line before `GET /a`. -/
theorem C111_counterexample : ¬ C111_statement := by
  intro h
  obtain ⟨router, hr, -⟩ := C12_run_is_replay calls (by simp [calls, FairL, Fair]) (by rw [log]; decide)
  obtain ⟨b, v, h1, -⟩ := plain { empty with router } ⟨router, rfl⟩ hr
  have := h Unit { empty with router } (q [c!"a"]) (sock [c!"a"]) late slash_framed (fun _ => rfl) (by decide)
    (sock_bytes _) (by simp [late, Sock.bytes]) ()
  rw [h1, late_panics] at this
  simp at this

/-! ### C112: a path registered for another method -/

/-- The full claim of C112 (RFC 7231, 6.5.5): if nothing applies to the request but something would with
another method, the answer is 405 and says in `Allow` which methods there are. -/
def C112_statement : Prop :=
  ∀ (W : Type) (sv : Server W) (calls : List (Call (W × Response))), FairL calls →
    (logOfL calls).length < 2 ^ 64 → execL Router.new calls = .ok sv.router → (∀ k, sv.allocOk k = true) →
    ∀ (q : WireReq) (s : Sock) (m m' : RequestMethod), q.Good → s.bytes = q.bytes → q.body.length ≤ i64Max →
      (q.method, m) ∈ methodTable → (q.version = c!"1.1" → ∃ h ∈ q.headers, lowered h.1 = c!"host") →
      (∀ e ∈ logOfL calls, e.target.applies sv.feat.urlVariables m (resolve q.pieces) = false) →
      (∃ e ∈ logOfL calls, e.target.applies sv.feat.urlVariables m' (resolve q.pieces) = true) →
      ∀ w, 0 ≤ sv.clock w → ∃ bytes v, sv.serve w s = .ok (w, bytes) ∧ ClientParses bytes v ∧
        v.code = c!"405" ∧ ∃ t, (c!"Allow", t) ∈ v.headers

/-- What happens instead: the answer is that of a server on which nothing is registered at all. So nobody can
tell a path that is registered for another method from one that is not registered. -/
theorem C112_unregistered (sv : Server W) (calls : List (Call (W × Response))) (hf : FairL calls)
    (hn : (logOfL calls).length < 2 ^ 64) (hsetup : execL Router.new calls = .ok sv.router)
    (q : WireReq) (hq : q.Good) (s : Sock) (hb : s.bytes = q.bytes)
    (m : RequestMethod) (hm : (q.method, m) ∈ methodTable)
    (hnone : ∀ e ∈ logOfL calls, e.target.applies sv.feat.urlVariables m (resolve q.pieces) = false) (w : W) :
    sv.serve w s = { sv with router := Router.new }.serve w s := by
  refine (C108_same sv calls [] hf (by simp [FairL]) hn (by simp [logOfL]) Router.new hsetup rfl w s ?_).symm
  intro q' n m' hin hm'
  have hw := C83_written sv.feat.faithful sv.feat.cookies q hq []
  rw [List.append_nil, ← hb] at hw
  obtain ⟨rfl, -⟩ := C83_one_request hin hw
  have : m' = m := by
    have key : ∀ p ∈ methodTable, ∀ p' ∈ methodTable, p.1 = p'.1 → p.2 = p'.2 := by decide +kernel
    exact key _ hm' _ hm rfl
  subst this
  simp only [applying, logOfL, List.filter_nil]
  exact List.filter_eq_nil_iff.2 fun e he => by simp [hnone e he]

/-- What holds of C112: no handler runs, and the client learns that its request is refused: the code is 404.
Missing: the code 405, and `Allow`, which the page never has. -/
theorem C112_refused_partial (sv : Server W) (calls : List (Call (W × Response))) (hf : FairL calls)
    (hn : (logOfL calls).length < 2 ^ 64) (hsetup : execL Router.new calls = .ok sv.router)
    (q : WireReq) (hq : q.Good) (s : Sock) (hb : s.bytes = q.bytes)
    (halloc : ∀ k ≤ q.body.length, sv.allocOk k = true) (hmax : q.body.length ≤ i64Max)
    (m : RequestMethod) (hm : (q.method, m) ∈ methodTable)
    (hhost : q.version = c!"1.1" → ∃ h ∈ q.headers, lowered h.1 = c!"host")
    (hnone : ∀ e ∈ logOfL calls, e.target.applies sv.feat.urlVariables m (resolve q.pieces) = false)
    (w : W) (hc : 0 ≤ sv.clock w) :
    ∃ bytes v, sv.serve w s = .ok (w, bytes) ∧ ClientParses bytes v ∧ v.code = c!"404" ∧
      ∀ t, (c!"Allow", t) ∉ v.headers := by
  rw [C112_unregistered sv calls hf hn hsetup q hq s hb m hm hnone w]
  obtain ⟨req, h1, h2, -, -, h5, h6, h7, -⟩ :=
    reads_wire sv.feat sv.allocOk q hq s [] (by simpa using hb) (.inl rfl) halloc hmax
  have hrun : Router.run sv.feat.urlVariables Router.new req (w, Response.newEmpty) =
      .ok (w, Response.newEmpty) := by
    obtain ⟨r, g1, g2⟩ := C12_run_is_replay ([] : List (Call (W × Response))) (by simp [FairL]) (by simp [logOfL])
    cases g1
    rw [g2 _ _ _ h1.facts.2]
    rfl
  have hmn : req.requestLine.method ≠ .none := by
    rw [h2 m hm]
    have : ∀ p ∈ methodTable, p.2 ≠ .none := by decide
    exact this _ hm
  have hv : ¬ (req.requestLine.version = .http11 ∧ req.headers.get c!"host" = none) := by
    rintro ⟨a1, a2⟩
    rcases host_ok hhost h5 h6 h7 with h | ⟨hd, b1, b2⟩
    · exact h a1
    · rw [h1.facts.1.2, joined_none] at a2
      exact a2 _ (List.mem_map_of_mem b1) b2
  obtain ⟨bytes, v, e1, e2, -, e4, -, -, -, -, e9, -⟩ :=
    C55_error_pages sv.U sv.feat.cookies sv.ord (sv.clock w) 25 hc
  refine ⟨bytes, v, ?_, e2, ?_, fun t ht => ?_⟩
  · rw [serve_reads (sv := { sv with router := Router.new }) h1, handle_spec, if_neg hv, if_neg hmn]
    simp only [hrun, Res.bind_ok']
    rw [if_pos (show Response.newEmpty.hasBody = false from rfl), declareError_router]
    unfold Server.declareError
    show Io.ofRes ((errorPage sv.U sv.feat.cookies sv.ord (sv.clock w) (.named 25)).bind _) = _
    rw [e1]; rfl
  · exact e4.eq.trans (by decide +kernel)
  · have h : c!"Allow" ∈ [c!"Content-Length", c!"Date", c!"Content-Type"] := e9 _ ht
    revert h; decide

namespace RobustExample
open TargetExample

/-- `POST /a` -/
def post : WireReq := { q [c!"a"] with method := c!"POST" }

theorem post_good : post.Good := with_method slash_framed c!"POST" (by decide)

theorem post_none : ∀ e ∈ logOfL calls, e.target.applies true .post (resolve post.pieces) = false := by
  rw [log]; decide +kernel

end RobustExample

open RobustExample TargetExample in
/-- C112 is false of the code: `/a` is registered for GET; a POST is answered by 404. -/
theorem C112_counterexample : ¬ C112_statement := by
  intro h
  obtain ⟨router, hr, -⟩ := C12_run_is_replay calls (by simp [calls, FairL, Fair]) (by rw [log]; decide)
  have hs : (⟨[post.bytes], .eof⟩ : Sock).bytes = post.bytes := by simp [Sock.bytes]
  obtain ⟨b, v, h1, h2, h3, -⟩ := h Unit { empty with router } calls (by simp [calls, FairL, Fair])
    (by rw [log]; decide) hr (fun _ => rfl) post _ .post .get post_good hs (by decide) (by decide +kernel)
    (by intro h; cases h) post_none
    ⟨⟨.on .get [c!"a"], hi⟩, by rw [log]; exact List.mem_singleton.2 rfl,
      show Target.applies true (.on .get [c!"a"]) .get (resolve post.pieces) = true by decide +kernel⟩ () (by simp [empty])
  obtain ⟨b', v', h1', h2', h3', -⟩ := C112_refused_partial { empty with router } calls (by simp [calls, FairL, Fair])
    (by rw [log]; decide) hr post post_good _ hs (fun _ _ => rfl) (by decide) .post (by decide +kernel)
    (by intro h; cases h) post_none () (by simp [empty])
  rw [h1] at h1'
  simp only [Io.ok.injEq, Prod.mk.injEq, true_and] at h1'
  subst h1'
  rw [h2.unique h2', h3'] at h3
  exact absurd h3 (by decide)

namespace RobustExample
open TargetExample

/-- the hypotheses of `C112_unregistered` are met -/
example (router : Router (Unit × Response)) (hr : execL Router.new calls = .ok router) :
    ({ empty with router } : Server Unit).serve () ⟨[post.bytes], .eof⟩ = empty.serve () ⟨[post.bytes], .eof⟩ :=
  C112_unregistered { empty with router } calls (by simp [calls, FairL, Fair]) (by rw [log]; decide) hr post
    post_good _ (by simp [Sock.bytes]) .post (by decide +kernel) post_none ()

/-- `GET /x/.././/a` -/
def spelled : WireReq := { q [c!"a"] with pieces := [[], c!"x", c!"..", c!".", [], c!"a"] }

theorem spelled_good : spelled.Good := by
  refine ⟨⟨slash_framed.method, ⟨by decide, by decide⟩, ?_, slash_framed.version, slash_framed.headers,
    slash_framed.length⟩, slash_framed.cookies⟩
  rintro ⟨k, hk⟩
  have : ∀ k ≤ 6, ¬ ((spelled.pieces.take k).countP isName < (spelled.pieces.take k).countP isUp) := by
    decide +kernel
  by_cases h : k ≤ 6
  · exact this k h hk
  · rw [List.take_of_length_le (by simp [spelled]; omega)] at hk
    exact absurd hk (by decide +kernel)

theorem spelled_same : resolve (q [c!"a"]).pieces = resolve spelled.pieces := by decide +kernel

/-- the hypotheses of `C110_same` are met -/
example (sv : Server Unit) (halloc : ∀ k, sv.allocOk k = true) :
    sv.serve () (sock [c!"a"]) = sv.serve () ⟨[spelled.bytes], .eof⟩ :=
  C110_same sv (q [c!"a"]) spelled.pieces slash_framed.toFramed spelled_good.toFramed spelled_same _ _ (sock_bytes _)
    (by simp [Sock.bytes, spelled]) (fun _ _ => halloc _) (by decide) ()

/-- and those of `C110_iff` -/
example (feat : Features) : ∃ req req', Reads feat (fun _ => true) (sock [c!"a"]) req ∧
    Reads feat (fun _ => true) ⟨[spelled.bytes], .eof⟩ req' ∧
      (req = req' ↔ resolve (q [c!"a"]).pieces = resolve spelled.pieces) :=
  C110_iff feat (fun _ => true) (q [c!"a"]) spelled.pieces slash_framed spelled_good _ _ (sock_bytes _)
    (by simp [Sock.bytes, spelled]) (fun _ _ => rfl) (by decide)

/-- the hypotheses of `C111_two_lines` are met -/
example : Page empty () ⟨[[13, 10, 13], 10 :: (q [c!"a"]).bytes], .eof⟩ () c!"400" c!"BAD REQUEST" :=
  C111_two_lines empty _ (q [c!"a"]).bytes (by simp [Sock.bytes, crlfB]) () (by simp [empty])

end RobustExample

end Octane
