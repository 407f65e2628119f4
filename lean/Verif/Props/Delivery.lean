import Verif.Spec.Delivery
import Verif.Proof.Delivery
import Verif.Props.Whole

/-!
# Which bytes become the body (C156)

C26 says that the body is the declared number of bytes, and that this is false when more than these come
with the head. Here is which bytes the body is, as a function of how the stream is cut into pieces: from
the place the head ends up to the end of the read that completes the head, or the declared bytes if these
are more.
-/

namespace Octane

open Spec

variable {W : Type}

/-- The read that completes the head ends somewhere, and less than 512 bytes behind the blank line. -/
theorem C156_read (faithful cookies : Bool) (s : Sock) (q : Asked) (n : Nat)
    (hq : q.In faithful cookies s.bytes n) :
    ∃ b, ReadUpTo s.segs (s.bytes.length - q.after.length) b ∧
      (∀ b', ReadUpTo s.segs (s.bytes.length - q.after.length) b' → b' = b) ∧
      b < s.bytes.length - q.after.length + 512 ∧ b ≤ s.bytes.length := by
  obtain ⟨text, h1, h2, h3, -⟩ := asked_end hq
  obtain ⟨b, hb⟩ := readUpTo_exists (segs := s.segs) (h := s.bytes.length - q.after.length) (by omega)
    (show _ ≤ s.bytes.length by omega)
  refine ⟨b, hb, fun b' hb' => Nat.le_antisymm (hb'.2.2 b hb.1 hb.2.1) (hb.2.2 b' hb'.1 hb'.2.1),
    readUpTo_lt (by omega) hb, readEnd_le hb.1⟩

/-- C156: `q` is the request at the beginning of the stream, `n` its declared length and `b` the end of the
read that completes its head. The request that is handled has no body if `n` is zero; otherwise the body is
what follows the head up to `b`, and at least `n` bytes of it. -/
theorem C156_body (sv : Server W) (w : W) (s : Sock) (q : Asked) (n : Nat)
    (hq : q.In sv.feat.faithful sv.feat.cookies s.bytes n) (halloc : ∀ k ≤ n, sv.allocOk k = true)
    (hmax : n ≤ i64Max) (b : Nat) (hb : ReadUpTo s.segs (s.bytes.length - q.after.length) b) :
    ∃ req, sv.serve w s = Io.ofRes (sv.handle w req) ∧
      req.requestLine = ⟨methodOf q.method, resolve q.pieces, versionOf q.version⟩ ∧
      (∀ k, req.headers.get k = joined q.headers k) ∧
      req.body = if n = 0 then [] else q.after.take (max n (b - (s.bytes.length - q.after.length))) := by
  obtain ⟨text, h1, h2, h3, h4, h5⟩ := asked_end hq
  obtain ⟨req, r1, r2, r3, r4, -⟩ := reads_asked sv.feat sv.allocOk s q n hq halloc hmax
  rw [h2] at hb ⊢
  have hd : DeclaredLength req.headers.get n := by
    rw [show req.headers.get = joined q.headers from funext r4]
    exact h4
  exact ⟨req, serve_reads r1 w, r2, r4, parse_body (reads_parse r1 h1 hd hb).2.1⟩

/-- So the body is the declared bytes exactly when none are declared or the read that completes the head
does not go beyond them. (C26 with the hypothesis it needs.) -/
theorem C156_iff (feat : Features) (allocOk : Nat → Bool) (s : Sock) (req : Request)
    (h : Reads feat allocOk s req) (q : Asked) (n : Nat) (hq : q.In feat.faithful feat.cookies s.bytes n)
    (hn : DeclaredLength req.headers.get n) (b : Nat)
    (hb : ReadUpTo s.segs (s.bytes.length - q.after.length) b) :
    req.body = q.after.take n ↔ n = 0 ∨ b ≤ s.bytes.length - q.after.length + n := by
  obtain ⟨text, h1, h2, h3, -, h5⟩ := asked_end hq
  have hl : b ≤ s.bytes.length := readEnd_le hb.1
  rw [h2] at hb ⊢
  rw [parse_body (reads_parse h h1 hn hb).2.1]
  have h2' : s.bytes.length = q.after.length + ((utf8 text).length + 4) := by omega
  split
  · rename_i h0
    subst h0
    simp
  · rename_i h0
    constructor
    · intro e
      right
      have := congrArg List.length e
      simp only [List.length_take] at this
      omega
    · rintro (e | e)
      · exact absurd e h0
      · rw [Nat.max_eq_left (by omega)]

/-- Whatever the pieces: with a positive declared length the body is the declared bytes and at most as many
more as make 511; a body of 511 bytes or more is exactly the declared bytes. -/
theorem C156_at_most (sv : Server W) (w : W) (s : Sock) (q : Asked) (n : Nat)
    (hq : q.In sv.feat.faithful sv.feat.cookies s.bytes n) (halloc : ∀ k ≤ n, sv.allocOk k = true)
    (hmax : n ≤ i64Max) (h0 : 0 < n) :
    ∃ req k, sv.serve w s = Io.ofRes (sv.handle w req) ∧
      req.requestLine = ⟨methodOf q.method, resolve q.pieces, versionOf q.version⟩ ∧
      (∀ x, req.headers.get x = joined q.headers x) ∧
      n ≤ k ∧ k ≤ max n 511 ∧ req.body = q.after.take k := by
  obtain ⟨b, hb, -, hlt, -⟩ := C156_read _ _ s q n hq
  obtain ⟨req, r1, r2, r3, r4⟩ := C156_body sv w s q n hq halloc hmax b hb
  rw [if_neg (by omega)] at r4
  exact ⟨req, _, r1, r2, r3, Nat.le_max_left _ _, by omega, r4⟩

/-- C26 without a hypothesis on the pieces, for requests that declare at least 511 bytes. -/
theorem C156_large (sv : Server W) (w : W) (s : Sock) (q : Asked) (n : Nat)
    (hq : q.In sv.feat.faithful sv.feat.cookies s.bytes n) (halloc : ∀ k ≤ n, sv.allocOk k = true)
    (hmax : n ≤ i64Max) (h0 : 511 ≤ n) :
    ∃ req, sv.serve w s = Io.ofRes (sv.handle w req) ∧
      req.requestLine = ⟨methodOf q.method, resolve q.pieces, versionOf q.version⟩ ∧
      (∀ x, req.headers.get x = joined q.headers x) ∧ req.body = q.after.take n := by
  obtain ⟨req, k, r1, r2, r3, r4, r5, r6⟩ := C156_at_most sv w s q n hq halloc hmax (by omega)
  have : k = n := by omega
  exact ⟨req, r1, r2, r3, this ▸ r6⟩

/-- And each of these bodies there is: for the same bytes and every `k` from the declared length up to 511
(or what has been sent) there are pieces with which the body is the first `k` bytes after the head. -/
theorem C156_any (sv : Server W) (w : W) (bytes : Bytes) (q : Asked) (n : Nat)
    (hq : q.In sv.feat.faithful sv.feat.cookies bytes n) (halloc : ∀ k ≤ n, sv.allocOk k = true)
    (hmax : n ≤ i64Max) (h0 : 0 < n) (k : Nat) (hk : n ≤ k) (h511 : k ≤ 511) (hsent : k ≤ q.after.length)
    (fin : SockEnd) :
    ∃ s : Sock, s.bytes = bytes ∧ s.fin = fin ∧
      ∃ req, sv.serve w s = Io.ofRes (sv.handle w req) ∧
        req.requestLine = ⟨methodOf q.method, resolve q.pieces, versionOf q.version⟩ ∧
        (∀ x, req.headers.get x = joined q.headers x) ∧ req.body = q.after.take k := by
  obtain ⟨text, h1, h2, h3, -, -⟩ := asked_end hq
  have hbytes : (⟨[bytes.take ((utf8 text).length + 3), (bytes.drop ((utf8 text).length + 3)).take (k + 1),
      (bytes.drop ((utf8 text).length + 3)).drop (k + 1)], fin⟩ : Sock).bytes = bytes := by
    simp only [Sock.bytes, List.flatten_cons, List.flatten_nil, List.append_nil, List.take_append_drop]
  refine ⟨_, hbytes, rfl, ?_⟩
  have l1 : (bytes.take ((utf8 text).length + 3)).length = (utf8 text).length + 3 := by
    rw [List.length_take]; omega
  have l2 : ((bytes.drop ((utf8 text).length + 3)).take (k + 1)).length = k + 1 := by
    rw [List.length_take, List.length_drop]; omega
  have hup : ReadUpTo [bytes.take ((utf8 text).length + 3), (bytes.drop ((utf8 text).length + 3)).take (k + 1),
      (bytes.drop ((utf8 text).length + 3)).drop (k + 1)] ((utf8 text).length + 4) ((utf8 text).length + 4 + k) := by
    refine ⟨?_, by omega, fun b' hb' hle => ?_⟩
    · rw [readEnd_cons, l1]
      right
      refine ⟨k + 1, ?_, by omega⟩
      rw [readEnd_cons, l2]
      exact .inl ⟨by omega, by omega, .inl rfl⟩
    · rw [readEnd_cons, l1] at hb'
      rcases hb' with ⟨-, g, -⟩ | ⟨c, hc, e⟩
      · omega
      · rw [readEnd_cons, l2] at hc
        rcases hc with ⟨g1, g2, g3⟩ | ⟨d, hd, e'⟩
        · omega
        · omega
  obtain ⟨req, r1, r2, r3, r4⟩ := C156_body sv w ⟨_, fin⟩ q n (by rw [hbytes]; exact hq) halloc hmax
    ((utf8 text).length + 4 + k) (by rw [hbytes, h2]; exact hup)
  refine ⟨req, r1, r2, r3, ?_⟩
  rw [r4, if_neg (by omega), hbytes, h2]
  congr 1
  omega

/-- Nothing else of the pieces can be seen: two connections with the same bytes are answered the same if
the bodies are of the same length. -/
theorem C156_same (sv : Server W) (s s' : Sock) (hsame : s.bytes = s'.bytes) (q : Asked) (n : Nat)
    (hq : q.In sv.feat.faithful sv.feat.cookies s.bytes n) (halloc : ∀ k ≤ n, sv.allocOk k = true)
    (hmax : n ≤ i64Max) (b b' : Nat) (hb : ReadUpTo s.segs (s.bytes.length - q.after.length) b)
    (hb' : ReadUpTo s'.segs (s.bytes.length - q.after.length) b')
    (heq : n = 0 ∨ max n (b - (s.bytes.length - q.after.length)) = max n (b' - (s.bytes.length - q.after.length)))
    (w : W) : sv.serve w s = sv.serve w s' := by
  obtain ⟨text, h1, h2, h3, h4, h5⟩ := asked_end hq
  obtain ⟨req, r1, r2, r3, r4, -⟩ := reads_asked sv.feat sv.allocOk s q n hq halloc hmax
  obtain ⟨req', t1, t2, t3, t4, -⟩ := reads_asked sv.feat sv.allocOk s' q n (hsame ▸ hq) halloc hmax
  have hd : DeclaredLength req.headers.get n := by
    rw [show req.headers.get = joined q.headers from funext r4]; exact h4
  have hd' : DeclaredLength req'.headers.get n := by
    rw [show req'.headers.get = joined q.headers from funext t4]; exact h4
  rw [h2] at hb hb' heq
  have p := (reads_parse r1 h1 hd hb).2.1
  have p' := (reads_parse t1 (hsame ▸ h1) hd' hb').2.1
  have hH : req.headers = req'.headers := by
    obtain ⟨hdrs, line, rem, reader, H, rl, a1, a2, a3, a4⟩ := r1
    obtain ⟨hdrs', line', rem', reader', H', rl', c1, c2, c3, c4⟩ := t1
    obtain ⟨rem1, reader1, k1, -⟩ := readHead_ends h1 hb
    obtain ⟨rem2, reader2, k2, -⟩ := readHead_ends (hsame ▸ h1) hb'
    rw [a1] at k1
    rw [c1] at k2
    have : hdrs = hdrs' := by
      unfold headOutcome at k1 k2
      cases hu : fromUtf8 (utf8 text) with
      | none => simp [hu] at k1
      | some t =>
        rcases parseWithoutBody_spec t with ⟨hp, -⟩ | ⟨l, hd, -, hp⟩
        · simp [hu, hp] at k1
        · simp only [hu, hp, Io.ok.injEq, HeadOut.head.injEq] at k1 k2
          rw [k1.1, k2.1]
    subst this
    rw [a2] at c2
    simp only [Res.ok.injEq, Option.some.injEq] at c2
    rw [(fromRaw_fields a4).2, (fromRaw_fields c4).2, c2]
  have hbody : (if n = 0 then [] else q.after.take (max n (b - ((utf8 text).length + 4)))) =
      (if n = 0 then [] else q.after.take (max n (b' - ((utf8 text).length + 4)))) := by
    rcases heq with e | e
    · simp [e]
    · rw [e]
  rw [← hH, t2, ← r2, ← hbody, p] at p'
  simp only [Io.ok.injEq, Option.some.injEq] at p'
  rw [serve_reads r1 w, serve_reads t1 w, p']

/-- The full claim of C26: the body of a request is the declared number of bytes after the head. -/
def C26_statement : Prop :=
  ∀ (feat : Features) (allocOk : Nat → Bool) (s : Sock) (req : Request) (q : Asked) (n : Nat),
    Reads feat allocOk s req → q.In feat.faithful feat.cookies s.bytes n → req.body = q.after.take n

/-! ### C35: what of the stream the answer depends on -/

/-- Two connections with the same head are answered the same, whatever else is sent and in whatever pieces,
if no body is declared or the bytes that C156 says to be the body are the same. -/
theorem C35_exact (sv : Server W) (s s' : Sock) (head rest rest' : Bytes) (n b b' : Nat)
    (h : FirstSplit s.bytes blankLine head rest) (h' : FirstSplit s'.bytes blankLine head rest')
    (hd : HeadDeclares sv.feat.faithful head n) (hl : n ≤ rest.length) (hl' : n ≤ rest'.length)
    (hmax : n ≤ i64Max) (ha : ∀ k ≤ n, sv.allocOk k = true)
    (hb : ReadUpTo s.segs (head.length + 4) b) (hb' : ReadUpTo s'.segs (head.length + 4) b')
    (heq : n = 0 ∨ rest.take (max n (b - (head.length + 4))) = rest'.take (max n (b' - (head.length + 4)))) (w : W) :
    sv.serve w s = sv.serve w s' := by
  obtain ⟨rem, reader, r1, r2, r3⟩ := readHead_ends h hb
  obtain ⟨rem', reader', r1', r2', r3'⟩ := readHead_ends h' hb'
  rcases Classical.em (∃ text line hdrs, head = utf8 text ∧ FirstSplit text crlf line hdrs) with hg | hg
  · obtain ⟨text, line, hdrs, e1, e2⟩ := hg
    have out : ∀ x y, headOutcome head x y = .head hdrs line x y := by
      intro x y
      unfold headOutcome
      rw [e1, fromUtf8_utf8]
      rcases parseWithoutBody_spec text with ⟨-, hp⟩ | ⟨l, hd', hp, hp'⟩
      · exact absurd e2.occurs hp
      · obtain ⟨rfl, rfl⟩ := hp.unique e2
        simp only [hp']
    rw [out] at r1 r1'
    unfold Server.serve
    rw [r1, r1']
    simp only [Io.bind_ok]
    cases hh : Headers.parse sv.feat.faithful hdrs with
    | panic => rfl
    | ok o =>
      cases o with
      | none => rfl
      | some H =>
        simp only [Res.bind_ok', Res.unwrap_some, Io.ofRes_ok, Io.bind_ok]
        cases hrl : (RequestLine.parse sv.feat.faithful line).bind Res.unwrap with
        | panic => rfl
        | ok rl =>
          simp only [Io.ofRes_ok, Io.bind_ok]
          obtain ⟨b1, b2, b3⟩ := Headers.parse_some hh
          have hn : DeclaredLength H.get n := by
            have := hd text line hdrs _ e1 e2 b1
            rwa [← funext b3] at this
          have key : ∀ (x : Bytes) (y : Sock), n ≤ (x ++ y.bytes).length → n ≠ 0 →
              Request.fromRaw sv.feat sv.allocOk H rl x y =
                .ofRes (Request.parse sv.feat rl H ((x ++ y.bytes).take (max n x.length))) := by
            intro x y hxy h0
            by_cases hx : x.length ≤ n
            · rw [C26_body_read sv.feat sv.allocOk H rl x y n hn hmax ha hx hxy, Nat.max_eq_left hx]
            · rw [C26_body_overrun sv.feat sv.allocOk H rl x y n hn (by omega) (by omega),
                Nat.max_eq_right (by omega), List.take_left' rfl]
          have : Request.fromRaw sv.feat sv.allocOk H rl rem reader =
              Request.fromRaw sv.feat sv.allocOk H rl rem' reader' := by
            by_cases h0 : n = 0
            · subst h0
              have hn' : contentLength H = 0 := DeclaredLength.unique (contentLength_declared H) hn
              unfold Request.fromRaw
              simp only [hn']
              rfl
            · rw [key _ _ (by rw [r2]; exact hl) h0, key _ _ (by rw [r2']; exact hl') h0, r2, r2', r3, r3',
                heq.resolve_left h0]
          rw [this]
  · have hb : ∀ text, head = utf8 text → ¬ Occurs text crlf := by
      intro text ht ho
      obtain ⟨a, b, hab⟩ := FirstSplit.exists ho
      exact hg ⟨text, a, b, ht, hab⟩
    have e1 := ((C25_head_from_bytes s).2 _ _ h).2 hb
    have e2 := ((C25_head_from_bytes s').2 _ _ h').2 hb
    unfold Server.serve
    rw [e1, e2]

/-- The second half of C35 holds if no body is declared, or if on both connections the read that completes the
head ends before the declared bytes do. Missing: that the bytes which follow are not taken into the body. -/
theorem C35_first_request_partial (sv : Server W) (w : W) (s s' : Sock) (head rest rest' : Bytes)
    (n : Nat) (h : FirstSplit s.bytes blankLine head rest)
    (h' : FirstSplit s'.bytes blankLine head rest') (hd : HeadDeclares sv.feat.faithful head n)
    (hl : n ≤ rest.length) (hl' : n ≤ rest'.length) (ht : rest.take n = rest'.take n)
    (hmax : n ≤ i64Max) (ha : ∀ k ≤ n, sv.allocOk k = true)
    (hsmall : n = 0 ∨ ((∃ b, ReadUpTo s.segs (head.length + 4) b ∧ b ≤ head.length + 4 + n) ∧
      ∃ b, ReadUpTo s'.segs (head.length + 4) b ∧ b ≤ head.length + 4 + n)) :
    sv.serve w s = sv.serve w s' := by
  have l : ∀ (c : Sock) r, FirstSplit c.bytes blankLine head r → ∃ b, ReadUpTo c.segs (head.length + 4) b := by
    intro c r hc
    refine readUpTo_exists (by omega) (show _ ≤ c.bytes.length from ?_)
    have := congrArg List.length hc.1
    simp [blankLine] at this
    omega
  obtain ⟨b, hb⟩ := l s rest h
  obtain ⟨b', hb'⟩ := l s' rest' h'
  refine C35_exact sv s s' head rest rest' n b b' h h' hd hl hl' hmax ha hb hb' ?_ w
  rcases hsmall with h0 | ⟨⟨c, hc, c1⟩, c', hc', c1'⟩
  · exact .inl h0
  · rw [readUpTo_unique hb hc, readUpTo_unique hb' hc']
    right
    rw [Nat.max_eq_left (by omega), Nat.max_eq_left (by omega), ht]

/-- a handler that answers unless the body is `x` -/
def sparing (x : Bytes) : Closure (Unit × Response) := fun mr st =>
  if mr.request.body = x then .panic else .ok ((st.1, Response.newFromSlice []), .stop)

/-- a server with that handler -/
def sparingServer (feat : Features) (x : Bytes) : Server Unit :=
  ⟨feat, fun _ => true, Unicode.asciiOnly, MapOrder.id, fun _ => 0, Router.new.add (sparing x)⟩

theorem sparing_serve (feat : Features) (x : Bytes) (s : Sock) (q : Asked) (n : Nat)
    (hq : q.In feat.faithful feat.cookies s.bytes n) (hmax : n ≤ i64Max) (hm : q.method ∈ methodTokens)
    (hhost : ¬ (q.version = c!"1.1" ∧ ∀ h ∈ q.headers, lowered h.1 ≠ c!"host")) (body : Bytes)
    (hbody : q.BodyIs s.segs n body) : (sparingServer feat x).serve () s = .panic ↔ body = x := by
  obtain ⟨req, r1, r2, r3, r4, -⟩ := reads_asked feat (fun _ => true) s q n hq (fun _ _ => rfl) hmax
  have e : req.body = body := (reads_body r1 hq r4).unique hbody
  have hserve := serve_reads (sv := sparingServer feat x) r1 ()
  rw [handle_spec, r2, r4] at hserve
  simp only [version_http11, joined_none_iff] at hserve
  have hk := method_known _ hm
  have hne : methodOf q.method ≠ .none := by
    have : ∀ p ∈ methodTable, p.2 ≠ .none := by decide
    exact this _ hk
  have hna : methodOf q.method ≠ .all := by
    have : ∀ p ∈ methodTable, p.2 ≠ .all := by decide
    exact this _ hk
  have hlog : logOfL [Call.add (sparing x)] = [⟨.everywhere, sparing x⟩] := by simp [logOfL, logOf]
  obtain ⟨r, g1, g2⟩ := C12_run_is_replay [Call.add (sparing x)] (by simp [FairL, Fair]) (by rw [hlog]; simp)
  have hr : (sparingServer feat x).router = r := by
    have : execL Router.new [Call.add (sparing x)] = .ok (sparingServer feat x).router := by
      simp [execL, exec, sparingServer]
    rw [this] at g1
    simpa using g1
  have g := g2 (sparingServer feat x).feat.urlVariables req ((), Response.newEmpty) (by rw [r2]; exact hna)
  rw [if_neg hhost, if_neg hne, hr, g, hlog] at hserve
  simp only [replay, Target.applies, if_true, sparing, e] at hserve
  rw [hserve]
  by_cases hx : body = x
  · simp [hx]
  · simp [hx, Response.newFromSlice, Response.hasBody, ResBody.isSome]

/-- And only then: for a request that the server understands, if the bodies differ there is a server, with one
handler, that answers the one connection and not the other. -/
theorem C35_iff (feat : Features) (s s' : Sock) (head rest' : Bytes) (q : Asked) (n b b' : Nat)
    (hq : q.In feat.faithful feat.cookies s.bytes n) (hmax : n ≤ i64Max) (hm : q.method ∈ methodTokens)
    (hhost : ¬ (q.version = c!"1.1" ∧ ∀ h ∈ q.headers, lowered h.1 ≠ c!"host"))
    (h : FirstSplit s.bytes blankLine head q.after) (h' : FirstSplit s'.bytes blankLine head rest')
    (hl' : n ≤ rest'.length)
    (hb : ReadUpTo s.segs (head.length + 4) b) (hb' : ReadUpTo s'.segs (head.length + 4) b') :
    (∀ sv : Server Unit, sv.feat = feat → (∀ k, sv.allocOk k = true) → sv.serve () s = sv.serve () s') ↔
      (n = 0 ∨ q.after.take (max n (b - (head.length + 4))) = rest'.take (max n (b' - (head.length + 4)))) := by
  obtain ⟨text, line, hdrs, h1, h2, h3, h4, h5, h6, h7⟩ := hq
  obtain ⟨rfl, -⟩ := h1.unique h
  have hq : q.In feat.faithful feat.cookies s.bytes n := ⟨text, line, hdrs, h1, h2, h3, h4, h5, h6, h7⟩
  have hq' : Asked.In feat.faithful feat.cookies s'.bytes { q with after := rest' } n :=
    ⟨text, line, hdrs, h', h2, h3, h4, h5, hl', h7⟩
  constructor
  · intro hall
    by_cases h0 : n = 0
    · exact .inl h0
    right
    have hat : ∀ {c : Sock} {y : Bytes}, FirstSplit c.bytes blankLine (utf8 text) y →
        c.segs.flatten.length - y.length = (utf8 text).length + 4 := by
      intro c y hy
      have := congrArg List.length hy.1
      simp [blankLine, Sock.bytes] at this ⊢
      omega
    have hs := hall (sparingServer feat (q.after.take (max n (b - ((utf8 text).length + 4))))) rfl (fun _ => rfl)
    have k1 := sparing_serve feat (q.after.take (max n (b - ((utf8 text).length + 4)))) s q n hq hmax hm hhost
      (q.after.take (max n (b - ((utf8 text).length + 4)))) ⟨b, by
        rw [hat h]
        exact ⟨hb, by rw [if_neg h0]⟩⟩
    have k2 := sparing_serve feat (q.after.take (max n (b - ((utf8 text).length + 4)))) s' { q with after := rest' } n hq'
      hmax hm hhost (rest'.take (max n (b' - ((utf8 text).length + 4)))) ⟨b', by
        rw [hat h']
        exact ⟨hb', by rw [if_neg h0]⟩⟩
    rw [hs] at k1
    exact (k2.1 (k1.2 rfl)).symm
  · rintro heq sv rfl ha
    refine C35_exact sv s s' (utf8 text) q.after rest' n b b' h h' ?_ ?_ hl' hmax (fun k _ => ha k) hb hb' heq ()
    · intro text' line' hdrs' hs g1 g2 g3
      rw [← utf8_injective g1] at g2
      obtain ⟨rfl, rfl⟩ := h2.unique g2
      obtain ⟨H, e1, e2, -⟩ := Headers.parse_block h4
      obtain ⟨H', e1', e2', -⟩ := Headers.parse_block g3
      rw [e1] at e1'
      simp only [Res.ok.injEq, Option.some.injEq] at e1'
      rw [← e2, e1', e2'] at h5
      exact h5
    · exact h6

/-! ### the theorems apply -/

namespace DeliveryExample
open ServerExample

/-- the request with the two declared bytes `hi`, and one byte more -/
def bytes : Bytes := (q c!"GET" c!"1.1" c!"hOsT").bytes ++ [33]

def asked : Asked := ⟨c!"GET", [[], c!"a", c!"..", c!"b"], c!"1.1", [(c!"hOsT", c!"x"), (c!"Content-Length", c!"2")], [104, 105, 33]⟩

theorem asked_in : asked.In true true bytes 2 :=
  C83_written true true _ (good c!"GET" c!"1.1" c!"hOsT" (by decide) (by decide) (by decide)) [33]

/-- in one piece -/
def whole : Sock := ⟨[bytes], .silent⟩
/-- the last byte by itself -/
def cut : Sock := ⟨[bytes.take (bytes.length - 1), [33]], .silent⟩

theorem ends : bytes.length = 55 ∧ bytes.length - asked.after.length = 52 := by decide +kernel

theorem whole_up : ReadUpTo whole.segs (whole.bytes.length - asked.after.length) 55 := by
  have e : whole.bytes = bytes := List.append_nil _
  rw [e, ends.2]
  refine ⟨readEnd_cons.2 (.inl ⟨by decide, by rw [ends.1]; decide, .inl ends.1.symm⟩), by decide, fun b' h hle => ?_⟩
  rcases readEnd_cons.1 h with ⟨h1, h2, h3⟩ | ⟨_, h, -⟩
  · rw [ends.1] at h2 h3; omega
  · exact absurd h readEnd_nil

theorem cut_bytes : cut.bytes = bytes := by decide +kernel

theorem cut_up : ReadUpTo cut.segs (whole.bytes.length - asked.after.length) 54 := by
  have e : whole.bytes = bytes := List.append_nil _
  have l : (bytes.take (bytes.length - 1)).length = 54 := by decide +kernel
  rw [e, ends.2]
  refine ⟨readEnd_cons.2 (.inl ⟨by decide, by rw [l]; decide, .inl l.symm⟩), by decide, fun b' h hle => ?_⟩
  rcases readEnd_cons.1 h with ⟨h1, h2, h3⟩ | ⟨c, h, e⟩
  · rw [l] at h2 h3; omega
  · rw [l] at e; omega

/-- in one piece: the body is `hi!` -/
example : ∃ req, empty.serve () whole = Io.ofRes (empty.handle () req) ∧ req.body = [104, 105, 33] := by
  obtain ⟨req, h, -, -, hb⟩ := C156_body empty () whole asked 2 (by
    rw [show whole.bytes = bytes from List.append_nil _]; exact asked_in) (fun _ _ => rfl) (by decide) 55 whole_up
  refine ⟨req, h, ?_⟩
  rw [hb, show whole.bytes = bytes from List.append_nil _, ends.2]
  decide

/-- with the last byte by itself: `hi` -/
example : ∃ req, empty.serve () cut = Io.ofRes (empty.handle () req) ∧ req.body = [104, 105] := by
  obtain ⟨req, h, -, -, hb⟩ := C156_body empty () cut asked 2 (by rw [cut_bytes]; exact asked_in) (fun _ _ => rfl)
    (by decide) 54 (by have := cut_up; rwa [show whole.bytes = bytes from List.append_nil _, ← cut_bytes] at this)
  refine ⟨req, h, ?_⟩
  rw [hb, cut_bytes, ends.2]
  decide

/-- so the first is not the declared bytes -/
theorem not_declared : ∃ req, Reads .default (fun _ => true) whole req ∧ req.body ≠ [104, 105] := by
  have hq : asked.In true true whole.bytes 2 := by
    rw [show whole.bytes = bytes from List.append_nil _]; exact asked_in
  obtain ⟨req, h, -, -, hg, -⟩ := reads_asked .default (fun _ => true) whole asked 2 hq (fun _ _ => rfl) (by decide)
  refine ⟨req, h, fun hb => ?_⟩
  have := (C156_iff .default (fun _ => true) whole req h asked 2 hq (by
    rw [show req.headers.get = joined asked.headers from funext hg]
    obtain ⟨_, _, _, _, _, _, _, hd, _⟩ := asked_in
    exact hd) 55 whole_up).1 hb
  rw [show whole.bytes = bytes from List.append_nil _, ends.2] at this
  omega

example := C156_any empty () bytes asked 2 asked_in (fun _ _ => rfl) (by decide) (by decide) 3 (by decide) (by decide)
  (by decide) .eof

/-- piece by piece up to the declared bytes, or in two pieces: the same -/
example : empty.serve () cut = empty.serve () ⟨[bytes.take 20, bytes.drop 20 |>.take 33, bytes.drop 53], .eof⟩ := by
  have l1 : (bytes.take 20).length = 20 := by decide +kernel
  have l2 : (bytes.drop 20 |>.take 33).length = 33 := by decide +kernel
  refine C156_same empty cut _ (by decide +kernel) asked 2 (by rw [cut_bytes]; exact asked_in) (fun _ _ => rfl)
    (by decide) 54 53 (by have := cut_up; rwa [show whole.bytes = bytes from List.append_nil _, ← cut_bytes] at this) ?_ ?_ ()
  · rw [cut_bytes, ends.2]
    refine ⟨readEnd_cons.2 (.inr ⟨33, readEnd_cons.2 (.inl ⟨by decide, by rw [l2]; decide, .inl l2.symm⟩), by rw [l1]⟩), by decide,
      fun b' h hle => ?_⟩
    rcases readEnd_cons.1 h with ⟨h1, h2, h3⟩ | ⟨c, h, e⟩
    · rw [l1] at h2; omega
    · rw [l1] at e
      rcases readEnd_cons.1 h with ⟨h1, h2, h3⟩ | ⟨d, h, e'⟩
      · rw [l2] at h2 h3; omega
      · rw [l2] at e'; omega
  · rw [cut_bytes, ends.2]
    decide

/-- a server can tell the two ways of sending apart, -/
example : ¬ ∀ sv : Server Unit, sv.feat = .default → (∀ k, sv.allocOk k = true) → sv.serve () whole = sv.serve () cut := by
  have e : whole.bytes = bytes := List.append_nil _
  obtain ⟨text, h1, h2, -⟩ := asked_end asked_in
  rw [C35_iff .default whole cut (utf8 text) asked.after asked 2 55 54 (by rw [e]; exact asked_in) (by decide) (by decide +kernel)
    (by decide +kernel) (by rw [e]; exact h1) (by rw [cut_bytes]; exact h1) (by decide)
    (by rw [← h2, ← e]; exact whole_up) (by rw [← h2, ← e]; exact cut_up), ← h2, ends.2]
  decide

/-- but not whether something else follows in a later piece -/
example (sv : Server Unit) (hf : sv.feat = .default) (ha : ∀ k, sv.allocOk k = true) (more : Bytes) :
    sv.serve () cut = sv.serve () ⟨[bytes.take (bytes.length - 1), more], .eof⟩ := by
  have e : whole.bytes = bytes := List.append_nil _
  obtain ⟨text, h1, h2, -⟩ := asked_end asked_in
  have h52 : (utf8 text).length + 4 = 52 := by rw [← h2, ends.2]
  have l : (bytes.take (bytes.length - 1)).length = 54 := by decide +kernel
  have up : ∀ z fin, ReadUpTo (⟨[bytes.take (bytes.length - 1), z], fin⟩ : Sock).segs ((utf8 text).length + 4) 54 := by
    intro z fin
    have := readUpTo_first (seg := bytes.take (bytes.length - 1)) (segs := [z]) (h := (utf8 text).length + 4) (by omega)
      (by omega) (by omega)
    rwa [l] at this
  have hs : FirstSplit (bytes.take (bytes.length - 1)) blankLine (utf8 text) [104, 105] := by
    obtain ⟨a, b, hab⟩ := FirstSplit.exists (show Occurs (bytes.take (bytes.length - 1)) blankLine from by
      exact ⟨48, bytes.take 48, [104, 105], by decide +kernel, by decide +kernel⟩)
    have h3 := hab.append [33]
    rw [show bytes.take (bytes.length - 1) ++ [33] = bytes from by decide +kernel] at h3
    obtain ⟨e1, e2⟩ := h3.unique h1
    rw [← e1]
    rwa [show b = [104, 105] from List.append_cancel_right (e2.trans (show asked.after = [104, 105] ++ [33] from rfl))] at hab
  exact (C35_iff .default cut ⟨[bytes.take (bytes.length - 1), more], .eof⟩ (utf8 text) ([104, 105] ++ more) asked 2 54 54
    (by rw [cut_bytes]; exact asked_in) (by decide) (by decide +kernel) (by decide +kernel) (by rw [cut_bytes]; exact h1)
    (by simpa [Sock.bytes] using hs.append more) (by simp) (up _ _) (up _ _)).2 (.inr (by rw [h52]; rfl)) sv hf ha

def body : Bytes := List.replicate 511 104

/-- a request that declares 511 bytes -/
def big : WireReq := ⟨c!"POST", [[], c!"b"], c!"1.1", [(c!"Host", c!"x"), (c!"Content-Length", c!"511")], body⟩

theorem big_length : big.body.length = 511 := List.length_replicate

theorem big_good : big.Good := by
  refine ⟨⟨⟨by decide, by decide⟩, ⟨by simp [big], by simp [big]⟩, ?_, ⟨by decide, by decide⟩, ⟨by simp [big], ?_⟩, ?_⟩, ?_⟩
  · show ¬ Climbs [[], c!"b"]
    rw [← (C02_dotdot_rule [[], c!"b"] (by decide) (by decide)).1]; decide +kernel
  · intro h hmem
    simp only [big, List.mem_cons, List.not_mem_nil, or_false] at hmem
    rcases hmem with rfl | rfl
    · exact ⟨by decide, by decide, by decide, by decide +kernel⟩
    · exact ⟨by decide, by decide, by decide, by decide +kernel⟩
  · refine .inl ⟨c!"511", by decide +kernel, ?_⟩
    rw [big_length]
    exact (parseU64_iff _ 511).1 (by decide +kernel)
  · intro v hv
    have : joined big.headers c!"cookie" = none := by decide +kernel
    rw [this] at hv; simp at hv

example (extra : Bytes) (segs : List Bytes) (hs : segs.flatten = big.bytes ++ extra) :
    ∃ req, empty.serve () ⟨segs, .silent⟩ = Io.ofRes (empty.handle () req) ∧ req.body = List.replicate 511 104 := by
  obtain ⟨req, h, -, -, hb⟩ := C156_large empty () ⟨segs, .silent⟩ ⟨_, _, _, _, big.body ++ extra⟩ big.body.length (by
    rw [show (⟨segs, .silent⟩ : Sock).bytes = _ from hs]
    exact C83_written true true big big_good extra) (fun _ _ => rfl) (by rw [big_length]; decide) (by rw [big_length]; decide)
  refine ⟨req, h, ?_⟩
  rw [hb, List.take_left' rfl]
  rfl

end DeliveryExample

open DeliveryExample in
/-- It is false: of three bytes sent with the head all are the body, though two are declared. -/
theorem C26_false : ¬ C26_statement := by
  intro h
  obtain ⟨req, h1, h2⟩ := not_declared
  exact h2 (h _ _ _ req asked 2 h1 (by rw [show whole.bytes = bytes from List.append_nil _]; exact asked_in))

end Octane
