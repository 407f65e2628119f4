import Verif.Proof.Wire
/-
C30 (malformed requests), C32 (Host), C33 (unknown methods), C34 (404 exactly without body),
C35 (one response), C41 (redirect without body), C51, C52 (request cookies), C54 (end to end),
C56 (HEAD).

`Reads sv.feat sv.allocOk s req` says that `req` is the request read from connection `s`;
`reads_wire` says which request that is for well-formed bytes.
-/
namespace Octane
open Spec
variable {W : Type u}

/-! ### C32 -/

/-- An HTTP/1.1 request none of whose headers is named Host (in any case) is answered with one and the
same 400 page whatever is registered with the router, and the handlers' state is untouched. -/
theorem C32_refused (sv : Server W) (w : W) (s : Sock) (req : Request)
    (h : Reads sv.feat sv.allocOk s req) (hv : req.requestLine.version = .http11)
    (hh : ∀ hd ∈ req.headers.raw, lowered hd.name ≠ c!"host") (hc : 0 ≤ sv.clock w) :
    ∃ bytes v, (∀ router, { sv with router }.serve w s = .ok (w, bytes)) ∧
      ClientParses bytes v ∧ v.code = c!"400" ∧ v.reason = c!"BAD REQUEST" := by
  obtain ⟨bytes, v, e1, e2, e3, e4, -⟩ := declareError_ok sv w 21 hc
  refine ⟨bytes, v, fun router => ?_, e2, e3.trans (by decide +kernel), e4.trans (by decide +kernel)⟩
  have h' : Reads { sv with router }.feat { sv with router }.allocOk s req := h
  have hn : req.headers.get c!"host" = none := by
    rw [h.facts.1.2, joined_none]
    intro x hx
    obtain ⟨hd, hm, rfl⟩ := List.mem_map.1 hx
    exact hh hd hm
  rw [serve_reads h', handle_spec, if_pos ⟨hv, hn⟩, declareError_router]
  exact congrArg Io.ofRes e1

/-- The same from the bytes. -/
theorem C32_refused_bytes (sv : Server W) (w : W) (q : WireReq) (hq : q.Good) (s : Sock)
    (hb : s.bytes = q.bytes) (halloc : ∀ k ≤ q.body.length, sv.allocOk k = true)
    (hmax : q.body.length ≤ i64Max) (hv : q.version = c!"1.1")
    (hh : ∀ h ∈ q.headers, lowered h.1 ≠ c!"host") (hc : 0 ≤ sv.clock w) :
    ∃ bytes v, (∀ router, { sv with router }.serve w s = .ok (w, bytes)) ∧
      ClientParses bytes v ∧ v.code = c!"400" ∧ v.reason = c!"BAD REQUEST" := by
  obtain ⟨req, h1, -, -, -, h5, -, h7, -⟩ :=
    reads_wire sv.feat sv.allocOk q hq s [] (by simpa using hb) (.inl rfl) halloc hmax
  refine C32_refused sv w s req h1 (h5 _ (by rw [hv]; decide)) ?_ hc
  intro hd hm
  have : hpair hd ∈ q.headers := h7 ▸ List.mem_map_of_mem hm
  exact hh _ this

/-- Every other request passes: its handlers are run (a known method), or it is answered 501. -/
theorem C32_passes (sv : Server W) (w : W) (s : Sock) (req : Request)
    (h : Reads sv.feat sv.allocOk s req)
    (hv : req.requestLine.version ≠ .http11 ∨ ∃ hd ∈ req.headers.raw, lowered hd.name = c!"host")
    (hc : ∀ w, 0 ≤ sv.clock w) :
    (req.requestLine.method ≠ .none → ∀ w' res,
      Router.run sv.feat.urlVariables sv.router req (w, Response.newEmpty) = .ok (w', res) →
      ∃ bytes, sv.serve w s = .ok (w', bytes)) ∧
    (req.requestLine.method = .none → ∃ bytes v, sv.serve w s = .ok (w, bytes) ∧
      ClientParses bytes v ∧ v.code = c!"501") := by
  have hno : ¬ (req.requestLine.version = .http11 ∧ req.headers.get c!"host" = none) := by
    rintro ⟨h1, h2⟩
    rcases hv with hv | ⟨hd, hm, he⟩
    · exact hv h1
    · rw [h.facts.1.2, joined_none] at h2
      exact h2 _ (List.mem_map_of_mem hm) he
  rw [serve_reads h, handle_spec, if_neg hno]
  constructor
  · intro hm w' res hr
    rw [if_neg hm, hr, Res.bind_ok']
    split
    · obtain ⟨bytes, v, e1, -⟩ := declareError_ok sv w' 25 (hc w')
      exact ⟨bytes, congrArg Io.ofRes e1⟩
    · exact ⟨_, rfl⟩
  · intro hm
    rw [if_pos hm]
    obtain ⟨bytes, v, e1, e2, e3, -⟩ := declareError_ok sv w 51 (hc w)
    exact ⟨bytes, v, congrArg Io.ofRes e1, e2, e3.trans (by decide +kernel)⟩

/-! ### C33 -/

/-- A request that passes the Host check and whose method is unknown is answered with one and the same
501 page whatever is registered with the router, and the handlers' state is untouched. -/
theorem C33_unknown_method (sv : Server W) (w : W) (s : Sock) (req : Request)
    (h : Reads sv.feat sv.allocOk s req)
    (hv : req.requestLine.version ≠ .http11 ∨ ∃ hd ∈ req.headers.raw, lowered hd.name = c!"host")
    (hm : req.requestLine.method = .none) (hc : 0 ≤ sv.clock w) :
    ∃ bytes v, (∀ router, { sv with router }.serve w s = .ok (w, bytes)) ∧
      ClientParses bytes v ∧ v.code = c!"501" ∧ v.reason = c!"NOT IMPLEMENTED" := by
  have hno : ¬ (req.requestLine.version = .http11 ∧ req.headers.get c!"host" = none) := by
    rintro ⟨h1, h2⟩
    rcases hv with hv | ⟨hd, hm, he⟩
    · exact hv h1
    · rw [h.facts.1.2, joined_none] at h2
      exact h2 _ (List.mem_map_of_mem hm) he
  obtain ⟨bytes, v, e1, e2, e3, e4, -⟩ := declareError_ok sv w 51 hc
  refine ⟨bytes, v, fun router => ?_, e2, e3.trans (by decide +kernel), e4.trans (by decide +kernel)⟩
  have h' : Reads { sv with router }.feat { sv with router }.allocOk s req := h
  rw [serve_reads h', handle_spec, if_neg hno, if_pos hm, declareError_router]
  exact congrArg Io.ofRes e1

/-- The same from the bytes: any method token but the nine. -/
theorem C33_unknown_method_bytes (sv : Server W) (w : W) (q : WireReq) (hq : q.Good) (s : Sock)
    (hb : s.bytes = q.bytes) (halloc : ∀ k ≤ q.body.length, sv.allocOk k = true)
    (hmax : q.body.length ≤ i64Max) (hm : q.method ∉ methodTokens)
    (hv : q.version = c!"1.1" → ∃ h ∈ q.headers, lowered h.1 = c!"host") (hc : 0 ≤ sv.clock w) :
    ∃ bytes v, (∀ router, { sv with router }.serve w s = .ok (w, bytes)) ∧
      ClientParses bytes v ∧ v.code = c!"501" ∧ v.reason = c!"NOT IMPLEMENTED" := by
  obtain ⟨req, h1, -, h3, -, h5, h6, h7, -⟩ :=
    reads_wire sv.feat sv.allocOk q hq s [] (by simpa using hb) (.inl rfl) halloc hmax
  refine C33_unknown_method sv w s req h1 ?_ (h3 ?_) hc
  · by_cases h11 : q.version = c!"1.1"
    · right
      obtain ⟨h, hm, he⟩ := hv h11
      rw [← h7] at hm
      obtain ⟨hd, hd1, rfl⟩ := List.mem_map.1 hm
      exact ⟨hd, hd1, he⟩
    · left
      by_cases hk : ∃ x, (q.version, x) ∈ versionTable
      · obtain ⟨x, hx⟩ := hk
        rw [h5 x hx]
        rintro rfl
        have : ∀ p ∈ versionTable, p.2 = .http11 → p.1 = c!"1.1" := by decide
        exact h11 (this _ hx rfl)
      · rw [h6 (fun x hx => hk ⟨x, hx⟩)]; simp
  · intro x hx
    have : ∀ p ∈ methodTable, p.1 ∈ methodTokens := by decide +kernel
    exact hm (this _ hx)

/-! ### C34 -/

/-- A request that passes the checks, and the handlers ran and left response `res`: without a body the
client gets the 404 page (and nothing of `res`), otherwise exactly the serialisation of `res`; the
handlers' state is theirs in both cases. If they panic nothing is written. -/
theorem C34_dispatch (sv : Server W) (w : W) (s : Sock) (req : Request)
    (h : Reads sv.feat sv.allocOk s req)
    (hv : req.requestLine.version ≠ .http11 ∨ ∃ hd ∈ req.headers.raw, lowered hd.name = c!"host")
    (hm : req.requestLine.method ≠ .none) :
    (∀ w' res, Router.run sv.feat.urlVariables sv.router req (w, Response.newEmpty) = .ok (w', res) →
      (res.body = .none → 0 ≤ sv.clock w' → ∃ bytes v, sv.serve w s = .ok (w', bytes) ∧
        ClientParses bytes v ∧ v.code = c!"404" ∧ v.reason = c!"NOT FOUND" ∧
        v.body = utf8 notFoundPage) ∧
      (res.body ≠ .none →
        sv.serve w s = .ok (w', sendData (res.getData sv.U sv.feat.cookies sv.ord)))) ∧
    (Router.run sv.feat.urlVariables sv.router req (w, Response.newEmpty) = .panic →
      sv.serve w s = .panic) := by
  have hno : ¬ (req.requestLine.version = .http11 ∧ req.headers.get c!"host" = none) := by
    rintro ⟨h1, h2⟩
    rcases hv with hv | ⟨hd, hm, he⟩
    · exact hv h1
    · rw [h.facts.1.2, joined_none] at h2
      exact h2 _ (List.mem_map_of_mem hm) he
  rw [serve_reads h, handle_spec, if_neg hno, if_neg hm]
  refine ⟨fun w' res hr => ⟨fun hb hc => ?_, fun hb => ?_⟩, fun hp => by rw [hp]; rfl⟩
  · rw [hr, Res.bind_ok']
    simp only [Response.hasBody, hb, ResBody.isSome, if_true]
    obtain ⟨bytes, v, e1, e2, e3, e4, e5, -⟩ := declareError_ok sv w' 25 hc
    exact ⟨bytes, v, congrArg Io.ofRes e1, e2, e3.trans (by decide +kernel), e4.trans (by decide +kernel),
      e5⟩
  · rw [hr, Res.bind_ok']
    have : res.hasBody = true := by
      unfold Response.hasBody
      cases hh : res.body with
      | none => exact absurd hh hb
      | sized n r => rfl
      | «unsized» r => rfl
    simp [this]

/-- What the client makes of it, for responses that can be written (see C36 and C39 for cookies and
files, with which the claim is false: `C36_counterexample`, `C39_counterexample`). -/
theorem C34_client_partial (sv : Server W) (w : W) (s : Sock) (req : Request)
    (h : Reads sv.feat sv.allocOk s req)
    (hv : req.requestLine.version ≠ .http11 ∨ ∃ hd ∈ req.headers.raw, lowered hd.name = c!"host")
    (hm : req.requestLine.method ≠ .none) (w' : W) (res : Response)
    (hr : Router.run sv.feat.urlVariables sv.router req (w, Response.newEmpty) = .ok (w', res))
    (hb : res.body ≠ .none) (hw : Writable sv.U res)
    (hc : sv.feat.cookies = false ∨ res.cookies = []) (hmem : InMemory res) :
    ∃ bytes v, sv.serve w s = .ok (w', bytes) ∧ ClientParses bytes v ∧
      SeenAs sv.U sv.feat.cookies res v ∧ ∀ v', ClientParses bytes v' → v' = v := by
  obtain ⟨v, h1, h2, h3⟩ := C36_roundtrip_partial sv.U sv.feat.cookies sv.ord res hw hc hmem
  exact ⟨_, v, ((C34_dispatch sv w s req h hv hm).1 w' res hr).2 hb, h1, h2, h3⟩

/-! ### C35 -/

/-- Whatever a connection delivers, what is written to it is one error page or the serialisation of one
response with a body. -/
theorem C35_one_response (sv : Server W) (w w' : W) (s : Sock) (out : Bytes)
    (h : sv.serve w s = .ok (w', out)) :
    (∃ kind ∈ [StatusCode.badRequest, .notFound, .notImplemented],
      errorPage sv.U sv.feat.cookies sv.ord (sv.clock w') kind = .ok out) ∨
    ∃ res : Response, res.body ≠ .none ∧ out = sendData (res.getData sv.U sv.feat.cookies sv.ord) := by
  have key : ∀ kind w1 x, sv.declareError w1 kind = .ok x → x = (w', out) →
      kind ∈ [StatusCode.badRequest, .notFound, .notImplemented] →
      (∃ kind ∈ [StatusCode.badRequest, .notFound, .notImplemented],
        errorPage sv.U sv.feat.cookies sv.ord (sv.clock w') kind = .ok out) ∨
      ∃ res : Response, res.body ≠ .none ∧ out = sendData (res.getData sv.U sv.feat.cookies sv.ord) := by
    intro kind w1 x h1 h2 h3
    unfold Server.declareError at h1
    cases he : errorPage sv.U sv.feat.cookies sv.ord (sv.clock w1) kind with
    | panic => rw [he] at h1; simp at h1
    | ok bs =>
      rw [he] at h1
      simp only [Res.bind_ok', Res.ok.injEq] at h1
      rw [← h1, Prod.mk.injEq] at h2
      obtain ⟨rfl, rfl⟩ := h2
      exact .inl ⟨kind, h3, he⟩
  have ofRes_inv : ∀ r : Res (W × Bytes), Io.ofRes r = .ok (w', out) → r = .ok (w', out) := by
    intro r hr; cases r <;> simp_all
  unfold Server.serve at h
  cases hr : readHead s with
  | panic => rw [hr] at h; simp at h
  | pending => rw [hr] at h; simp at h
  | abort => rw [hr] at h; simp at h
  | ok ho =>
    rw [hr] at h
    cases ho with
    | badRequest => exact key _ w _ (ofRes_inv _ h) rfl (by decide)
    | head hdrs line rem reader =>
      simp only [Io.bind_ok] at h
      cases hh : (Headers.parse sv.feat.faithful hdrs).bind Res.unwrap with
      | panic => rw [hh] at h; simp at h
      | ok H =>
        rw [hh] at h
        simp only [Io.ofRes_ok, Io.bind_ok] at h
        cases hl : (RequestLine.parse sv.feat.faithful line).bind Res.unwrap with
        | panic => rw [hl] at h; simp at h
        | ok rl =>
          rw [hl] at h
          simp only [Io.ofRes_ok, Io.bind_ok] at h
          cases hf : Request.fromRaw sv.feat sv.allocOk H rl rem reader with
          | panic => rw [hf] at h; simp at h
          | pending => rw [hf] at h; simp at h
          | abort => rw [hf] at h; simp at h
          | ok o =>
            rw [hf] at h
            cases o with
            | none => exact key _ w _ (ofRes_inv _ h) rfl (by decide)
            | some req =>
              simp only [Io.bind_ok] at h
              have h := ofRes_inv _ h
              rw [handle_spec] at h
              split at h
              · exact key _ w _ h rfl (by decide)
              · split at h
                · exact key _ w _ h rfl (by decide)
                · cases hrun : Router.run sv.feat.urlVariables sv.router req (w, Response.newEmpty) with
                  | panic => rw [hrun] at h; simp at h
                  | ok st =>
                    rw [hrun, Res.bind_ok'] at h
                    split at h
                    · exact key _ st.1 _ h rfl (by decide)
                    · rename_i hb
                      simp only [Res.ok.injEq, Prod.mk.injEq] at h
                      refine .inr ⟨st.2, ?_, h.2.symm⟩
                      intro hn
                      exact hb (by simp [Response.hasBody, hn, ResBody.isSome])

/-- the header block of a head declares a body of `n` bytes -/
def Spec.HeadDeclares (faithful : Bool) (head : Bytes) (n : Nat) : Prop :=
  ∀ text line hdrs hs, head = utf8 text → FirstSplit text crlf line hdrs → BlockOk faithful hdrs hs →
    DeclaredLength (joined hs) n

/-- The other half of the claim: connections that agree on the head and on the declared number of
bytes after it are treated alike. -/
def C35_statement : Prop :=
  ∀ (sv : Server Unit) (s s' : Sock) (head rest rest' : Bytes) (n : Nat),
    FirstSplit s.bytes blankLine head rest → FirstSplit s'.bytes blankLine head rest' →
    HeadDeclares sv.feat.faithful head n → n ≤ rest.length → n ≤ rest'.length →
    rest.take n = rest'.take n → n ≤ i64Max → (∀ k ≤ n, sv.allocOk k = true) →
    sv.serve () s = sv.serve () s'

/-! ### C30 -/

/-- Which connections are answered, when the client closes its sending side after its bytes, the
handlers do not panic, memory is available and the clock is at or after 1970: exactly those whose
bytes are `Answerable`. For all others the task panics and the client gets nothing, whatever the
handlers and the clock. -/
theorem C30_exact_partial (sv : Server W) (w : W) (s : Sock) (hfin : s.fin = .eof)
    (hlen : s.bytes.length ≤ i64Max) (halloc : ∀ k, sv.allocOk k = true) :
    ((∀ w, 0 ≤ sv.clock w) → (∀ req st, req.requestLine.method ≠ .all →
        ∃ st', Router.run sv.feat.urlVariables sv.router req st = .ok st') →
      Answerable sv.feat.faithful sv.feat.cookies s.bytes → ∃ w' out, sv.serve w s = .ok (w', out)) ∧
    (¬ Answerable sv.feat.faithful sv.feat.cookies s.bytes → sv.serve w s = .panic) := by
  have h400 : (∀ w, 0 ≤ sv.clock w) →
      ∃ w' out, Io.ofRes (sv.declareError w .badRequest) = .ok (w', out) := by
    intro hc
    obtain ⟨bytes, v, e1, -⟩ := declareError_ok sv w 21 (hc w)
    exact ⟨w, bytes, congrArg Io.ofRes e1⟩
  rcases Classical.em (Occurs s.bytes blankLine) with ho | ho
  · obtain ⟨head, rest, hsplit⟩ := FirstSplit.exists ho
    rcases Classical.em (∃ text line hdrs, head = utf8 text ∧ FirstSplit text crlf line hdrs) with hg | hg
    · obtain ⟨text, line, hdrs, e1, e2⟩ := hg
      obtain ⟨rem, reader, r1, r2, r3⟩ := ((C25_head_from_bytes s).2 _ _ hsplit).1 line hdrs ⟨text, e1, e2⟩
      have hserve : sv.serve w s =
          (Io.ofRes ((Headers.parse sv.feat.faithful hdrs).bind Res.unwrap)).bind fun headers =>
            (Io.ofRes ((RequestLine.parse sv.feat.faithful line).bind Res.unwrap)).bind
              fun requestLine =>
                (Request.fromRaw sv.feat sv.allocOk headers requestLine rem reader).bind fun o =>
                  match o with
                  | some request => Io.ofRes (sv.handle w request)
                  | none => Io.ofRes (sv.declareError w .badRequest) := by
        unfold Server.serve; rw [r1]; rfl
      -- the parts of an answerable request are determined by the bytes
      have hans : Answerable sv.feat.faithful sv.feat.cookies s.bytes ↔
          ∃ hs n, BlockOk sv.feat.faithful hdrs hs ∧ LineOk sv.feat.faithful line ∧
            DeclaredLength (joined hs) n ∧ n ≤ rest.length ∧
            (sv.feat.cookies = true → ∀ v, joined hs c!"cookie" = some v → CookieText v) := by
        constructor
        · rintro (h | ⟨head', rest', h1, h2⟩)
          · exact absurd ho h
          · obtain ⟨rfl, rfl⟩ := hsplit.unique h1
            rcases h2 with h2 | ⟨text', line', hdrs', hs, n, g1, g2, g3, g4, g5, g6, g7⟩
            · exact absurd e2.occurs (h2 text e1)
            · have : text' = text := utf8_injective (g1.symm.trans e1)
              subst this
              obtain ⟨rfl, rfl⟩ := g2.unique e2
              exact ⟨hs, n, g3, g4, g5, g6, g7⟩
        · rintro ⟨hs, n, g3, g4, g5, g6, g7⟩
          exact .inr ⟨head, rest, hsplit, .inr ⟨text, line, hdrs, hs, n, e1, e2, g3, g4, g5, g6, g7⟩⟩
      have hrest : (rem ++ reader.bytes).length ≤ i64Max := by
        rw [r2]
        have := congrArg List.length hsplit.1
        simp only [List.length_append] at this
        omega
      have hfin' : reader.fin ≠ .silent := by rw [r3, hfin]; simp
      rcases Headers.parse_cases sv.feat.faithful hdrs with ⟨H, hH⟩ | hH
      · obtain ⟨b1, b2, b3⟩ := Headers.parse_some hH
        rw [hH] at hserve
        simp only [Res.bind_ok', Res.unwrap_some, Io.ofRes_ok, Io.bind_ok] at hserve
        rcases Classical.em (∃ rl, RequestLine.parse sv.feat.faithful line = .ok (some rl)) with hl | hl
        · obtain ⟨rl, hrl⟩ := hl
          have hlok := (RequestLine.parse_some_iff _ _).1 ⟨rl, hrl⟩
          rw [hrl] at hserve
          simp only [Res.bind_ok', Res.unwrap_some, Io.ofRes_ok, Io.bind_ok] at hserve
          have hdecl := contentLength_declared H
          have hout := fromRaw_outcome sv.feat sv.allocOk H rl rem reader _ hdecl halloc hfin' hrest
          rw [r2] at hout
          have hdecl' : DeclaredLength (joined (H.raw.map hpair)) (contentLength H) := by
            rwa [← funext b3]
          -- uniqueness of the header list
          have huniq : ∀ hs, BlockOk sv.feat.faithful hdrs hs → ∀ k, joined hs k = H.get k := by
            intro hs hb k
            obtain ⟨H', h1, -, h3⟩ := Headers.parse_block hb
            rw [hH] at h1
            simp only [Res.ok.injEq, Option.some.injEq] at h1
            rw [h1, h3]
          rcases Nat.lt_or_ge rest.length (contentLength H) with hlt | hge
          · rw [hout.2 hlt] at hserve
            refine ⟨fun _ _ ha => ?_, fun _ => by rw [hserve]; rfl⟩
            obtain ⟨hs, n, g3, -, g5, g6, -⟩ := hans.1 ha
            rw [funext (huniq hs g3)] at g5
            have := DeclaredLength.unique g5 hdecl
            omega
          · obtain ⟨body, hbody⟩ := hout.1 hge
            rw [hbody] at hserve
            rcases Classical.em (sv.feat.cookies = true → ∀ v, H.get c!"cookie" = some v → CookieText v)
              with hck | hck
            · obtain ⟨cs, hcs⟩ := (Request.parse_spec sv.feat rl H body).1 hck
              rw [hcs] at hserve
              simp only [Io.ofRes_ok, Io.bind_ok] at hserve
              refine ⟨fun hc hrun _ => ?_, fun ha => absurd (hans.2 ⟨H.raw.map hpair, _, b1, hlok, hdecl', hge, ?_⟩) ha⟩
              · rw [hserve, handle_spec]
                split
                · exact h400 hc
                · split
                  · obtain ⟨bytes, v, e1, -⟩ := declareError_ok sv w 51 (hc w)
                    exact ⟨w, bytes, congrArg Io.ofRes e1⟩
                  · obtain ⟨st, hst⟩ := hrun ⟨rl, H, body, cs⟩ (w, Response.newEmpty)
                      (C12_parsed_method _ _ _ hrl)
                    rw [hst, Res.bind_ok']
                    split
                    · obtain ⟨bytes, v, e1, -⟩ := declareError_ok sv st.1 25 (hc _)
                      exact ⟨_, bytes, congrArg Io.ofRes e1⟩
                    · exact ⟨_, _, rfl⟩
              · rw [← funext b3]; exact hck
            · rw [(Request.parse_spec sv.feat rl H body).2 hck] at hserve
              refine ⟨fun _ _ ha => ?_, fun _ => by rw [hserve]; rfl⟩
              obtain ⟨hs, n, g3, -, -, -, g7⟩ := hans.1 ha
              exfalso
              apply hck
              intro hf v hv
              rw [← huniq hs g3] at hv
              exact g7 hf v hv
        · refine ⟨fun _ _ ha => ?_, fun _ => ?_⟩
          · obtain ⟨hs, n, -, g4, -⟩ := hans.1 ha
            exact absurd ((RequestLine.parse_some_iff _ _).2 g4) hl
          · rw [hserve]
            cases hp : RequestLine.parse sv.feat.faithful line with
            | panic => rfl
            | ok o =>
              cases o with
              | none => rfl
              | some rl => exact absurd ⟨rl, hp⟩ hl
      · rw [hH] at hserve
        refine ⟨fun _ _ ha => ?_, fun _ => by rw [hserve]; rfl⟩
        obtain ⟨hs, n, g3, -⟩ := hans.1 ha
        obtain ⟨H', h1, -⟩ := Headers.parse_block g3
        rw [hH] at h1; simp at h1
    · have hb : ∀ text, head = utf8 text → ¬ Occurs text crlf := by
        intro text ht ho
        obtain ⟨a, b, hab⟩ := FirstSplit.exists ho
        exact hg ⟨text, a, b, ht, hab⟩
      have e1 := ((C25_head_from_bytes s).2 _ _ hsplit).2 hb
      refine ⟨fun hc hrun _ => ?_, fun ha => absurd (.inr ⟨head, rest, hsplit, .inl hb⟩) ha⟩
      unfold Server.serve
      rw [e1]; exact h400 hc
  · have e1 := (C25_head_from_bytes s).1 ho
    rw [hfin] at e1
    refine ⟨fun hc hrun _ => ?_, fun ha => absurd (.inl ho) ha⟩
    unfold Server.serve
    rw [e1]; exact h400 hc

/-! ### concrete servers -/

/-- a server with the default features, enough memory, a clock standing at 1970, and one handler for
everything -/
def demo (h : Closure (Unit × Response)) : Server Unit :=
  { feat := .default, allocOk := fun _ => true, U := Unicode.asciiOnly, ord := MapOrder.id,
    clock := fun _ => 0, router := Router.add Router.new h }

/-- a server on which nothing is registered -/
def empty : Server Unit :=
  { feat := .default, allocOk := fun _ => true, U := Unicode.asciiOnly, ord := MapOrder.id,
    clock := fun _ => 0, router := Router.new }

theorem empty_run (req : Request) (st : Unit × Response) (h : req.requestLine.method ≠ .all) :
    ∃ st', Router.run empty.feat.urlVariables empty.router req st = .ok st' := by
  obtain ⟨r, g1, g2⟩ := C17_no_panic (S := Unit × Response) [] trivial (by decide) (by simp [logOfL])
  have : r = Router.new := by simpa [execL] using g1.symm
  subst this
  exact g2 true req st h

/-- a handler that does these operations on the response and stops -/
def doing (ops : Request → List ResOp) : Closure (Unit × Response) := fun mr st =>
  (execOps Unicode.asciiOnly st.2 (ops mr.request)).bind fun r => .ok (((), r), .stop)

/-- a connection that delivers this text at once and is then closed -/
def sends (t : Str) : Sock := ⟨[utf8 t], .eof⟩

/-- The full claim of C30, for a server on which nothing is registered. -/
def C30_statement : Prop :=
  ∀ s : Sock, s.fin = .eof → s.bytes.length ≤ i64Max → ∃ out, empty.serve () s = .ok ((), out)

/-- It is false: a header line without colon, a request line with one token, with a path above the root,
or with a short third token, a cookie without `=`, a body shorter than declared. -/
theorem C30_counterexample : ¬ C30_statement ∧
    empty.serve () (sends c!"GET / HTTP/1.1\r\nbad\r\n\r\n") = .panic ∧
    empty.serve () (sends c!"GET\r\nHost: x\r\n\r\n") = .panic ∧
    empty.serve () (sends c!"GET /.. HTTP/1.1\r\nHost: x\r\n\r\n") = .panic ∧
    empty.serve () (sends c!"GET / abc\r\nHost: x\r\n\r\n") = .panic ∧
    empty.serve () (sends c!"GET / HTTP/1.1\r\nHost: x\r\nCookie: x\r\n\r\n") = .panic ∧
    empty.serve () (sends c!"GET / HTTP/1.1\r\nHost: x\r\nContent-Length: 2\r\n\r\na") = .panic := by
  have h1 : empty.serve () (sends c!"GET / HTTP/1.1\r\nbad\r\n\r\n") = .panic := by decide +kernel
  refine ⟨fun h => ?_, h1, by decide +kernel, by decide +kernel, by decide +kernel, by decide +kernel,
    by decide +kernel⟩
  obtain ⟨out, ho⟩ := h (sends c!"GET / HTTP/1.1\r\nbad\r\n\r\n") rfl (by decide +kernel)
  rw [h1] at ho; simp at ho

/-- Worse, a declared length for which memory cannot be allocated aborts the whole process, not only
this connection. -/
theorem C30_abort : { empty with allocOk := fun n => n < 2 ^ 40 }.serve ()
    (sends c!"GET / HTTP/1.1\r\nHost: x\r\nContent-Length: 9000000000000000000\r\n\r\n") = .abort := by
  decide +kernel

/-- An answerable and a not answerable stream, so both parts of `C30_exact_partial` apply. -/
example : Answerable true true (utf8 c!"garbage") := .inl (by
  rintro ⟨j, a, b, h, -⟩
  have : (13 : UInt8) ∈ utf8 c!"garbage" := by rw [h]; simp [blankLine]
  exact absurd this (by decide +kernel))
example : ∃ out, empty.serve () (sends c!"garbage") = .ok ((), out) :=
  ((C30_exact_partial empty () (sends c!"garbage") rfl (by decide +kernel) (fun _ => rfl)).1
    (fun _ => by simp [empty]) empty_run (.inl (by
      rintro ⟨j, a, b, h, -⟩
      have : (13 : UInt8) ∈ (sends c!"garbage").bytes := by rw [h]; simp [blankLine]
      exact absurd this (by decide +kernel)))).elim fun _ h => h

/-- The second half of C35 is false: with a declared length of 1, bytes of the next request that arrive
together with the first one are taken into the body. -/
theorem C35_counterexample : ¬ C35_statement := by
  intro h
  let sv := demo (doing fun req => [.send 0 req.body])
  let t := c!"GET / HTTP/1.1\r\nHost: x\r\nContent-Length: 1\r\n\r\n"
  let head := utf8 c!"GET / HTTP/1.1\r\nHost: x\r\nContent-Length: 1"
  have hsplit : ∀ x : Str, FirstSplit (utf8 (t ++ x)) blankLine head (utf8 x) := by
    intro x
    have := firstSplit_lines c!"GET / HTTP/1.1" [c!"Host: x", c!"Content-Length: 1"] (by decide) (utf8 x)
    rw [utf8_append]
    exact this
  have := h sv (sends (t ++ c!"a")) (sends (t ++ c!"aNEXT")) head (utf8 c!"a") (utf8 c!"aNEXT") 1
    (by have := hsplit c!"a"; simpa [sends, Sock.bytes] using this)
    (by have := hsplit c!"aNEXT"; simpa [sends, Sock.bytes] using this)
    (by
      intro text line hdrs hs h1 h2 h3
      have e : text = c!"GET / HTTP/1.1\r\nHost: x\r\nContent-Length: 1" := utf8_injective h1.symm
      have hf : FirstSplit text crlf c!"GET / HTTP/1.1" c!"Host: x\r\nContent-Length: 1" := by
        rw [e]
        exact firstSplit_of_not_mem (a := c!"GET / HTTP/1.1") (b := c!"Host: x\r\nContent-Length: 1") (by decide)
      obtain ⟨rfl, rfl⟩ := h2.unique hf
      obtain ⟨H, g1, -, g3⟩ := Headers.parse_block h3
      have g4 : Headers.parse sv.feat.faithful c!"Host: x\r\nContent-Length: 1" = .ok (some
        { parsed := [(c!"host", c!"x"), (c!"content-length", c!"1")],
          raw := [⟨c!"Host", c!"x"⟩, ⟨c!"Content-Length", c!"1"⟩] }) := by decide +kernel
      rw [g4] at g1
      simp only [Res.ok.injEq, Option.some.injEq] at g1
      rw [← funext g3, ← g1]
      exact contentLength_declared _)
    (by decide +kernel) (by decide +kernel) (by decide +kernel) (by decide) (by intro k _; rfl)
  revert this
  decide +kernel

/-- two connections that differ only after a request without body get the same answer -/
example : ((demo (doing fun _ => [.send 0 [104, 105]])).serve () (sends c!"GET / HTTP/1.0\r\nA: b\r\n\r\n"))
    = ((demo (doing fun _ => [.send 0 [104, 105]])).serve () (sends c!"GET / HTTP/1.0\r\nA: b\r\n\r\nGET")) := by
  decide +kernel

/-! ### C41 on the wire -/

/-- The full claim of C41 at the level of the server: the client sees the redirect. -/
def C41_statement : Prop :=
  ∀ (sv : Server Unit) (s : Sock) (req : Request) (ops : List ResOp) (l : Str) (r : Response),
    Reads sv.feat sv.allocOk s req → req.requestLine.version ≠ .http11 → req.requestLine.method ≠ .none →
    execOps sv.U Response.newEmpty (ops ++ [.redirect l]) = .ok r → Writable sv.U r → r.cookies = [] →
    Router.run sv.feat.urlVariables sv.router req ((), Response.newEmpty) = .ok ((), r) →
    (∀ w, 0 ≤ sv.clock w) →
    ∃ out v, sv.serve () s = .ok ((), out) ∧ ClientParses out v ∧ v.code = c!"302" ∧
      (c!"Location", l) ∈ v.headers

/-- When the handlers redirect but set no body, the client gets the 404 page instead. -/
theorem C41_redirect_only_is_404 (sv : Server W) (w w' : W) (s : Sock) (req : Request)
    (h : Reads sv.feat sv.allocOk s req)
    (hv : req.requestLine.version ≠ .http11 ∨ ∃ hd ∈ req.headers.raw, lowered hd.name = c!"host")
    (hm : req.requestLine.method ≠ .none) (ops : List ResOp) (r : Response)
    (hops : execOps sv.U Response.newEmpty ops = .ok r) (hnb : ∀ o ∈ ops, o.setsBody = false)
    (hr : Router.run sv.feat.urlVariables sv.router req (w, Response.newEmpty) = .ok (w', r))
    (hc : 0 ≤ sv.clock w') :
    ∃ bytes v, sv.serve w s = .ok (w', bytes) ∧ ClientParses bytes v ∧ v.code = c!"404" := by
  have hb : r.body = .none := by rw [execOps_body hops hnb]; rfl
  obtain ⟨bytes, v, h1, h2, h3, -⟩ := ((C34_dispatch sv w s req h hv hm).1 w' r hr).1 hb hc
  exact ⟨bytes, v, h1, h2, h3⟩

theorem C41_reads : Reads Features.default (fun _ => true) (sends c!"GET /a HTTP/1.0\r\nA: b\r\n\r\n")
    ⟨⟨.get, [c!"a"], .http10⟩, ⟨[(c!"a", c!"b")], [⟨c!"A", c!"b"⟩]⟩, [], []⟩ :=
  ⟨c!"A: b", c!"GET /a HTTP/1.0", [], ⟨[], .eof⟩, ⟨[(c!"a", c!"b")], [⟨c!"A", c!"b"⟩]⟩,
    ⟨.get, [c!"a"], .http10⟩, by rfl, by decide +kernel, by decide +kernel, by decide +kernel⟩

theorem C41_counterexample : ¬ C41_statement := by
  intro h
  let sv := demo (doing fun _ => [.redirect c!"/x"])
  let r : Response := { Response.newEmpty with statusCode := .found, headers := [(c!"Location", c!"/x")] }
  have hr : Router.run sv.feat.urlVariables sv.router
      ⟨⟨.get, [c!"a"], .http10⟩, ⟨[(c!"a", c!"b")], [⟨c!"A", c!"b"⟩]⟩, [], []⟩ ((), Response.newEmpty) =
      .ok ((), r) := by decide +kernel
  obtain ⟨out, v, h1, h2, h3, -⟩ := h sv _ _ [] c!"/x" r C41_reads (by decide) (by decide)
    (by decide +kernel)
    ⟨by decide, by decide +kernel, by
      intro k v hkv
      simp only [r, List.mem_singleton, Prod.mk.injEq] at hkv
      obtain ⟨rfl, rfl⟩ := hkv
      refine ⟨by decide, by decide, by decide, by decide, ?_⟩
      intro c hc; simp at hc; subst hc; decide, by simp [r, Response.newEmpty]⟩ rfl hr
    (fun _ => by simp [sv, demo])
  obtain ⟨bytes, v', g1, g2, g3⟩ := C41_redirect_only_is_404 sv () () _ _ C41_reads (.inl (by decide))
    (by decide) [.redirect c!"/x"] r (by decide +kernel) (by decide) hr (by simp [sv, demo])
  rw [h1] at g1
  simp only [Io.ok.injEq, Prod.mk.injEq, true_and] at g1
  subst g1
  rw [h2.unique g2, g3] at h3
  exact absurd h3 (by decide)

/-- The full claim of C34 about the other case: the client sees what the handlers left. -/
def C34_statement : Prop :=
  ∀ (sv : Server Unit) (s : Sock) (req : Request) (res : Response),
    Reads sv.feat sv.allocOk s req → req.requestLine.version ≠ .http11 → req.requestLine.method ≠ .none →
    Router.run sv.feat.urlVariables sv.router req ((), Response.newEmpty) = .ok ((), res) →
    res.body ≠ .none → Writable sv.U res →
    ∃ out v, sv.serve () s = .ok ((), out) ∧ ClientParses out v ∧ SeenAs sv.U sv.feat.cookies res v

/-- It is false: with a cookie the client cannot tell the head from the body. -/
theorem C34_counterexample : ¬ C34_statement := by
  intro h
  let sv := demo fun _ _ => .ok (((), C36_example), .stop)
  have hr : Router.run sv.feat.urlVariables sv.router
      ⟨⟨.get, [c!"a"], .http10⟩, ⟨[(c!"a", c!"b")], [⟨c!"A", c!"b"⟩]⟩, [], []⟩ ((), Response.newEmpty) =
      .ok ((), C36_example) := by decide +kernel
  have hb : C36_example.body ≠ .none := by decide +kernel
  obtain ⟨out, v, h1, h2, h3⟩ := h sv _ _ C36_example C41_reads (by decide) (by decide) hr hb
    C36_example_writable
  rw [((C34_dispatch sv () _ _ C41_reads (.inl (by decide)) (by decide)).1 () _ hr).2 hb] at h1
  simp only [Io.ok.injEq, Prod.mk.injEq, true_and] at h1
  subst h1
  have h4 := C36_cookies_break _ _ _ C36_example_writable (by decide +kernel)
    (by intro b hb; exact absurd hb (by simp [C36_example, Response.newFromSlice, ResBody.getReader])) v h2
  rw [h3.2.2.2.2] at h4
  omega

/-! ### C51 -/

/-- Cookies joined by `"; "` are read as exactly these cookies in this order. -/
theorem C51_cookies (cs : List (Str × Str)) (hne : cs ≠ []) (h : ∀ nv ∈ cs, GoodCookie nv) :
    Cookie.parse (c!"; ".intercalate (cs.map cookiePair)) = .ok (cs.map fun nv => ⟨nv.1, nv.2, []⟩) := by
  rw [Cookie.parse, splitStr_pieces (pieces_pairs cs hne h)]
  clear hne
  induction cs with
  | nil => rfl
  | cons nv cs ih =>
    rw [List.map_cons, Cookie.parseAll, cookieRsParse_pair (h nv (by simp)), Res.unwrap_some,
      Res.bind_ok', ih (fun x hx => h x (List.mem_cons_of_mem _ hx))]
    rfl

/-- From the bytes to the request the handlers see. -/
theorem C51_handlers_see (feat : Features) (allocOk : Nat → Bool) (q : WireReq) (hq : q.Good) (s : Sock)
    (hb : s.bytes = q.bytes) (halloc : ∀ k ≤ q.body.length, allocOk k = true)
    (hmax : q.body.length ≤ i64Max) (hf : feat.cookies = true) (cs : List (Str × Str)) (hne : cs ≠ [])
    (h : ∀ nv ∈ cs, GoodCookie nv)
    (hj : joined q.headers c!"cookie" = some (c!"; ".intercalate (cs.map cookiePair))) :
    ∃ req, Reads feat allocOk s req ∧ req.cookies.map (fun c => (c.name, c.value)) = cs := by
  obtain ⟨req, h1, -, -, -, -, -, -, -, -, h10⟩ :=
    reads_wire feat allocOk q hq s [] (by simpa using hb) (.inl rfl) halloc hmax
  refine ⟨req, h1, ?_⟩
  rw [h10 cs hne h hj hf, List.map_map]
  simp [Function.comp_def]

example : Cookie.parse c!"a=1; b=x=y" = .ok [⟨c!"a", c!"1", []⟩, ⟨c!"b", c!"x=y", []⟩] := by
  decide +kernel
example : ∀ nv ∈ [(c!"a", c!"1"), (c!"b", c!"x=y")], GoodCookie nv := by
  intro nv h
  simp only [List.mem_cons, List.not_mem_nil, or_false] at h
  rcases h with rfl | rfl <;>
    exact ⟨by decide, by decide, by decide, by decide, (trimmed_iff _ _).2 (by decide +kernel),
      (trimmed_iff _ _).2 (by decide +kernel)⟩

/-! ### C52 -/

/-- The full claim of C52: a well-formed request is handled whatever its Cookie header. -/
def C52_statement : Prop :=
  ∀ (sv : Server Unit) (q : WireReq) (s : Sock), q.Framed → s.bytes = q.bytes →
    (∀ k, sv.allocOk k = true) → q.body.length ≤ i64Max → ∃ req, Reads sv.feat sv.allocOk s req

/-- Exactly the Cookie headers in which some piece has no `=` with a name before it crash the request
(with the feature `cookies`): nothing is answered, for every server and every segmentation. -/
theorem C52_crash (sv : Server W) (w : W) (q : WireReq) (hq : q.Framed) (s : Sock)
    (hb : s.bytes = q.bytes) (halloc : ∀ k ≤ q.body.length, sv.allocOk k = true)
    (hmax : q.body.length ≤ i64Max) (hf : sv.feat.cookies = true) (v : Str)
    (hj : joined q.headers c!"cookie" = some v) (hbad : ¬ CookieText v) : sv.serve w s = .panic := by
  obtain ⟨hdrs, line, rem, reader, H, rl, e1, e2, e3, e4, -, -, -, -, -, -, e5⟩ :=
    wire_parts sv.feat sv.allocOk q hq s [] (by simpa using hb) (.inl rfl) halloc hmax
  unfold Server.serve
  simp only [e1, Io.bind_ok, e2, Res.bind_ok', Res.unwrap_some, Io.ofRes_ok, e3, e4]
  rw [(Request.parse_spec sv.feat rl H q.body).2 (fun h => hbad (h hf v (by rw [e5, hj])))]
  rfl

/-- All others are handled. -/
theorem C52_handled_partial (feat : Features) (allocOk : Nat → Bool) (q : WireReq) (hq : q.Framed)
    (s : Sock) (hb : s.bytes = q.bytes) (halloc : ∀ k ≤ q.body.length, allocOk k = true)
    (hmax : q.body.length ≤ i64Max)
    (hc : feat.cookies = true → ∀ v, joined q.headers c!"cookie" = some v → CookieText v) :
    ∃ req, Reads feat allocOk s req := by
  obtain ⟨hdrs, line, rem, reader, H, rl, e1, e2, e3, e4, -, -, -, -, -, -, e5⟩ :=
    wire_parts feat allocOk q hq s [] (by simpa using hb) (.inl rfl) halloc hmax
  obtain ⟨cs, hcs⟩ := (Request.parse_spec feat rl H q.body).1 (fun hf v hv => hc hf v (by rw [← e5, hv]))
  exact ⟨_, hdrs, line, rem, reader, H, rl, e1, e2, e3, by rw [e4, hcs]; rfl⟩

/-- a small request -/
def Spec.getReq (headers : List (Str × Str)) : WireReq := ⟨c!"GET", [[], c!"a"], c!"1.1", headers, []⟩

theorem C52_counterexample : ¬ C52_statement := by
  intro h
  let q := getReq [(c!"Host", c!"x"), (c!"Cookie", c!"x")]
  have hq : q.Framed := by
    refine ⟨by decide, by decide, ?_, by decide, ⟨by decide, ?_⟩, ?_⟩
    · show ¬ Climbs [[], c!"a"]
      rw [← (C02_dotdot_rule [[], c!"a"] (by decide) (by decide)).1]; decide +kernel
    · intro h hh
      simp only [q, getReq, List.mem_cons, List.not_mem_nil, or_false] at hh
      rcases hh with rfl | rfl <;>
        exact ⟨by decide, by decide, by decide, by intro c hc; simp at hc; subst hc; decide⟩
    · right
      have hj : joined q.headers c!"content-length" = none := by decide +kernel
      exact ⟨rfl, by intro v m hv; rw [hj] at hv; simp at hv⟩
  obtain ⟨req, hr⟩ := h empty q ⟨[q.bytes], .eof⟩ hq (by simp [Sock.bytes]) (fun _ => rfl) (by decide)
  have h1 := serve_reads hr ()
  have h2 : empty.serve () ⟨[q.bytes], .eof⟩ = .panic := by decide +kernel
  rw [h2] at h1
  have h4 := (handle_spec empty () req)
  cases hh : empty.handle () req with
  | ok x => rw [hh] at h1; simp at h1
  | panic =>
    rw [hh] at h4
    split at h4
    · obtain ⟨bytes, v, e1, -⟩ := declareError_ok empty () 21 (by simp [empty])
      exact absurd (h4.trans e1) (by simp)
    · split at h4
      · obtain ⟨bytes, v, e1, -⟩ := declareError_ok empty () 51 (by simp [empty])
        exact absurd (h4.trans e1) (by simp)
      · obtain ⟨st', hst⟩ := empty_run req ((), Response.newEmpty) hr.facts.2
        rw [hst, Res.bind_ok'] at h4
        split at h4
        · obtain ⟨bytes, v, e1, -⟩ := declareError_ok empty st'.1 25 (by simp [empty])
          exact absurd (h4.trans e1) (by simp)
        · simp at h4

/-! ### C54 -/

theorem replay_first {S : Type u} (uv : Bool) (req : Request) (pre post : List (Reg S)) (e : Reg S) (s s' : S)
    (hpre : ∀ x ∈ pre, x.target.applies uv req.requestLine.method req.requestLine.path = false)
    (he : e.target.applies uv req.requestLine.method req.requestLine.path = true)
    (hh : e.handler ⟨req, e.target.vars uv req.requestLine.path⟩ s = .ok (s', .stop)) :
    replay uv req (pre ++ e :: post) s = .ok s' := by
  induction pre with
  | nil => simp [replay, he, hh]
  | cons x pre ih =>
    rw [List.cons_append, replay, hpre x (by simp)]
    exact ih (fun y hy => hpre y (List.mem_cons_of_mem _ hy))

/-- A well-formed request with a known method, delivered in any segmentation to a server set up by any
program, and the first registered handler that applies sends a body (possibly depending on the
request and the bindings) and stops. The handler is called with what the client wrote and with the
bindings of its own pattern, and the client reads, in exactly one way, status 200, that body, and its
length. -/
theorem C54_served (sv : Server W) (calls : List (Call (W × Response))) (hf : FairL calls)
    (hn : (logOfL calls).length < 2 ^ 64) (hsetup : execL Router.new calls = .ok sv.router)
    (q : WireReq) (hq : q.Good) (s : Sock) (hb : s.bytes = q.bytes)
    (halloc : ∀ k ≤ q.body.length, sv.allocOk k = true) (hmax : q.body.length ≤ i64Max)
    (m : RequestMethod) (hm : (q.method, m) ∈ methodTable)
    (hhost : q.version = c!"1.1" → ∃ h ∈ q.headers, lowered h.1 = c!"host")
    (pre post : List (Reg (W × Response))) (e : Reg (W × Response))
    (hlog : logOfL calls = pre ++ e :: post)
    (hpre : ∀ x ∈ pre, x.target.applies sv.feat.urlVariables m (resolve q.pieces) = false)
    (happ : e.target.applies sv.feat.urlVariables m (resolve q.pieces) = true)
    (w w' : W) (hc : 0 ≤ sv.clock w) (body : MatchedRequest → Bytes)
    (hh : ∀ mr, e.handler mr (w, Response.newEmpty) =
      (Response.newEmpty.send sv.U (sv.clock w) (body mr)).bind fun r => .ok ((w', r), .stop)) :
    ∃ req bytes v, req.requestLine.method = m ∧ req.requestLine.path = resolve q.pieces ∧
      (∀ k, req.headers.get k = joined q.headers k) ∧ req.body = q.body ∧
      sv.serve w s = .ok (w', bytes) ∧ ClientParses bytes v ∧ v.code = c!"200" ∧ v.reason = c!"OK" ∧
      v.version = c!"1.1" ∧
      v.body = body ⟨req, e.target.vars sv.feat.urlVariables (resolve q.pieces)⟩ ∧
      (∃ t, (c!"Content-Length", t) ∈ v.headers ∧ Numeral v.body.length t) ∧ (v.headers.map (·.1)).Nodup ∧
      ∀ v', ClientParses bytes v' → v' = v := by
  obtain ⟨req, h1, h2, -, h4, h5, h6, h7, h8, h9, -⟩ :=
    reads_wire sv.feat sv.allocOk q hq s [] (by simpa using hb) (.inl rfl) halloc hmax
  have hm1 := h2 m hm
  obtain ⟨r, g1, g2⟩ := C12_run_is_replay calls hf hn
  rw [hsetup] at g1
  simp only [Res.ok.injEq] at g1
  subst g1
  let mr : MatchedRequest := ⟨req, e.target.vars sv.feat.urlVariables (resolve q.pieces)⟩
  obtain ⟨res, hres⟩ := send_ok (U := sv.U) hc Response.newEmpty (body mr)
  have hrun : Router.run sv.feat.urlVariables sv.router req (w, Response.newEmpty) = .ok (w', res) := by
    rw [g2 _ _ _ h1.facts.2, hlog]
    apply replay_first
    · rw [hm1, h4]; exact hpre
    · rw [hm1, h4]; exact happ
    · rw [h4, hh, hres]; rfl
  have hv : req.requestLine.version ≠ .http11 ∨ ∃ hd ∈ req.headers.raw, lowered hd.name = c!"host" := by
    by_cases h11 : q.version = c!"1.1"
    · right
      obtain ⟨h, hm, he⟩ := hhost h11
      rw [← h7] at hm
      obtain ⟨hd, hd1, rfl⟩ := List.mem_map.1 hm
      exact ⟨hd, hd1, he⟩
    · left
      by_cases hk : ∃ x, (q.version, x) ∈ versionTable
      · obtain ⟨x, hx⟩ := hk
        rw [h5 x hx]
        rintro rfl
        have : ∀ p ∈ versionTable, p.2 = .http11 → p.1 = c!"1.1" := by decide
        exact h11 (this _ hx rfl)
      · rw [h6 (fun x hx => hk ⟨x, hx⟩)]; simp
  have hmn : req.requestLine.method ≠ .none := by
    rw [hm1]
    have : ∀ p ∈ methodTable, p.2 ≠ .none := by decide
    exact this _ hm
  obtain ⟨-, s1, s2, -, s4, -, s6, s7, s8, s9, s10⟩ := send_spec hres
  have hbody : res.body ≠ .none := by rw [s1]; simp
  have hmem : InMemory res := by intro b hb; rw [s1] at hb; simp [ResBody.getReader] at hb
  have hgood : Writable sv.U res := by
    refine ⟨by rw [s4]; decide, by rw [s2]; exact phrase_no_cr sv.U _, ?_, by rw [s6]; simp [Response.newEmpty]⟩
    intro k v hkv
    have hu : HMap.Uniq res.headers := s7 HMap.Uniq.nil
    have hg : res.get k = some v := HMap.get_of_mem hu hkv
    by_cases k1 : k = c!"Content-Length"
    · subst k1
      rw [s8] at hg
      simp only [Option.some.injEq] at hg
      subst hg
      refine ⟨by decide, by decide, by decide, ?_, ?_⟩
      · intro h; have := showNat_digits _ _ h; revert this; decide
      · intro c hcc hbl
        have hm := List.mem_of_head? hcc
        have := showNat_digits _ c hm
        rcases hbl with rfl | rfl <;> revert this <;> decide
    · by_cases k2 : k = c!"Content-Type"
      · subst k2
        rw [s9] at hg
        have : (Response.newEmpty.get c!"Content-Type") = none := rfl
        rw [this] at hg
        have hcs : Response.newEmpty.charset = none := rfl
        simp only [hcs, Option.some.injEq] at hg
        subst hg
        refine ⟨by decide, by decide, by decide, by decide, ?_⟩
        intro c hcc; simp at hcc; subst hcc; decide
      · by_cases k3 : k = c!"Date"
        · subst k3
          obtain ⟨-, -, -, -, -, -, -, -, -, -, ⟨d, d1, d2⟩, -⟩ := defaultHeaders_spec hres
          rw [hg] at d2
          cases d with
          | none => exact absurd d2 (by simp [Response.get, Response.newEmpty])
          | some t =>
            simp only [Option.some.injEq] at d2
            subst d2
            obtain ⟨a, b⟩ := date_good d1
            exact ⟨by decide, by decide, by decide, a, b⟩
        · rw [s10 k k1 k2 k3] at hg
          exact absurd hg (by simp [Response.get, Response.newEmpty])
  obtain ⟨bytes, v, o1, o2, ⟨o3, o4, o5, o6, o7⟩, o8⟩ :=
    C34_client_partial sv w s req h1 hv hmn w' res hrun hbody hgood (.inr (by rw [s6]; rfl)) hmem
  have hnil : (if sv.feat.cookies then res.cookies.map fun c => (c!"Set-Cookie", c.toStr) else []) = [] := by
    rw [s6]; simp [Response.newEmpty]
  rw [hnil, List.append_nil] at o6
  have hvb : v.body = body mr := by rw [o7]; unfold bodyBytes; rw [s1]
  refine ⟨req, bytes, v, hm1, h4, h8, h9, o1, o2, ?_, ?_, ?_, hvb, ?_, ?_, o8⟩
  · rw [o4.eq, s2]; decide +kernel
  · rw [o5, s2]
    exact (upperStr_ascii sv.U (phrase_ascii _)).trans (by decide +kernel)
  · rw [o3, s4]; rfl
  · rw [hvb]
    exact ⟨_, o6.mem_iff.2 (HMap.mem_of_get s8), showNat_numeral _⟩
  · exact (List.Perm.map (fun p : Str × Str => p.1) o6).nodup_iff.2 (s7 HMap.Uniq.nil)

/-! ### C56 -/

/-- The full claim of C56. -/
def C56_statement : Prop :=
  ∀ (sv : Server Unit) (s : Sock) (req : Request) (out : Bytes) (v : ClientView),
    Reads sv.feat sv.allocOk s req → req.requestLine.method = .head → sv.serve () s = .ok ((), out) →
    ClientParses out v → v.body = []

/-- What happens instead: a HEAD request gets the very bytes any other method would get from the same
handlers; in particular the body they set, if it is in memory, follows the head. -/
theorem C56_body_follows (sv : Server W) (w w' : W) (s : Sock) (req : Request) (res : Response)
    (h : Reads sv.feat sv.allocOk s req)
    (hv : req.requestLine.version ≠ .http11 ∨ ∃ hd ∈ req.headers.raw, lowered hd.name = c!"host")
    (hm : req.requestLine.method = .head)
    (hr : Router.run sv.feat.urlVariables sv.router req (w, Response.newEmpty) = .ok (w', res))
    (hb : res.body ≠ .none) (hw : Writable sv.U res)
    (hc : sv.feat.cookies = false ∨ res.cookies = []) (hmem : InMemory res) :
    ∃ bytes v, sv.serve w s = .ok (w', bytes) ∧ ClientParses bytes v ∧ v.body = bodyBytes res := by
  obtain ⟨bytes, v, h1, h2, ⟨-, -, -, -, h3⟩, -⟩ :=
    C34_client_partial sv w s req h hv (by rw [hm]; simp) w' res hr hb hw hc hmem
  exact ⟨bytes, v, h1, h2, h3⟩

/-- The claim holds when the handlers send an empty body. -/
theorem C56_empty_body_partial (sv : Server W) (w w' : W) (s : Sock) (req : Request) (res : Response)
    (h : Reads sv.feat sv.allocOk s req)
    (hv : req.requestLine.version ≠ .http11 ∨ ∃ hd ∈ req.headers.raw, lowered hd.name = c!"host")
    (hm : req.requestLine.method = .head)
    (hr : Router.run sv.feat.urlVariables sv.router req (w, Response.newEmpty) = .ok (w', res))
    (hb : res.body ≠ .none) (hw : Writable sv.U res)
    (hc : sv.feat.cookies = false ∨ res.cookies = []) (hmem : InMemory res) (he : bodyBytes res = [])
    (out : Bytes) (v : ClientView) (hs : sv.serve w s = .ok (w', out)) (hp : ClientParses out v) :
    v.body = [] := by
  obtain ⟨bytes, v', h1, h2, h3⟩ := C56_body_follows sv w w' s req res h hv hm hr hb hw hc hmem
  rw [hs] at h1
  simp only [Io.ok.injEq, Prod.mk.injEq, true_and] at h1
  subst h1
  rw [hp.unique h2, h3, he]

theorem C56_reads : Reads Features.default (fun _ => true) (sends c!"HEAD /a HTTP/1.0\r\nA: b\r\n\r\n")
    ⟨⟨.head, [c!"a"], .http10⟩, ⟨[(c!"a", c!"b")], [⟨c!"A", c!"b"⟩]⟩, [], []⟩ :=
  ⟨c!"A: b", c!"HEAD /a HTTP/1.0", [], ⟨[], .eof⟩, ⟨[(c!"a", c!"b")], [⟨c!"A", c!"b"⟩]⟩,
    ⟨.head, [c!"a"], .http10⟩, by rfl, by decide +kernel, by decide +kernel, by decide +kernel⟩

/-- Even the 404 page for a HEAD request comes with its body. -/
theorem C56_counterexample : ¬ C56_statement := by
  intro h
  have hrun : Router.run empty.feat.urlVariables empty.router
      ⟨⟨.head, [c!"a"], .http10⟩, ⟨[(c!"a", c!"b")], [⟨c!"A", c!"b"⟩]⟩, [], []⟩ ((), Response.newEmpty) =
      .ok ((), Response.newEmpty) := by decide +kernel
  obtain ⟨bytes, v, h1, h2, -, -, h3⟩ := ((C34_dispatch empty () _ _ C56_reads (.inl (by decide))
    (by decide)).1 () Response.newEmpty hrun).1 rfl (by simp [empty])
  have := h empty _ _ bytes v C56_reads rfl h1 h2
  rw [h3] at this
  exact absurd this (by decide +kernel)

/-! ### the theorems apply -/

namespace ServerExample

/-- a request for `/a/../b` with a body -/
def q (m version hostName : Str) : WireReq :=
  ⟨m, [[], c!"a", c!"..", c!"b"], version, [(hostName, c!"x"), (c!"Content-Length", c!"2")], [104, 105]⟩

theorem good (m version hostName : Str) (hm : m ∈ [c!"GET", c!"BREW"]) (hv : version ∈ [c!"1.1", c!"1.0"])
    (hh : hostName ∈ [c!"hOsT", c!"A"]) : (q m version hostName).Good := by
  simp only [List.mem_cons, List.not_mem_nil, or_false] at hm hv hh
  have hcl : ¬ Climbs [[], c!"a", c!"..", c!"b"] := by
    rw [← (C02_dotdot_rule [[], c!"a", c!"..", c!"b"] (by decide) (by decide)).1]; decide +kernel
  have key : ∀ m version hostName, ' ' ∉ m → '\r' ∉ m → ' ' ∉ version → '\r' ∉ version →
      (∀ c ∈ hostName, isTchar c) → hostName ≠ [] →
      joined (q m version hostName).headers c!"content-length" = some c!"2" →
      joined (q m version hostName).headers c!"cookie" = none → (q m version hostName).Good := by
    intro m version hostName h1 h2 h3 h4 h5 h6 h7 h8
    refine ⟨⟨⟨h1, h2⟩, ⟨by simp [q], by simp [q]⟩, hcl, ⟨h3, h4⟩, ⟨by simp [q], ?_⟩, ?_⟩, ?_⟩
    · intro h hmem
      simp only [q, List.mem_cons, List.not_mem_nil, or_false] at hmem
      rcases hmem with rfl | rfl
      · exact ⟨h6, h5, by intro c hc; simp at hc; subst hc; decide, by intro c hc; simp at hc; subst hc; decide⟩
      · exact ⟨by decide, by decide, by decide, by intro c hc; simp at hc; subst hc; decide⟩
    · exact .inl ⟨c!"2", h7, (parseU64_iff _ 2).1 (by decide +kernel)⟩
    · intro v hv; rw [h8] at hv; simp at hv
  rcases hm with rfl | rfl <;> rcases hv with rfl | rfl <;> rcases hh with rfl | rfl <;>
    exact key _ _ _ (by decide) (by decide) (by decide) (by decide) (by decide) (by decide)
      (by decide +kernel) (by decide +kernel)

/-- delivered byte by byte -/
def slowly (b : Bytes) : Sock := ⟨b.map fun x => [x], .silent⟩

theorem slowly_bytes (b : Bytes) : (slowly b).bytes = b := by
  unfold slowly Sock.bytes
  induction b with
  | nil => rfl
  | cons x b ih => simpa using ih

example := C32_refused_bytes empty () (q c!"GET" c!"1.1" c!"A") (good _ _ _ (by decide) (by decide) (by decide))
  (slowly _) (slowly_bytes _) (fun _ _ => rfl) (by decide) rfl (by decide +kernel) (by simp [empty])

example := C33_unknown_method_bytes empty () (q c!"BREW" c!"1.0" c!"A")
  (good _ _ _ (by decide) (by decide) (by decide)) (slowly _) (slowly_bytes _) (fun _ _ => rfl) (by decide)
  (by decide +kernel) (by decide) (by simp [empty])

/-- the handler echoes the body -/
def echo : Closure (Unit × Response) := fun mr st =>
  (st.2.send Unicode.asciiOnly 0 mr.request.body).bind fun r => .ok (((), r), .stop)

def calls : List (Call (Unit × Response)) :=
  [.route .post c!"/b" echo, .route .get c!"/:x" echo, .add echo]

example : ∃ sv : Server Unit, ∃ bytes v, sv.serve () (slowly (q c!"GET" c!"1.1" c!"hOsT").bytes) = .ok ((), bytes) ∧
    ClientParses bytes v ∧ v.code = c!"200" ∧ v.body = [104, 105] := by
  obtain ⟨router, hr, -⟩ := C12_run_is_replay calls (by simp [calls, FairL, Fair]) (by decide +kernel)
  let sv := { empty with router }
  obtain ⟨req, bytes, v, -, -, -, h4, h5, h6, h7, -, -, h8, -⟩ := C54_served sv calls
    (by simp [calls, FairL, Fair]) (by decide +kernel) hr
    (q c!"GET" c!"1.1" c!"hOsT") (good _ _ _ (by decide) (by decide) (by decide)) (slowly _) (slowly_bytes _)
    (fun _ _ => rfl) (by decide) .get (by decide +kernel)
    (fun _ => ⟨(c!"hOsT", c!"x"), by decide, by decide +kernel⟩)
    [⟨.on .post [c!"b"], echo⟩] [⟨.everywhere, echo⟩] ⟨.on .get [c!":x"], echo⟩
    (by
      have e1 : Path.parse c!"/b" = some [c!"b"] := by decide +kernel
      have e2 : Path.parse c!"/:x" = some [c!":x"] := by decide +kernel
      simp [calls, logOfL, logOf, Verb.target, Verb.method, e1, e2])
    (by
      intro x hx
      simp only [List.mem_singleton] at hx
      subst hx
      simp [Target.applies])
    (show Target.applies true (.on .get [c!":x"]) .get (resolve [[], c!"a", c!"..", c!"b"]) = true by
      decide +kernel) () () (by simp [sv, empty]) (fun mr => mr.request.body) (fun mr => rfl)
  exact ⟨sv, bytes, v, h5, h6, h7, h8.trans h4⟩

end ServerExample

open ServerExample in
/-- the hypotheses of `C52_handled_partial`, `C32_passes` and `C35_one_response` are met -/
example := C52_handled_partial .default (fun _ => true) (q c!"GET" c!"1.1" c!"hOsT")
  (good _ _ _ (by decide) (by decide) (by decide)).1 (slowly _) (slowly_bytes _) (fun _ _ => rfl) (by decide)
  (fun _ => (good _ _ _ (by decide) (by decide) (by decide)).2)

example := C32_passes empty () (sends c!"HEAD /a HTTP/1.0\r\nA: b\r\n\r\n") _ C56_reads (.inl (by decide))
  (fun _ => Int.le_refl 0)

example (out : Bytes) (h : empty.serve () (sends c!"garbage") = .ok ((), out)) := C35_one_response empty () () _ out h

end Octane
