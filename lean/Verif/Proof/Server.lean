import Verif.Proof.Cookie
import Verif.Props.Request
import Verif.Props.Path
import Verif.Props.Response
import Verif.Model.Server
/-
Helper lemmas about `Octane::serve`.
-/
namespace Octane
open Spec
variable {W : Type u}

/-- The request the server reads from a connection: all of `src/server.rs:172-186` succeeds. The parts
are characterised by C25 – C29. -/
def Reads (feat : Features) (allocOk : Nat → Bool) (s : Sock) (req : Request) : Prop :=
  ∃ hdrs line rem reader H rl, readHead s = .ok (.head hdrs line rem reader) ∧
    Headers.parse feat.faithful hdrs = .ok (some H) ∧
    RequestLine.parse feat.faithful line = .ok (some rl) ∧
    Request.fromRaw feat allocOk H rl rem reader = .ok (some req)

theorem serve_reads {sv : Server W} {s : Sock} {req : Request} (h : Reads sv.feat sv.allocOk s req)
    (w : W) : sv.serve w s = Io.ofRes (sv.handle w req) := by
  obtain ⟨hdrs, line, rem, reader, H, rl, h1, h2, h3, h4⟩ := h
  unfold Server.serve
  simp only [h1, Io.bind_ok, h2, Res.bind_ok', Res.unwrap_some, Io.ofRes_ok, h3, h4]

theorem Reads.unique {feat : Features} {allocOk : Nat → Bool} {s : Sock} {r r' : Request}
    (h : Reads feat allocOk s r) (h' : Reads feat allocOk s r') : r = r' := by
  obtain ⟨hdrs, line, rem, reader, H, rl, h1, h2, h3, h4⟩ := h
  obtain ⟨hdrs', line', rem', reader', H', rl', h1', h2', h3', h4'⟩ := h'
  rw [h1] at h1'
  simp only [Io.ok.injEq, HeadOut.head.injEq] at h1'
  obtain ⟨rfl, rfl, rfl, rfl⟩ := h1'
  rw [h2] at h2'
  simp only [Res.ok.injEq, Option.some.injEq] at h2'
  subst h2'
  rw [h3] at h3'
  simp only [Res.ok.injEq, Option.some.injEq] at h3'
  subst h3'
  rw [h4] at h4'
  simpa using h4'

/-! ### parsing the parts -/

theorem Headers.parse_some {faithful : Bool} {block : Str} {H : Headers}
    (h : Headers.parse faithful block = .ok (some H)) :
    BlockOk faithful block (H.raw.map hpair) ∧ H.Ok := by
  obtain ⟨lines, h1, rfl, h3⟩ := exists_lines block
  have hh := C27_header_map faithful lines h1 h3 H h
  rw [Headers.parse_lines faithful lines h1 h3, Res.ok.injEq] at h
  obtain ⟨h4, -⟩ := (parseLoop_spec faithful lines _ Headers.Ok.nil).1 H h
  refine ⟨⟨lines, h1, rfl, h3, by simpa using hh.1, ?_⟩, h4⟩
  intro i line n v hl hv
  rw [List.getElem?_map] at hv
  cases hr : H.raw[i]? with
  | none => rw [hr] at hv; simp at hv
  | some hd =>
    rw [hr] at hv
    simp only [Option.map_some, Option.some.injEq, hpair, Prod.mk.injEq] at hv
    obtain ⟨rfl, rfl⟩ := hv
    exact hh.2.1 i line hd hl hr

theorem Headers.parse_block {faithful : Bool} {block : Str} {hs : List (Str × Str)}
    (h : BlockOk faithful block hs) :
    ∃ H, Headers.parse faithful block = .ok (some H) ∧ H.raw.map hpair = hs ∧
      ∀ k, H.get k = joined hs k := by
  obtain ⟨lines, h1, rfl, h3, h4, h5⟩ := h
  obtain ⟨H, e1, e2⟩ := C27_accepts faithful lines h1 h3 (hs.map fun h => ⟨h.1, h.2⟩) (by simpa using h4)
    (by
      intro i line hd hl hh
      rw [List.getElem?_map] at hh
      cases hr : hs[i]? with
      | none => rw [hr] at hh; simp at hh
      | some nv =>
        obtain ⟨n, v⟩ := nv
        rw [hr] at hh
        simp only [Option.map_some, Option.some.injEq] at hh
        subst hh
        exact h5 i line n v hl hr)
  have e3 : H.raw.map hpair = hs := by rw [e2]; simp [hpair, Function.comp_def]
  refine ⟨H, e1, e3, ?_⟩
  have := (Headers.parse_some e1).2.2
  rw [e3] at this
  exact this

theorem Headers.parse_cases (faithful : Bool) (block : Str) :
    (∃ H, Headers.parse faithful block = .ok (some H)) ∨ Headers.parse faithful block = .ok none := by
  obtain ⟨o, ho⟩ := Headers.parse_ok faithful block
  cases o with
  | none => exact .inr ho
  | some H => exact .inl ⟨H, ho⟩

theorem RequestLine.parse_some_iff (faithful : Bool) (line : Str) :
    (∃ rl, RequestLine.parse faithful line = .ok (some rl)) ↔ LineOk faithful line := by
  constructor
  · rintro ⟨rl, h⟩
    have hsp := splitChar_intercalate ' ' line
    have hno := splitChar_not_mem ' ' line
    unfold RequestLine.parse at h
    revert h hsp hno
    generalize splitChar ' ' line = toks
    intro h hsp hno
    match toks, h with
    | [], h => simp at h
    | [_], h => simp at h
    | m :: p :: toks, h =>
      simp only at h
      cases hp : Path.parse p with
      | none => rw [hp] at h; simp at h
      | some path =>
        rw [hp] at h
        cases toks with
        | nil => simp at h
        | cons version rest =>
          simp only at h
          cases hs : splitAtByte 5 version with
          | panic => rw [hs] at h; simp at h
          | ok x =>
            obtain ⟨first, ver⟩ := x
            rw [hs] at h
            simp only [Res.bind_ok'] at h
            split at h
            · simp at h
            · rename_i hcond
              obtain ⟨e1, e2⟩ := splitAtByte_ok hs
              subst e1
              refine ⟨m, splitChar '/' p, first, ver, rest, ?_, ?_, splitChar_ne_nil _ _,
                splitChar_not_mem _ _, ?_, e2, ?_⟩
              · rw [splitChar_intercalate, hsp]
              · rw [splitChar_intercalate]; exact hno
              · unfold Path.parse at hp
                intro hcl
                have := Path.parseLoop_none [] (splitChar '/' p)
                rw [hp] at this
                have h2 := this.2 (by simpa [Climbs] using hcl)
                simp at h2
              · intro hf
                simp only [hf, true_and, not_or, Classical.not_not] at hcond
                exact hcond
  · rintro ⟨m, pieces, first, ver, more, rfl, hno, hne, hsl, hcl, h5, hf⟩
    unfold RequestLine.parse
    rw [splitChar_join (by simp) hno]
    simp only
    have hp : Path.parse (['/'].intercalate pieces) = some (resolve pieces) := (C02_dotdot_rule pieces hne hsl).2 hcl
    rw [hp]
    have := splitAtByte_append first ver
    rw [h5] at this
    simp only [this, Res.bind_ok']
    rw [if_neg]
    · exact ⟨_, rfl⟩
    · rintro ⟨h1, h2⟩
      obtain ⟨h3, h4⟩ := hf h1
      rcases h2 with h2 | h2
      · exact h2 h3
      · exact h2 h4

/-- the outcome of reading the body when the peer has closed -/
theorem fromRaw_outcome (feat : Features) (allocOk : Nat → Bool) (headers : Headers)
    (rl : RequestLine) (rem : Bytes) (reader : Sock) (n : Nat) (hn : DeclaredLength headers.get n)
    (halloc : ∀ k, allocOk k = true) (hfin : reader.fin ≠ .silent)
    (hlen : (rem ++ reader.bytes).length ≤ i64Max) :
    (n ≤ (rem ++ reader.bytes).length → ∃ body,
      Request.fromRaw feat allocOk headers rl rem reader = .ofRes (Request.parse feat rl headers body)) ∧
    ((rem ++ reader.bytes).length < n → Request.fromRaw feat allocOk headers rl rem reader = .panic) := by
  constructor
  · intro h
    rcases Nat.lt_or_ge n rem.length with hr | hr
    · rcases Nat.eq_zero_or_pos n with h0 | h0
      · subst h0
        have hn' : contentLength headers = 0 := DeclaredLength.unique (contentLength_declared headers) hn
        refine ⟨[], ?_⟩
        unfold Request.fromRaw
        simp only [hn']
        rfl
      · exact ⟨rem, C26_body_overrun feat allocOk headers rl rem reader n hn h0 (by omega)⟩
    · exact ⟨_, C26_body_read feat allocOk headers rl rem reader n hn (by omega) (fun k _ => halloc k) hr h⟩
  · intro h
    have hn' : contentLength headers = n := DeclaredLength.unique (contentLength_declared headers) hn
    simp only [List.length_append] at h
    unfold Request.fromRaw
    simp only [hn']
    rw [if_pos (by omega), if_pos (by omega)]
    split
    · rfl
    · rw [if_neg (by simp [halloc])]
      have := (readExact_spec (n - rem.length) reader).2 (by omega)
      rw [this]
      cases hf : reader.fin with
      | silent => exact absurd hf hfin
      | eof => rfl
      | error => rfl

theorem Request.parse_spec (feat : Features) (rl : RequestLine) (headers : Headers) (body : Bytes) :
    ((feat.cookies = true → ∀ v, headers.get c!"cookie" = some v → CookieText v) →
      ∃ cs, Request.parse feat rl headers body = .ok (some ⟨rl, headers, body, cs⟩)) ∧
    (¬ (feat.cookies = true → ∀ v, headers.get c!"cookie" = some v → CookieText v) →
      Request.parse feat rl headers body = .panic) := by
  unfold Request.parse
  cases hf : feat.cookies with
  | false => exact ⟨fun _ => ⟨[], by simp⟩, fun h => absurd (by simp) h⟩
  | true =>
    cases hc : headers.get c!"cookie" with
    | none => exact ⟨fun _ => ⟨[], by simp⟩, fun h => absurd (by simp) h⟩
    | some v =>
      simp only [if_true]
      constructor
      · intro h
        obtain ⟨cs, hcs⟩ := (Cookie.parse_ok v).2 (h trivial v rfl)
        exact ⟨cs, by rw [hcs]; rfl⟩
      · intro h
        have : ¬ CookieText v := fun hv => h (fun _ v' hv' => by simp at hv'; exact hv' ▸ hv)
        rw [← Cookie.parse_ok] at this
        cases hp : Cookie.parse v with
        | panic => rfl
        | ok cs => exact absurd ⟨cs, hp⟩ this

/-! ### the check of the request -/

theorem KeepAlive.parse_ok (s : Str) : ∃ k, KeepAlive.parse s = .ok k := by
  obtain ⟨k, h, -⟩ := KeepAlive.loop_spec (splitChar ',' s) ⟨none, none⟩
  exact ⟨k, h⟩

/-- the check reports an error exactly for HTTP/1.1 without Host, and the error is 400 -/
theorem validate_spec (req : Request) :
    ∃ h, Http.validate req = .ok h ∧
      h.errCode = if req.requestLine.version = .http11 ∧ req.headers.get c!"host" = none
        then some .badRequest else none := by
  unfold Http.validate
  cases hv : req.requestLine.version with
  | http11 =>
    refine ⟨_, rfl, ?_⟩
    unfold Http.http11Check
    cases hh : req.headers.get c!"host" <;> cases hc : req.headers.get c!"connection" <;> simp
    all_goals split
    all_goals first | rfl | (split <;> rfl)
  | http10 =>
    simp only
    unfold Http.http10Check
    cases hc : req.headers.get c!"connection" with
    | none => exact ⟨_, rfl, by simp⟩
    | some t =>
      simp only
      split
      · cases hk : req.headers.get c!"keep-alive" with
        | none => exact ⟨_, rfl, by simp⟩
        | some k =>
          obtain ⟨ka, hka⟩ := KeepAlive.parse_ok k
          simp only [hka, Res.bind_ok']
          exact ⟨_, rfl, by simp⟩
      · split
        · exact ⟨_, rfl, by simp⟩
        · exact ⟨_, rfl, by simp⟩
  | http02 => exact ⟨_, rfl, by simp⟩
  | http09 => exact ⟨_, rfl, by simp⟩
  | httpInvalid => exact ⟨_, rfl, by simp⟩

/-- what is done with a request, without the intermediate values -/
theorem handle_spec (sv : Server W) (w : W) (req : Request) :
    sv.handle w req =
      if req.requestLine.version = .http11 ∧ req.headers.get c!"host" = none then
        sv.declareError w .badRequest
      else if req.requestLine.method = .none then sv.declareError w .notImplemented
      else (Router.run sv.feat.urlVariables sv.router req (w, Response.newEmpty)).bind fun st =>
        if st.2.hasBody = false then sv.declareError st.1 .notFound
        else .ok (st.1, sendData (st.2.getData sv.U sv.feat.cookies sv.ord)) := by
  obtain ⟨h, h1, h2⟩ := validate_spec req
  unfold Server.handle
  rw [h1, Res.bind_ok']
  by_cases hm : req.requestLine.version = .http11 ∧ req.headers.get c!"host" = none
  · rw [if_pos hm] at h2 ⊢
    simp [Http.isMalformed, h2]
  · rw [if_neg hm] at h2 ⊢
    rw [if_neg (by simp [Http.isMalformed, h2])]
    have hs : req.requestLine.method.isSome = true ↔ req.requestLine.method ≠ .none := by
      cases req.requestLine.method <;> simp [RequestMethod.isSome]
    by_cases hn : req.requestLine.method = .none
    · rw [if_neg (by rw [hs]; simp [hn]), if_pos hn]
    · rw [if_pos (by rw [hs]; exact hn), if_neg hn]
      congr 1
      funext st
      obtain ⟨w', res⟩ := st
      cases h3 : res.hasBody <;> simp [h3]

/-- the error pages used by the server: written for a clock at or after 1970, and read by the client
with this code and reason -/
theorem declareError_ok (sv : Server W) (w : W) (i : Fin 61) (hc : 0 ≤ sv.clock w) :
    ∃ bytes v, sv.declareError w (.named i) = .ok (w, bytes) ∧ ClientParses bytes v ∧
      v.code = showInt (StatusCode.named i).code ∧ v.reason = asciiUpper (StatusCode.named i).toStr ∧
      v.body = utf8 notFoundPage ∧ ∀ v', ClientParses bytes v' → v' = v := by
  obtain ⟨bytes, v, h1, h2, -, h4, h5, -, -, -, -, -, h9, h10⟩ :=
    C55_error_pages sv.U sv.feat.cookies sv.ord (sv.clock w) i hc
  refine ⟨bytes, v, ?_, h2, h4.eq, by rw [h5, asciiUpper_eq], h9, h10⟩
  unfold Server.declareError
  rw [h1]; rfl

/-- the error page does not depend on the router -/
theorem declareError_router (sv : Server W) (router : Router (W × Response)) (w : W) (k : StatusCode) :
    { sv with router }.declareError w k = sv.declareError w k := rfl

end Octane
