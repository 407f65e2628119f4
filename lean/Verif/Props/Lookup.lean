import Verif.Props.Server
import Verif.Spec.Quoted
/-
C72 – C74: header names, the framing of the body, and persistence, compared with RFC 7230.
-/
namespace Octane
open Spec
variable {W : Type u}

/-! ### C72: header names are case-insensitive -/

/-- The full claim of C72: a header is found under every spelling of its name. -/
def C72_statement : Prop :=
  ∀ (feat : Features) (allocOk : Nat → Bool) (s : Sock) (req : Request), Reads feat allocOk s req →
    ∀ k, req.headers.get k = joined (req.headers.raw.map hpair) (lowered k)

/-- What holds of C72: it is found under the lower-case spelling, whatever spelling the client used.
Missing: lookups with upper-case letters, see `C72_upper_never`. -/
theorem C72_lower_partial (feat : Features) (allocOk : Nat → Bool) (s : Sock) (req : Request)
    (h : Reads feat allocOk s req) (k : Str) (hk : ∀ c ∈ k, ¬ isUpper c) :
    req.headers.get k = joined (req.headers.raw.map hpair) (lowered k) := by
  have : lowered k = k := by
    unfold lowered
    calc k.map small = k.map id := List.map_congr_left fun c hc => by simp [small, hk c hc]
      _ = k := by simp
  rw [this, h.facts.1.2]

theorem small_not_upper (c : Char) : ¬ isUpper (small c) := by
  unfold small
  split
  · rename_i h
    simp only [isUpper, Char.le_def, UInt32.le_iff_toNat_le] at h ⊢
    have h1 : 'A'.val.toNat = 65 := rfl
    have h2 : 'Z'.val.toNat = 90 := rfl
    rw [h1, h2] at h ⊢
    have hv : (c.toNat + 32).isValidChar := .inl (by unfold Char.toNat; omega)
    have : (Char.ofNat (c.toNat + 32)).val.toNat = c.toNat + 32 := by rw [Char.ofNat, dif_pos hv]; rfl
    rw [this]
    unfold Char.toNat
    omega
  · assumption

/-- How far the failure goes: a lookup with an upper-case letter finds nothing, whatever was sent. -/
theorem C72_upper_never (feat : Features) (allocOk : Nat → Bool) (s : Sock) (req : Request)
    (h : Reads feat allocOk s req) (k : Str) (c : Char) (hc : c ∈ k) (hu : isUpper c) :
    req.headers.get k = none := by
  rw [h.facts.1.2, joined_none]
  rintro x - rfl
  obtain ⟨d, -, rfl⟩ := List.mem_map.1 hc
  exact small_not_upper d hu

/-- C72 is false of the code: `Host` is not found in a request with a `Host` header. -/
theorem C72_counterexample : ¬ C72_statement := by
  intro h
  have hr : Reads Features.default (fun _ => true) (sends c!"GET /a HTTP/1.1\r\nHost: b\r\n\r\n")
      ⟨⟨.get, [c!"a"], .http11⟩, ⟨[(c!"host", c!"b")], [⟨c!"Host", c!"b"⟩]⟩, [], []⟩ :=
    ⟨c!"Host: b", c!"GET /a HTTP/1.1", [], ⟨[], .eof⟩, ⟨[(c!"host", c!"b")], [⟨c!"Host", c!"b"⟩]⟩,
      ⟨.get, [c!"a"], .http11⟩, by rfl, by decide +kernel, by decide +kernel, by decide +kernel⟩
  have := h _ _ _ _ hr c!"Host"
  exact absurd this (by decide +kernel)

/-! ### C73: the transfer coding -/

/-- RFC 7230 section 4.1: a chunked body (without chunk extensions and trailers) and its content -/
inductive Spec.Chunked : Bytes → Bytes → Prop
  | last : Chunked (utf8 c!"0\r\n\r\n") []
  | chunk {size : Str} {data rest body : Bytes} : HexNumeral size data.length → data ≠ [] →
      Chunked rest body → Chunked (utf8 size ++ crlfB ++ data ++ crlfB ++ rest) (data ++ body)

/-- The full claim of C73: of a request with a chunked body the handlers see the content. -/
def C73_statement : Prop :=
  ∀ (feat : Features) (allocOk : Nat → Bool) (q : WireReq) (s : Sock) (chunks body : Bytes), q.Good →
    q.body = [] → (∀ h ∈ q.headers, lowered h.1 ≠ c!"content-length") →
    joined q.headers c!"transfer-encoding" = some c!"chunked" → Chunked chunks body →
    s.bytes = q.bytes ++ chunks → (∀ k, allocOk k = true) →
    ∀ req, Reads feat allocOk s req → req.body = body

/-- How far the failure goes: the handlers see an empty body, whatever follows the head. -/
theorem C73_ignored (feat : Features) (allocOk : Nat → Bool) (q : WireReq) (s : Sock) (after : Bytes)
    (hq : q.Good) (hb : q.body = []) (hs : s.bytes = q.bytes ++ after) :
    ∃ req, Reads feat allocOk s req ∧ req.requestLine.path = resolve q.pieces ∧ req.body = [] := by
  obtain ⟨hdrs, line, rem, reader, H, rl, e1, e3, e6, hbody, -, -, e9, -, -, e4, e5⟩ :=
    wire_parts feat (fun _ => true) q hq.toFramed s after hs (.inr hb) (fun _ _ => rfl) (by rw [hb]; decide)
  have hn : contentLength H = 0 := by
    have h1 := contentLength_declared H
    rw [funext e5] at h1
    have := DeclaredLength.unique h1 hq.length
    rw [this, hb]; rfl
  have hck : feat.cookies = true → ∀ v, H.get c!"cookie" = some v → CookieText v := by
    intro _ v hv; rw [e5] at hv; exact hq.cookies v hv
  obtain ⟨cs, hcs⟩ := (Request.parse_spec feat rl H []).1 hck
  refine ⟨⟨rl, H, [], cs⟩, ⟨_, _, rem, reader, H, rl, e1, e3, e6, ?_⟩, e9, rfl⟩
  unfold Request.fromRaw
  simp only [hn]
  show Io.ofRes (Request.parse feat rl H []) = _
  rw [hcs]; rfl

/-- What holds of C73: only the chunked encoding of nothing is understood. -/
theorem C73_empty_partial (feat : Features) (allocOk : Nat → Bool) (q : WireReq) (s : Sock)
    (chunks body : Bytes) (hq : q.Good) (hb : q.body = []) (hs : s.bytes = q.bytes ++ chunks)
    (req : Request) (hr : Reads feat allocOk s req) : req.body = body ↔ body = [] := by
  obtain ⟨req', h1, -, h2⟩ := C73_ignored feat allocOk q s chunks hq hb hs
  rw [hr.unique h1, h2]
  exact eq_comm

theorem Spec.Chunked.length {chunks body : Bytes} (h : Chunked chunks body) : body.length + 5 ≤ chunks.length := by
  induction h with
  | last => decide
  | chunk _ _ _ ih =>
    simp only [List.length_append]
    omega

/-- How far the failure goes, with a length as well: the length counts and the coding does not (RFC 7230,
3.3.3 has it the other way round). Whatever transfer coding is named, the handlers see the bytes as they
were sent; of a chunked body that is never the content. -/
theorem C73_length_wins (feat : Features) (allocOk : Nat → Bool) (q : WireReq) (s : Sock) (coding : Str)
    (hq : q.Good) (_ : joined q.headers c!"transfer-encoding" = some coding) (hs : s.bytes = q.bytes)
    (halloc : ∀ k ≤ q.body.length, allocOk k = true) (hmax : q.body.length ≤ i64Max) :
    ∃ req, Reads feat allocOk s req ∧ req.body = q.body ∧
      ∀ content, Chunked q.body content → req.body ≠ content := by
  obtain ⟨req, h1, -, -, -, -, -, -, -, h2, -⟩ := reads_wire feat allocOk q hq s [] (by simpa using hs) (.inl rfl)
    halloc hmax
  refine ⟨req, h1, h2, fun content hc he => ?_⟩
  have := hc.length
  rw [← he, h2] at this
  omega

namespace LookupExample

/-- a request with a transfer coding -/
def q : WireReq := ⟨c!"POST", [[], c!"a"], c!"1.1", [(c!"Host", c!"b"), (c!"Transfer-Encoding", c!"chunked")], []⟩

theorem good : q.Good := by
  refine ⟨⟨by decide, ⟨by decide, by decide⟩, ?_, by decide, ⟨by decide, ?_⟩, ?_⟩, ?_⟩
  · show ¬ Climbs [[], c!"a"]
    rw [← (C02_dotdot_rule [[], c!"a"] (by decide) (by decide)).1]; decide +kernel
  · intro h hm
    simp only [q, List.mem_cons, List.not_mem_nil, or_false] at hm
    rcases hm with rfl | rfl <;> exact ⟨by decide, by decide, by decide, by decide⟩
  · refine .inr ⟨rfl, fun v m hv => ?_⟩
    have : joined q.headers c!"content-length" = none := (joined_none _ _).2 (by decide +kernel)
    rw [this] at hv; simp at hv
  · intro v hv
    have : joined q.headers c!"cookie" = none := (joined_none _ _).2 (by decide +kernel)
    rw [this] at hv; simp at hv

theorem chunked : Chunked (utf8 c!"2\r\nhi\r\n0\r\n\r\n") (utf8 c!"hi") :=
  .chunk (size := c!"2") (data := utf8 c!"hi") (.one (.inl (by decide))) (by decide) .last

/-- a request with a transfer coding and a length -/
def q2 : WireReq := ⟨c!"POST", [[], c!"a"], c!"1.1", [(c!"Host", c!"b"), (c!"Transfer-Encoding", c!"chunked"),
  (c!"Content-Length", c!"12")], utf8 c!"2\r\nhi\r\n0\r\n\r\n"⟩

theorem good2 : q2.Good := by
  refine ⟨⟨by decide, ⟨by decide, by decide⟩, ?_, by decide, ⟨by decide, ?_⟩, ?_⟩, ?_⟩
  · show ¬ Climbs [[], c!"a"]
    rw [← (C02_dotdot_rule [[], c!"a"] (by decide) (by decide)).1]; decide +kernel
  · intro h hm
    simp only [q2, List.mem_cons, List.not_mem_nil, or_false] at hm
    rcases hm with rfl | rfl | rfl <;> exact ⟨by decide, by decide, by decide, by decide⟩
  · exact .inl ⟨c!"12", by decide +kernel, (parseU64_iff _ _).1 (by decide +kernel)⟩
  · intro v hv
    have : joined q2.headers c!"cookie" = none := (joined_none _ _).2 (by decide +kernel)
    rw [this] at hv; simp at hv

example : ∃ req, Reads .default (fun _ => true) ⟨[q2.bytes], .eof⟩ req ∧ req.body = utf8 c!"2\r\nhi\r\n0\r\n\r\n" := by
  obtain ⟨req, h1, h2, -⟩ := C73_length_wins .default (fun _ => true) q2 ⟨[q2.bytes], .eof⟩ c!"chunked" good2
    (by decide +kernel) (by simp [Sock.bytes]) (fun _ _ => rfl) (by decide)
  exact ⟨req, h1, h2⟩

end LookupExample

open LookupExample in
/-- C73 is false of the code: the content `hi`, sent chunked, arrives as nothing. -/
theorem C73_counterexample : ¬ C73_statement := by
  intro h
  let s : Sock := ⟨[q.bytes ++ utf8 c!"2\r\nhi\r\n0\r\n\r\n"], .eof⟩
  have hs : s.bytes = q.bytes ++ utf8 c!"2\r\nhi\r\n0\r\n\r\n" := by simp [s, Sock.bytes]
  obtain ⟨req, h1, -, h2⟩ := C73_ignored .default (fun _ => true) q s _ good rfl hs
  have := h .default (fun _ => true) q s _ _ good rfl (by decide +kernel) (by decide +kernel) chunked hs
    (fun _ => rfl) req h1
  rw [h2] at this
  exact absurd this (by decide)

/-! ### C74: persistence -/

/-- `opt` is one of the comma-separated options of a `Connection` header, up to case -/
def Spec.ConnOption (v opt : Str) : Prop :=
  ∃ ps, v = [','].intercalate ps ∧ (∀ p ∈ ps, ',' ∉ p) ∧ ∃ p ∈ ps, ∃ t, Trimmed p t ∧ lowered t = opt

/-- RFC 7230 section 6.3: may the connection be used for another request? -/
def Spec.Persistent (version : HttpVersion) (connection : Option Str) : Prop :=
  (∀ v, connection = some v → ¬ ConnOption v c!"close") ∧
    (version = .http11 ∨ version = .http10 ∧ ∃ v, connection = some v ∧ ConnOption v c!"keep-alive")

/-- The full claim of C74: for a request that passes the check, the keep-alive state is what RFC 7230
says. -/
def C74_statement : Prop :=
  ∀ (req : Request) (h : Http), Http.validate req = .ok h → h.isMalformed = false →
    (h.isKeepAlive = true ↔ Persistent req.requestLine.version (req.headers.get c!"connection"))

/-- What the keep-alive state says: exactly the value `keep-alive`, in HTTP/1.0 together with a
Keep-Alive header. -/
theorem C74_exact (req : Request) (h : Http) (hv : Http.validate req = .ok h) :
    h.isKeepAlive = true ↔ req.headers.get c!"connection" = some c!"keep-alive" ∧
      (req.requestLine.version = .http11 ∨
        req.requestLine.version = .http10 ∧ req.headers.get c!"keep-alive" ≠ none) := by
  unfold Http.validate at hv
  cases hver : req.requestLine.version with
  | http11 =>
    rw [hver] at hv
    simp only [Res.ok.injEq] at hv
    subst hv
    unfold Http.http11Check Http.isKeepAlive
    cases hc : req.headers.get c!"connection" with
    | none => cases hh : req.headers.get c!"host" <;> simp
    | some t =>
      by_cases h1 : t = c!"keep-alive"
      · simp [h1]
      · cases hh : req.headers.get c!"host" <;> by_cases h2 : t = c!"close" <;> simp [h1, h2]
  | http10 =>
    rw [hver] at hv
    simp only at hv
    unfold Http.http10Check at hv
    cases hc : req.headers.get c!"connection" with
    | none =>
      rw [hc] at hv
      simp only [Res.ok.injEq] at hv
      subst hv; simp [Http.isKeepAlive]
    | some t =>
      rw [hc] at hv
      simp only at hv
      by_cases h1 : t = c!"keep-alive"
      · rw [if_pos h1] at hv
        cases hk : req.headers.get c!"keep-alive" with
        | none =>
          rw [hk] at hv
          simp only [Res.ok.injEq] at hv
          subst hv; simp [Http.isKeepAlive]
        | some k =>
          rw [hk] at hv
          obtain ⟨ka, hka⟩ := KeepAlive.parse_ok k
          simp only [hka, Res.bind_ok', Res.ok.injEq] at hv
          subst hv; simp [Http.isKeepAlive, h1]
      · rw [if_neg h1] at hv
        by_cases h2 : t = c!"close"
        · rw [if_pos h2] at hv
          simp only [Res.ok.injEq] at hv
          subst hv; simp [Http.isKeepAlive, h1]
        · rw [if_neg h2] at hv
          simp only [Res.ok.injEq] at hv
          subst hv; simp [Http.isKeepAlive, h1]
  | http02 => rw [hver] at hv; simp only [Res.ok.injEq] at hv; subst hv; simp [Http.isKeepAlive]
  | http09 => rw [hver] at hv; simp only [Res.ok.injEq] at hv; subst hv; simp [Http.isKeepAlive]
  | httpInvalid => rw [hver] at hv; simp only [Res.ok.injEq] at hv; subst hv; simp [Http.isKeepAlive]

theorem connOption_single {v opt : Str} (hv : ',' ∉ v) (ht : Trimmed v v) :
    ConnOption v opt ↔ lowered v = opt := by
  constructor
  · rintro ⟨ps, rfl, h1, p, hp, t, h2, rfl⟩
    have hsp := splitChar_join (c := ',') (ps := ps) (by rintro rfl; simp at hp) h1
    rw [splitChar_of_not_mem hv] at hsp
    rw [← hsp, List.mem_singleton] at hp
    subst hp
    rw [← (trimmed_iff _ _).1 h2, (trimmed_iff _ _).1 ht]
  · rintro rfl
    exact ⟨[v], by simp [List.intercalate], by simpa using hv, v, by simp, v, ht, rfl⟩

/-- `timeout` of a `Keep-Alive` header value, and 0 without one. -/
def Spec.TimeoutOf (v : Str) (n : Nat) : Prop :=
  ∃ entries, entries ≠ [] ∧ (∀ e ∈ entries, ',' ∉ e) ∧ v = [','].intercalate entries ∧
    (LastParam entries c!"timeout" n ∨ n = 0 ∧ ∀ m, ¬ LastParam entries c!"timeout" m)

/-- Exactly what the check decides. It never fails. HTTP/1.1 with the header `Connection: keep-alive`,
literally, is kept for the time the server is set up with; HTTP/1.0 with that header and a `Keep-Alive`
header for the time given there; everything else is closed. -/
theorem C74_state (req : Request) :
    ∃ h, Http.validate req = .ok h ∧
      (h.keepAlive = .userDefined ↔
        req.requestLine.version = .http11 ∧ req.headers.get c!"connection" = some c!"keep-alive") ∧
      (∀ n, h.keepAlive = .particular n ↔
        req.requestLine.version = .http10 ∧ req.headers.get c!"connection" = some c!"keep-alive" ∧
          ∃ v, req.headers.get c!"keep-alive" = some v ∧ TimeoutOf v n) ∧
      (h.isKeepAlive = true ↔ h.keepAlive ≠ .close) := by
  have hka : ∀ h : Http, h.isKeepAlive = true ↔ h.keepAlive ≠ .close := by
    intro h; simp [Http.isKeepAlive]
  unfold Http.validate
  cases hv : req.requestLine.version with
  | http11 =>
    refine ⟨_, rfl, ?_, ?_, hka _⟩
    all_goals
      unfold Http.http11Check
      cases hc : req.headers.get c!"connection" with
      | none => cases hh : req.headers.get c!"host" <;> simp
      | some t =>
        by_cases h1 : t = c!"keep-alive"
        · cases hh : req.headers.get c!"host" <;> simp [h1]
        · by_cases h2 : t = c!"close" <;> cases hh : req.headers.get c!"host" <;> simp [h1, h2]
  | http10 =>
    simp only
    unfold Http.http10Check
    cases hc : req.headers.get c!"connection" with
    | none => exact ⟨_, rfl, by simp, by simp, hka _⟩
    | some t =>
      simp only
      by_cases h1 : t = c!"keep-alive"
      · rw [if_pos h1]
        cases hk : req.headers.get c!"keep-alive" with
        | none => exact ⟨_, rfl, by simp, by simp, hka _⟩
        | some k =>
          have hj := splitChar_intercalate ',' k
          obtain ⟨ka, e1, e2, -⟩ := C31_keep_alive (splitChar ',' k) (splitChar_ne_nil _ _)
            (splitChar_not_mem _ _)
          rw [hj] at e1
          refine ⟨_, by simp only [e1, Res.bind_ok']; rfl, by simp, ?_, hka _⟩
          intro n
          simp only [KeepAliveState.particular.injEq, Option.some.injEq, true_and, h1]
          constructor
          · intro hn
            refine ⟨k, rfl, _, splitChar_ne_nil _ _, splitChar_not_mem _ _, hj.symm, ?_⟩
            cases ht : ka.timeout with
            | none =>
              rw [ht] at hn
              refine .inr ⟨hn.symm, fun m hm => ?_⟩
              rw [← e2, ht] at hm; simp at hm
            | some m =>
              rw [ht] at hn
              simp only [Option.getD_some] at hn
              subst hn
              exact .inl ((e2 _).1 ht)
          · rintro ⟨v, rfl, entries, g1, g2, g3, g4⟩
            have : splitChar ',' k = entries := by rw [g3]; exact splitChar_join g1 g2
            rw [this] at e2
            rcases g4 with g4 | ⟨rfl, g4⟩
            · rw [(e2 n).2 g4]; rfl
            · cases ht : ka.timeout with
              | none => rfl
              | some m => exact absurd ((e2 m).1 ht) (g4 m)
      · by_cases h2 : t = c!"close" <;> exact ⟨_, by simp only [h1, h2, if_true, if_false]; rfl, by simp, by simp [h1], hka _⟩
  | http02 => exact ⟨_, rfl, by simp, by simp, hka _⟩
  | http09 => exact ⟨_, rfl, by simp, by simp, hka _⟩
  | httpInvalid => exact ⟨_, rfl, by simp, by simp, hka _⟩

/-- a request for `/` with these headers -/
def keepAliveReq (version : HttpVersion) (headers : List (Str × Str)) : Request :=
  ⟨⟨.get, [], version⟩, ⟨headers, []⟩, [], []⟩

/-- both outcomes occur: kept for 7 seconds, kept, closed -/
example : (Http.validate (keepAliveReq .http10
    [(c!"connection", c!"keep-alive"), (c!"keep-alive", c!"max=3, timeout=7")])) =
    .ok ⟨none, .particular 7⟩ := by decide +kernel
example : (Http.validate (keepAliveReq .http11 [(c!"connection", c!"keep-alive"), (c!"host", c!"a")])) =
    .ok ⟨none, .userDefined⟩ := by decide +kernel
example : (Http.validate (keepAliveReq .http11 [(c!"connection", c!"Keep-Alive"), (c!"host", c!"a")])) =
    .ok ⟨none, .close⟩ := by decide +kernel

/-- What holds of C74: a connection is never said to persist that must not. Missing: the connections
that should persist but are said to close, see `C74_counterexample`. -/
theorem C74_sound_partial (req : Request) (h : Http) (hv : Http.validate req = .ok h)
    (hk : h.isKeepAlive = true) :
    Persistent req.requestLine.version (req.headers.get c!"connection") := by
  obtain ⟨h1, h2⟩ := (C74_exact req h hv).1 hk
  have hcomma : ',' ∉ c!"keep-alive" := by decide
  have htrim : Trimmed c!"keep-alive" c!"keep-alive" := (trimmed_iff _ _).2 (by decide)
  rw [h1]
  refine ⟨?_, ?_⟩
  · intro v hv
    cases hv
    rw [connOption_single hcomma htrim]
    decide
  · rcases h2 with h2 | h2
    · exact .inl h2
    · exact .inr ⟨h2.1, _, rfl, (connOption_single hcomma htrim).2 (by decide)⟩

/-- C74 is false of the code: a plain HTTP/1.1 request without Connection header, and one with
`Connection: Keep-Alive`, count as not persistent. -/
theorem C74_counterexample : ¬ C74_statement ∧
    ∀ c ∈ [none, some c!"Keep-Alive", some c!"keep-alive, upgrade"],
      ∃ (req : Request) (h : Http), req.headers.get c!"connection" = c ∧ Http.validate req = .ok h ∧
        h.isMalformed = false ∧ h.isKeepAlive = false ∧
        Persistent req.requestLine.version (req.headers.get c!"connection") := by
  have key : ∀ c ∈ [none, some c!"Keep-Alive", some c!"keep-alive, upgrade"],
      ∃ (req : Request) (h : Http), req.headers.get c!"connection" = c ∧ Http.validate req = .ok h ∧
        h.isMalformed = false ∧ h.isKeepAlive = false ∧
        Persistent req.requestLine.version (req.headers.get c!"connection") := by
    intro c hc
    simp only [List.mem_cons, List.not_mem_nil, or_false] at hc
    rcases hc with rfl | rfl | rfl
    · refine ⟨⟨⟨.get, [], .http11⟩, ⟨[(c!"host", c!"b")], []⟩, [], []⟩, ⟨none, .close⟩, rfl, rfl, rfl, rfl,
        ?_, .inl rfl⟩
      intro v hv; cases hv
    · refine ⟨⟨⟨.get, [], .http11⟩, ⟨[(c!"host", c!"b"), (c!"connection", c!"Keep-Alive")], []⟩, [], []⟩,
        ⟨none, .close⟩, by decide, by decide +kernel, rfl, rfl, ?_, .inl rfl⟩
      have : Headers.get ⟨[(c!"host", c!"b"), (c!"connection", c!"Keep-Alive")], []⟩ c!"connection" =
        some c!"Keep-Alive" := by decide
      simp only [this]
      intro v hv
      cases hv
      rw [connOption_single (by decide) ((trimmed_iff _ _).2 (by decide))]
      decide
    · refine ⟨⟨⟨.get, [], .http11⟩, ⟨[(c!"host", c!"b"), (c!"connection", c!"keep-alive, upgrade")], []⟩, [], []⟩,
        ⟨none, .close⟩, by decide, by decide +kernel, rfl, rfl, ?_, .inl rfl⟩
      have : Headers.get ⟨[(c!"host", c!"b"), (c!"connection", c!"keep-alive, upgrade")], []⟩ c!"connection" =
        some c!"keep-alive, upgrade" := by decide
      simp only [this]
      intro v hv
      cases hv
      rintro ⟨ps, he, h1, p, hp, t, h2, h3⟩
      have hsp := splitChar_join (c := ',') (ps := ps) (by rintro rfl; simp at hp) h1
      rw [← he] at hsp
      have : ∀ p ∈ splitChar ',' c!"keep-alive, upgrade", lowered (trim p) ≠ c!"close" := by decide
      rw [hsp] at this
      exact this p hp ((trimmed_iff _ _).1 h2 ▸ h3)
  refine ⟨fun h => ?_, key⟩
  obtain ⟨req, h', -, h1, h2, h3, h4⟩ := key none (by simp)
  rw [(h req h' h1 h2).2 h4] at h3
  simp at h3

open LookupExample in
/-- The request that came in chunks: its host is found under the lower-case name. -/
example : ∃ req, Reads .default (fun _ => true) ⟨[q.bytes ++ utf8 c!"2\r\nhi\r\n0\r\n\r\n"], .eof⟩ req ∧
    (∀ body, req.body = body ↔ body = []) ∧
    req.headers.get c!"host" = joined (req.headers.raw.map hpair) c!"host" := by
  have hs : (⟨[q.bytes ++ utf8 c!"2\r\nhi\r\n0\r\n\r\n"], .eof⟩ : Sock).bytes = q.bytes ++ utf8 c!"2\r\nhi\r\n0\r\n\r\n" := by
    simp [Sock.bytes]
  obtain ⟨req, h1, -, -⟩ := C73_ignored .default (fun _ => true) q _ _ good rfl hs
  refine ⟨req, h1, fun body => C73_empty_partial _ _ q _ _ body good rfl hs req h1, ?_⟩
  rw [C72_lower_partial _ _ _ req h1 c!"host" (by decide)]
  rfl

example := C74_sound_partial (keepAliveReq .http10
  [(c!"connection", c!"keep-alive"), (c!"keep-alive", c!"max=3, timeout=7")]) ⟨none, .particular 7⟩
  (by decide +kernel) rfl

end Octane
