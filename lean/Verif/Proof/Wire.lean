import Verif.Proof.Server
import Verif.Props.Router
/-
A well-formed request on the wire is read as written.
-/
namespace Octane
open Spec
variable {W : Type u}

theorem fromRaw_fields {feat : Features} {allocOk : Nat → Bool} {H : Headers} {rl : RequestLine}
    {rem : Bytes} {reader : Sock} {req : Request}
    (h : Request.fromRaw feat allocOk H rl rem reader = .ok (some req)) :
    req.requestLine = rl ∧ req.headers = H := by
  have key : ∀ b : Io Bytes, (b.bind fun body => Io.ofRes (Request.parse feat rl H body)) = .ok (some req) →
      req.requestLine = rl ∧ req.headers = H := by
    intro b hb
    cases b with
    | ok body =>
      simp only [Io.bind_ok] at hb
      rcases Classical.em (feat.cookies = true → ∀ v, H.get c!"cookie" = some v → CookieText v) with hc | hc
      · obtain ⟨cs, e⟩ := (Request.parse_spec feat rl H body).1 hc
        rw [e] at hb
        simp only [Io.ofRes_ok, Io.ok.injEq, Option.some.injEq] at hb
        subst hb; exact ⟨rfl, rfl⟩
      · rw [(Request.parse_spec feat rl H body).2 hc] at hb
        simp at hb
    | panic => simp at hb
    | pending => simp at hb
    | abort => simp at hb
  exact key _ h

theorem Reads.facts {feat : Features} {allocOk : Nat → Bool} {s : Sock} {req : Request}
    (h : Reads feat allocOk s req) : req.headers.Ok ∧ req.requestLine.method ≠ .all := by
  obtain ⟨hdrs, line, rem, reader, H, rl, h1, h2, h3, h4⟩ := h
  obtain ⟨e1, e2⟩ := fromRaw_fields h4
  rw [e1, e2]
  exact ⟨(Headers.parse_some h2).2, C12_parsed_method _ _ _ h3⟩

theorem joined_none (hs : List (Str × Str)) (k : Str) :
    joined hs k = none ↔ ∀ h ∈ hs, lowered h.1 ≠ k := by
  unfold joined
  constructor
  · intro h
    split at h
    · rename_i hn
      rw [List.map_eq_nil_iff, List.filter_eq_nil_iff] at hn
      simpa using hn
    · simp at h
  · intro h
    have : hs.filter (fun h => lowered h.1 = k) = [] := by
      rw [List.filter_eq_nil_iff]; simpa using h
    rw [this]; rfl

theorem firstSplit_of_not_mem {a b : Str} (h : '\r' ∉ a) : FirstSplit (a ++ crlf ++ b) crlf a b := by
  refine ⟨rfl, ?_⟩
  intro j hj ho
  have := occursAt_getElem ho 0 (by simp [crlf])
  simp only [Nat.add_zero, List.append_assoc] at this
  rw [List.getElem?_append_left hj] at this
  exact h (List.mem_of_getElem? (this.trans rfl))

theorem tchar_no {c : Char} (h : isTchar c) : c ≠ '\r' ∧ c ≠ ':' := by
  constructor <;> rintro rfl <;> revert h <;> decide

theorem Spec.WireReq.Framed.line_cr {q : WireReq} (hq : q.Framed) : '\r' ∉ q.line := by
  have h1 := hq.method.2
  have h2 := hq.version.2
  have h3 : '\r' ∉ ['/'].intercalate q.pieces := by
    have : ∀ ps : List Str, (∀ p ∈ ps, '\r' ∉ p) → '\r' ∉ ['/'].intercalate ps := by
      intro ps
      induction ps with
      | nil => simp [List.intercalate]
      | cons p ps ih =>
        intro h
        cases ps with
        | nil => simpa [List.intercalate] using h p (by simp)
        | cons p' ps =>
          rw [intercalate_cons_cons]
          have := ih (fun x hx => h x (List.mem_cons_of_mem _ hx))
          have hp := h p (by simp)
          simp [this, hp]
    exact this _ (fun p hp => (hq.pieces.2 p hp).2.2)
  unfold WireReq.line
  simp [h1, h2, h3]

theorem Spec.WireReq.Framed.header_cr {q : WireReq} (hq : q.Framed) {h : Str × Str} (hh : h ∈ q.headers) :
    '\r' ∉ wireHeader h ∧ wireHeader h ≠ [] := by
  obtain ⟨-, h2, h3, -⟩ := hq.headers.2 h hh
  have e1 : '\r' ∉ h.1 := fun hm => (tchar_no (h2 _ hm)).1 rfl
  have e2 : '\r' ∉ h.2 := fun hm => h3 _ hm (by decide)
  constructor
  · simp [wireHeader, e1, e2]
  · simp [wireHeader]

theorem Spec.WireReq.Framed.block {q : WireReq} (hq : q.Framed) (faithful : Bool) :
    BlockOk faithful (crlf.intercalate (q.headers.map wireHeader)) q.headers := by
  refine ⟨q.headers.map wireHeader, by simpa using hq.headers.1, rfl, ?_, by simp, ?_⟩
  · intro l hl
    obtain ⟨h, hh, rfl⟩ := List.mem_map.1 hl
    exact no_crlf_of_no_cr (hq.header_cr hh).1
  · intro i line n v hl hv
    rw [List.getElem?_map, hv] at hl
    simp only [Option.map_some, Option.some.injEq] at hl
    subst hl
    obtain ⟨h1, h2, h3, h4⟩ := hq.headers.2 (n, v) (List.mem_of_getElem? hv)
    refine ⟨[' '], by simp [wireHeader], h1, fun hm => (tchar_no (h2 _ hm)).2 rfl, by simp [isBlank], h4,
      fun _ => ⟨h2, h3⟩⟩

/-- the steps before the cookies are looked at; the header block is the one that was written -/
theorem wire_texts (feat : Features) (allocOk : Nat → Bool) (q : WireReq) (hq : q.Framed) (s : Sock)
    (extra : Bytes) (hb : s.bytes = q.bytes ++ extra) (hex : extra = [] ∨ q.body = [])
    (halloc : ∀ k ≤ q.body.length, allocOk k = true) (hmax : q.body.length ≤ i64Max) :
    ∃ rem reader H rl,
      readHead s = .ok (.head (crlf.intercalate (q.headers.map wireHeader)) q.line rem reader) ∧
      Headers.parse feat.faithful (crlf.intercalate (q.headers.map wireHeader)) = .ok (some H) ∧
      RequestLine.parse feat.faithful q.line = .ok (some rl) ∧
      Request.fromRaw feat allocOk H rl rem reader = .ofRes (Request.parse feat rl H q.body) ∧
      (∀ x, (q.method, x) ∈ methodTable → rl.method = x) ∧
      ((∀ x, (q.method, x) ∉ methodTable) → rl.method = .none) ∧
      rl.path = resolve q.pieces ∧
      (∀ x, (q.version, x) ∈ versionTable → rl.version = x) ∧
      ((∀ x, (q.version, x) ∉ versionTable) → rl.version = .httpInvalid) ∧
      H.raw.map hpair = q.headers ∧ (∀ k, H.get k = joined q.headers k) := by
  have hlines : ∀ x ∈ q.line :: q.headers.map wireHeader, '\r' ∉ x ∧ x ≠ [] := by
    intro x hx
    rcases List.mem_cons.1 hx with rfl | hx
    · exact ⟨hq.line_cr, by simp [WireReq.line]⟩
    · obtain ⟨h, hh, rfl⟩ := List.mem_map.1 hx
      exact hq.header_cr hh
  have hsplit := firstSplit_lines q.line (q.headers.map wireHeader) hlines (q.body ++ extra)
  have hbytes : s.bytes = utf8 (crlf.intercalate (q.line :: q.headers.map wireHeader)) ++ blankLine ++
      (q.body ++ extra) := by rw [hb]; simp [WireReq.bytes]
  rw [← hbytes] at hsplit
  have htext : FirstSplit (crlf.intercalate (q.line :: q.headers.map wireHeader)) crlf q.line
      (crlf.intercalate (q.headers.map wireHeader)) := by
    cases hh : q.headers with
    | nil => exact absurd hh hq.headers.1
    | cons h hs =>
      rw [List.map_cons, intercalate_cons_cons]
      exact firstSplit_of_not_mem hq.line_cr
  obtain ⟨rem, reader, e1, e2, -⟩ := ((C25_head_from_bytes s).2 _ _ hsplit).1 _ _ ⟨_, rfl, htext⟩
  obtain ⟨H, e3, e4, e5⟩ := Headers.parse_block (hq.block feat.faithful)
  obtain ⟨rl, e6, e7, e8, e9, e10, e11⟩ := C29_roundtrip feat.faithful q.method q.version q.pieces
    hq.method.1 hq.version.1 hq.pieces.1 (fun x hx => ⟨(hq.pieces.2 x hx).1, (hq.pieces.2 x hx).2.1⟩)
    hq.inside
  have hget : H.get = joined q.headers := funext e5
  have hbody : Request.fromRaw feat allocOk H rl rem reader =
      .ofRes (Request.parse feat rl H q.body) := by
    rcases hex with rfl | hnil
    · have hl : rem.length ≤ q.body.length := by
        have := congrArg List.length e2
        simp at this; omega
      have := C26_body_read feat allocOk H rl rem reader q.body.length (hget ▸ hq.length) hmax
        halloc hl (by rw [e2]; simp)
      rw [this, e2]; simp
    · have hn : contentLength H = 0 := by
        have h1 := contentLength_declared H
        rw [hget] at h1
        have := DeclaredLength.unique h1 hq.length
        rw [this, hnil]; rfl
      unfold Request.fromRaw
      simp only [hn, hnil]
      rfl
  exact ⟨rem, reader, H, rl, e1, e3, e6, hbody, e7, e8, e9, e10, e11, e4, e5⟩

/-- the same without the texts -/
theorem wire_parts (feat : Features) (allocOk : Nat → Bool) (q : WireReq) (hq : q.Framed) (s : Sock)
    (extra : Bytes) (hb : s.bytes = q.bytes ++ extra) (hex : extra = [] ∨ q.body = [])
    (halloc : ∀ k ≤ q.body.length, allocOk k = true) (hmax : q.body.length ≤ i64Max) :
    ∃ hdrs line rem reader H rl, readHead s = .ok (.head hdrs line rem reader) ∧
      Headers.parse feat.faithful hdrs = .ok (some H) ∧
      RequestLine.parse feat.faithful line = .ok (some rl) ∧
      Request.fromRaw feat allocOk H rl rem reader = .ofRes (Request.parse feat rl H q.body) ∧
      (∀ x, (q.method, x) ∈ methodTable → rl.method = x) ∧
      ((∀ x, (q.method, x) ∉ methodTable) → rl.method = .none) ∧
      rl.path = resolve q.pieces ∧
      (∀ x, (q.version, x) ∈ versionTable → rl.version = x) ∧
      ((∀ x, (q.version, x) ∉ versionTable) → rl.version = .httpInvalid) ∧
      H.raw.map hpair = q.headers ∧ (∀ k, H.get k = joined q.headers k) := by
  obtain ⟨rem, reader, H, rl, h⟩ := wire_texts feat allocOk q hq s extra hb hex halloc hmax
  exact ⟨_, _, rem, reader, H, rl, h⟩

/-- What the server reads is what the client wrote, however it was segmented; bytes after the request
do no harm if the request has no body. -/
theorem reads_wire (feat : Features) (allocOk : Nat → Bool) (q : WireReq) (hq : q.Good) (s : Sock)
    (extra : Bytes) (hb : s.bytes = q.bytes ++ extra) (hex : extra = [] ∨ q.body = [])
    (halloc : ∀ k ≤ q.body.length, allocOk k = true) (hmax : q.body.length ≤ i64Max) :
    ∃ req, Reads feat allocOk s req ∧
      (∀ x, (q.method, x) ∈ methodTable → req.requestLine.method = x) ∧
      ((∀ x, (q.method, x) ∉ methodTable) → req.requestLine.method = .none) ∧
      req.requestLine.path = resolve q.pieces ∧
      (∀ x, (q.version, x) ∈ versionTable → req.requestLine.version = x) ∧
      ((∀ x, (q.version, x) ∉ versionTable) → req.requestLine.version = .httpInvalid) ∧
      req.headers.raw.map hpair = q.headers ∧ (∀ k, req.headers.get k = joined q.headers k) ∧
      req.body = q.body ∧
      (∀ cs, cs ≠ [] → (∀ nv ∈ cs, GoodCookie nv) →
        joined q.headers c!"cookie" = some (c!"; ".intercalate (cs.map cookiePair)) →
        feat.cookies = true → req.cookies = cs.map fun nv => ⟨nv.1, nv.2, []⟩) := by
  obtain ⟨hdrs, line, rem, reader, H, rl, e1, e3, e6, hbody, e7, e8, e9, e10, e11, e4, e5⟩ :=
    wire_parts feat allocOk q hq.toFramed s extra hb hex halloc hmax
  have hck : feat.cookies = true → ∀ v, H.get c!"cookie" = some v → CookieText v := by
    intro _ v hv; rw [e5] at hv; exact hq.cookies v hv
  obtain ⟨cs, hcs⟩ := (Request.parse_spec feat rl H q.body).1 hck
  refine ⟨⟨rl, H, q.body, cs⟩, ⟨_, _, rem, reader, H, rl, e1, e3, e6, by rw [hbody, hcs]; rfl⟩,
    e7, e8, e9, e10, e11, e4, e5, rfl, ?_⟩
  intro cs' hne hgood hj hf
  unfold Request.parse at hcs
  rw [e5, hj, hf] at hcs
  simp only [if_true] at hcs
  have hp : Cookie.parse (c!"; ".intercalate (cs'.map cookiePair)) =
      .ok (cs'.map fun nv => ⟨nv.1, nv.2, []⟩) := by
    rw [Cookie.parse, splitStr_pieces (pieces_pairs cs' hne hgood)]
    clear hne hj hcs
    induction cs' with
    | nil => rfl
    | cons nv cs' ih =>
      rw [List.map_cons, Cookie.parseAll, cookieRsParse_pair (hgood nv (by simp)),
        Res.unwrap_some, Res.bind_ok', ih (fun x hx => hgood x (List.mem_cons_of_mem _ hx))]
      rfl
  rw [hp, Res.bind_ok'] at hcs
  simp only [Res.ok.injEq, Option.some.injEq, Request.mk.injEq, true_and] at hcs
  exact hcs.symm

end Octane
