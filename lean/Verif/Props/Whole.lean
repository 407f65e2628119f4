import Verif.Proof.Whole
import Verif.Proof.Delivery
import Verif.Proof.Wire
import Verif.Props.Server
import Verif.Props.Router
/-
C83: a whole connection, from the bytes the client sends to the answer, and C51 for any Cookie header.
-/
namespace Octane
open Spec
variable {W : Type u}

/-- C51 for any header value: either some piece between `"; "` cannot be understood and reading it
panics, or there is one cookie per piece, in order, with the name and value of that piece. -/
theorem C51_any (v : Str) :
    (CookieText v → ∃ cs, Cookie.parse v = .ok cs ∧ CookiesRead v cs) ∧
    (¬ CookieText v → Cookie.parse v = .panic) := by
  constructor
  · intro h
    obtain ⟨cs, hcs⟩ := (Cookie.parse_ok v).2 h
    exact ⟨cs, hcs, Cookie.parse_read hcs⟩
  · intro h
    cases hp : Cookie.parse v with
    | panic => rfl
    | ok cs => exact absurd ((Cookie.parse_ok v).1 ⟨cs, hp⟩) h

/-- The server answers with its error page for this status and leaves the handlers' state at `w'`. -/
def Spec.Page (sv : Server W) (w : W) (s : Sock) (w' : W) (code reason : Str) : Prop :=
  ∃ bytes v, sv.serve w s = .ok (w', bytes) ∧ ClientParses bytes v ∧ v.code = code ∧
    v.reason = reason ∧ v.body = utf8 notFoundPage ∧ ∀ v', ClientParses bytes v' → v' = v

theorem page_of {sv : Server W} {w : W} {s : Sock} {w' : W} (i : Fin 61) {code reason : Str}
    (hc : 0 ≤ sv.clock w') (h : sv.serve w s = Io.ofRes (sv.declareError w' (.named i)))
    (h1 : showInt (StatusCode.named i).code = code) (h2 : asciiUpper (StatusCode.named i).toStr = reason) :
    Page sv w s w' code reason := by
  obtain ⟨bytes, v, e1, e2, e3, e4, e5, e6⟩ := declareError_ok sv w' i hc
  exact ⟨bytes, v, by rw [h, e1]; rfl, e2, e3.trans h1, e4.trans h2, e5, e6⟩

theorem version_http11 (v : Str) : versionOf v = .http11 ↔ v = c!"1.1" := by
  constructor
  · intro h
    by_cases hk : ∃ x, (v, x) ∈ versionTable
    · obtain ⟨x, hx⟩ := hk
      have h1 := (versionOf_spec v).1 x hx
      have : ∀ p ∈ versionTable, p.2 = .http11 → p.1 = c!"1.1" := by decide
      exact this _ hx (h1.symm.trans h)
    · have h1 := (versionOf_spec v).2 (fun x hx => hk ⟨x, hx⟩)
      rw [h] at h1; simp at h1
  · rintro rfl; exact (versionOf_spec _).1 _ (by decide)

theorem method_known (m : Str) (h : m ∈ methodTokens) : (m, methodOf m) ∈ methodTable := by
  have h1 : ∀ t ∈ methodTokens, (t, methodOf t) ∈ methodTable := by decide +kernel
  exact h1 m h

theorem method_unknown (m : Str) (h : m ∉ methodTokens) : methodOf m = .none :=
  (methodOf_spec m).2 fun x hx => h (by
    have h1 : ∀ p ∈ methodTable, p.1 ∈ methodTokens := by decide +kernel
    exact h1 _ hx)

theorem joined_none_iff (hs : List (Str × Str)) (k : Str) :
    joined hs k = none ↔ ∀ h ∈ hs, lowered h.1 ≠ k := by
  unfold joined
  cases hf : (hs.filter fun h => lowered h.1 = k).map (·.2) with
  | nil =>
    simp only [true_iff]
    simp only [List.map_eq_nil_iff, List.filter_eq_nil_iff, decide_eq_true_eq] at hf
    exact hf
  | cons a as =>
    simp only [reduceCtorEq, false_iff]
    intro h
    have : (hs.filter fun h => lowered h.1 = k) = [] := by
      simp only [List.filter_eq_nil_iff, decide_eq_true_eq]; exact h
    rw [this] at hf; simp at hf

/-- One byte stream contains at most one first request. -/
theorem C83_one_request {faithful cookies : Bool} {bytes : Bytes} {q q' : Asked} {n n' : Nat}
    (h : q.In faithful cookies bytes n) (h' : q'.In faithful cookies bytes n') : q = q' ∧ n = n' := by
  obtain ⟨text, line, hdrs, h1, h2, h3, h4, h5, -⟩ := h
  obtain ⟨text', line', hdrs', h1', h2', h3', h4', h5', -⟩ := h'
  obtain ⟨e1, e2⟩ := h1.unique h1'
  obtain rfl := utf8_injective e1
  obtain ⟨rfl, rfl⟩ := h2.unique h2'
  obtain ⟨e3, e4, e5⟩ := h3.unique h3'
  have e6 : q.headers = q'.headers := by
    obtain ⟨H, g1, g2, -⟩ := Headers.parse_block h4
    obtain ⟨H', g1', g2', -⟩ := Headers.parse_block h4'
    rw [g1] at g1'
    simp only [Res.ok.injEq, Option.some.injEq] at g1'
    rw [← g2, ← g2', g1']
  rw [e6] at h5
  cases q; cases q'
  simp only at e2 e3 e4 e5 e6
  subst e2; subst e3; subst e4; subst e5; subst e6
  exact ⟨rfl, DeclaredLength.unique h5 h5'⟩

/-- Every request a client writes correctly is one of those of the next theorem, whatever follows it. -/
theorem C83_written (faithful cookies : Bool) (q : WireReq) (hq : q.Good) (extra : Bytes) :
    Asked.In faithful cookies (q.bytes ++ extra)
      ⟨q.method, q.pieces, q.version, q.headers, q.body ++ extra⟩ q.body.length := by
  have hlines : ∀ x ∈ q.line :: q.headers.map wireHeader, '\r' ∉ x ∧ x ≠ [] := by
    intro x hx
    rcases List.mem_cons.1 hx with rfl | hx
    · exact ⟨hq.line_cr, by simp [WireReq.line]⟩
    · obtain ⟨h, hh, rfl⟩ := List.mem_map.1 hx
      exact hq.header_cr hh
  have hsplit := firstSplit_lines q.line (q.headers.map wireHeader) hlines (q.body ++ extra)
  have htext : FirstSplit (crlf.intercalate (q.line :: q.headers.map wireHeader)) crlf q.line
      (crlf.intercalate (q.headers.map wireHeader)) := by
    cases hh : q.headers with
    | nil => exact absurd hh hq.headers.1
    | cons h hs =>
      rw [List.map_cons, intercalate_cons_cons]
      exact firstSplit_of_not_mem hq.line_cr
  refine ⟨_, q.line, _, by simpa [WireReq.bytes] using hsplit, htext, ⟨c!"HTTP/", [], ?_, ?_,
    hq.pieces.1, fun x hx => (hq.pieces.2 x hx).2.1, hq.inside, by decide, fun _ => ⟨rfl, rfl⟩⟩,
    hq.block faithful, hq.length, by simp, fun _ => hq.cookies⟩
  · simp [WireReq.line, List.intercalate]
  · have hsp : ' ' ∉ ['/'].intercalate q.pieces := by
      have : ∀ ps : List Str, (∀ p ∈ ps, ' ' ∉ p) → ' ' ∉ ['/'].intercalate ps := by
        intro ps
        induction ps with
        | nil => simp [List.intercalate]
        | cons p ps ih =>
          intro h
          cases ps with
          | nil => simpa [List.intercalate] using h p (by simp)
          | cons p' ps =>
            rw [intercalate_cons_cons]
            have := ih fun x hx => h x (List.mem_cons_of_mem _ hx)
            have hp := h p (by simp)
            simp [this, hp]
      exact this _ fun p hp => (hq.pieces.2 p hp).1
    simp [hq.method.1, hq.version.1, hsp]

/-- C83: what a server does with a connection whose client closes its sending side after its bytes,
when memory is available and the clock is not before 1970. The server was set up by `calls`.
Without a head: the 400 page. With a request: the 400 page if it is HTTP/1.1 without Host, otherwise
the 501 page if the method is unknown, otherwise the registrations that apply are run in order on that
request until one stops (its body is exactly what `BodyIs` says), and then the client gets the 404 page if they left no body, and otherwise
what they left; if one of them panics nothing is answered. In all other cases the task panics. -/
theorem C83_connection (calls : List (Call (W × Response))) (hf : FairL calls)
    (hn : (logOfL calls).length < 2 ^ 64) (sv : Server W) (hsv : execL Router.new calls = .ok sv.router)
    (w : W) (s : Sock) (hfin : s.fin = .eof) (hlen : s.bytes.length ≤ i64Max)
    (halloc : ∀ k, sv.allocOk k = true) (hc : ∀ w, 0 ≤ sv.clock w) :
    (NoHead s.bytes → Page sv w s w c!"400" c!"BAD REQUEST") ∧
    (∀ (q : Asked) n, q.In sv.feat.faithful sv.feat.cookies s.bytes n →
      ((q.version = c!"1.1" ∧ ∀ h ∈ q.headers, lowered h.1 ≠ c!"host") →
        Page sv w s w c!"400" c!"BAD REQUEST") ∧
      (¬ (q.version = c!"1.1" ∧ ∀ h ∈ q.headers, lowered h.1 ≠ c!"host") →
        (q.method ∉ methodTokens → Page sv w s w c!"501" c!"NOT IMPLEMENTED") ∧
        (q.method ∈ methodTokens → ∃ req, q.Given sv.feat.cookies n req ∧ q.BodyIs s.segs n req.body ∧
          (replay sv.feat.urlVariables req (logOfL calls) (w, Response.newEmpty) = .panic →
            sv.serve w s = .panic) ∧
          ∀ w' res, replay sv.feat.urlVariables req (logOfL calls) (w, Response.newEmpty) = .ok (w', res) →
            (res.body = .none → Page sv w s w' c!"404" c!"NOT FOUND") ∧
            (res.body ≠ .none →
              sv.serve w s = .ok (w', sendData (res.getData sv.U sv.feat.cookies sv.ord)))))) ∧
    (¬ NoHead s.bytes → (¬ ∃ q n, Asked.In sv.feat.faithful sv.feat.cookies s.bytes q n) →
      sv.serve w s = .panic) := by
  refine ⟨?_, ?_, ?_⟩
  · intro h
    refine page_of (w' := w) 21 (hc w) ?_ (by decide +kernel) (by decide +kernel)
    unfold Server.serve
    rcases h with h | ⟨head, rest, h1, h2⟩
    · have e1 := (C25_head_from_bytes s).1 h
      rw [hfin] at e1
      rw [e1]; rfl
    · rw [((C25_head_from_bytes s).2 _ _ h1).2 h2]; rfl
  · intro q n hq
    have hn' : n ≤ i64Max := by
      obtain ⟨text, line, hdrs, h1, -, -, -, -, h6, -⟩ := hq
      have := congrArg List.length h1.1
      simp only [List.length_append] at this
      omega
    obtain ⟨req, r1, r2, r3, r4, r5, r6, r7⟩ :=
      reads_asked sv.feat sv.allocOk s q n hq (fun k _ => halloc k) hn'
    have hserve := serve_reads r1 w
    rw [handle_spec, r2, r4] at hserve
    simp only [version_http11, joined_none_iff] at hserve
    refine ⟨fun h => ?_, fun h => ⟨fun hm => ?_, fun hm => ?_⟩⟩
    · rw [if_pos h] at hserve
      exact page_of 21 (hc w) hserve (by decide +kernel) (by decide +kernel)
    · rw [if_neg h, if_pos (method_unknown _ hm)] at hserve
      exact page_of 51 (hc w) hserve (by decide +kernel) (by decide +kernel)
    · have hk := method_known _ hm
      have hne : methodOf q.method ≠ .none := by
        have : ∀ p ∈ methodTable, p.2 ≠ .none := by decide
        exact this _ hk
      have hna : methodOf q.method ≠ .all := by
        have : ∀ p ∈ methodTable, p.2 ≠ .all := by decide
        exact this _ hk
      obtain ⟨r, g1, g2⟩ := C12_run_is_replay calls hf hn
      rw [hsv] at g1
      simp only [Res.ok.injEq] at g1
      subst g1
      have g := g2 sv.feat.urlVariables req (w, Response.newEmpty) (by rw [r2]; exact hna)
      rw [if_neg h, if_neg hne, g] at hserve
      refine ⟨req, ⟨by rw [r2]; exact hk, by rw [r2], ?_, r3, r4, r5, r6, r7⟩, reads_body r1 hq r4, ?_, ?_⟩
      · rw [r2]
        by_cases hv : ∃ x, (q.version, x) ∈ versionTable
        · obtain ⟨x, hx⟩ := hv
          left
          simp only
          rw [(versionOf_spec _).1 x hx]; exact hx
        · right
          exact ⟨fun x hx => hv ⟨x, hx⟩, (versionOf_spec _).2 fun x hx => hv ⟨x, hx⟩⟩
      · intro hp
        rw [hserve, hp]; rfl
      · intro w' res hp
        rw [hp, Res.bind_ok'] at hserve
        refine ⟨fun hb => ?_, fun hb => ?_⟩
        · rw [if_pos (by simp [Response.hasBody, hb, ResBody.isSome])] at hserve
          exact page_of 25 (hc w') hserve (by decide +kernel) (by decide +kernel)
        · rw [if_neg (by
            unfold Response.hasBody
            cases hr : res.body <;> simp_all [ResBody.isSome])] at hserve
          exact hserve
  · intro h1 h2
    refine (C30_exact_partial sv w s hfin hlen halloc).2 ?_
    rintro (h | ⟨head, rest, h3, h4 | ⟨text, line, hdrs, hs, n, e1, e2, e3, e4, e5, e6, e7⟩⟩)
    · exact h1 (.inl h)
    · exact h1 (.inr ⟨head, rest, h3, h4⟩)
    · obtain ⟨m, pieces, ver, hl⟩ := (lineOk_iff _ _).1 e4
      subst e1
      exact h2 ⟨⟨m, pieces, ver, hs, rest⟩, n, text, line, hdrs, h3, e2, hl, e3, e5, e6, e7⟩

/-! ### the theorem applies -/

namespace WholeExample
open ServerExample

/-- delivered byte by byte and then closed -/
def closing (b : Bytes) : Sock := ⟨b.map fun x => [x], .eof⟩

theorem closing_bytes (b : Bytes) : (closing b).bytes = b := slowly_bytes b

/-- a request with a body of which the handlers get exactly the two declared bytes -/
example : ∃ sv : Server Unit, ∃ req, req.requestLine.path = [c!"b"] ∧ req.body = [104, 105] ∧
    (req.headers.get c!"host") = some c!"x" ∧
    ∀ w' res, replay true req (logOfL calls) ((), Response.newEmpty) = .ok (w', res) →
      res.body ≠ .none →
      sv.serve () (closing (q c!"GET" c!"1.1" c!"hOsT").bytes) =
        .ok (w', sendData (res.getData sv.U true sv.ord)) := by
  obtain ⟨router, hr, -⟩ := C12_run_is_replay calls (by simp [calls, FairL, Fair]) (by decide +kernel)
  let sv : Server Unit := { empty with router }
  have hq := C83_written true true _ (good c!"GET" c!"1.1" c!"hOsT" (by decide) (by decide) (by decide)) []
  rw [List.append_nil, ← closing_bytes (q c!"GET" c!"1.1" c!"hOsT").bytes] at hq
  obtain ⟨req, g, -, -, h⟩ := (((C83_connection calls (by simp [calls, FairL, Fair]) (by decide +kernel) sv hr ()
    (closing (q c!"GET" c!"1.1" c!"hOsT").bytes) rfl (by decide +kernel) (fun _ => rfl)
    (by simp [sv, empty])).2.1 _ _ hq).2 (by
      rintro ⟨-, h⟩
      exact h (c!"hOsT", c!"x") (by decide) (by decide +kernel))).2 (by decide +kernel)
  refine ⟨sv, req, ?_, ?_, ?_, fun w' res hp hb => (h w' res hp).2 hb⟩
  · rw [g.path]; decide +kernel
  · rcases g.body with ⟨h0, -⟩ | ⟨-, k, hk, hb⟩
    · simp [q] at h0
    · rw [hb, List.append_nil]
      exact List.take_of_length_le hk
  · rw [g.get]; decide +kernel

/-- text without a blank line -/
example : NoHead (utf8 c!"garbage") := .inl (by
  rintro ⟨j, a, b, h, -⟩
  have : (13 : UInt8) ∈ utf8 c!"garbage" := by rw [h]; simp [blankLine]
  exact absurd this (by decide +kernel))

/-- a Cookie header of three pieces, with white space and an attribute -/
example : ∃ cs, Cookie.parse c!"a=1;x;  b = 2; c=" = .ok cs ∧
    cs.map (fun c => (c.name, c.value)) = [(c!"a", c!"1"), (c!"b", c!"2"), (c!"c", c!"")] :=
  ⟨_, rfl, by decide +kernel⟩
example : CookieText c!"a=1; b=2" :=
  (Cookie.parse_ok _).1 ⟨_, rfl⟩

end WholeExample
end Octane
