import Verif.Spec.Strict
import Verif.Props.Lookup
import Verif.Props.Climb
/-
C86 – C89: requests that HTTP wants refused or understood, and what the code does with them.
-/
namespace Octane
open Spec
variable {W : Type u}

/-! ### helpers -/

/-- what the registrations do to a request that was read is what the client gets -/
theorem served_replay (sv : Server W) (calls : List (Call (W × Response))) (hf : FairL calls)
    (hn : (logOfL calls).length < 2 ^ 64) (hsetup : execL Router.new calls = .ok sv.router)
    (s : Sock) (req : Request) (h : Reads sv.feat sv.allocOk s req)
    (hv : req.requestLine.version ≠ .http11 ∨ ∃ hd ∈ req.headers.raw, lowered hd.name = c!"host")
    (hm : req.requestLine.method ≠ .none) (w w' : W) (res : Response)
    (hr : replay sv.feat.urlVariables req (logOfL calls) (w, Response.newEmpty) = .ok (w', res))
    (hb : res.body ≠ .none) :
    sv.serve w s = .ok (w', sendData (res.getData sv.U sv.feat.cookies sv.ord)) := by
  obtain ⟨r, g1, g2⟩ := C12_run_is_replay calls hf hn
  rw [hsetup] at g1
  simp only [Res.ok.injEq] at g1
  subst g1
  refine ((C34_dispatch sv w s req h hv hm).1 w' res ?_).2 hb
  rw [g2 _ _ _ h.facts.2]; exact hr

theorem method_ne_none {x : Str} {m : RequestMethod} (h : (x, m) ∈ methodTable) : m ≠ .none := by
  have : ∀ p ∈ methodTable, p.2 ≠ .none := by decide
  exact this _ h

/-- a well-formed request without a body is read as it is, whatever follows it -/
theorem reads_bodyless (feat : Features) (allocOk : Nat → Bool) (q : WireReq) (s : Sock) (after : Bytes)
    (hq : q.Good) (hb : q.body = []) (hs : s.bytes = q.bytes ++ after) :
    ∃ req, Reads feat allocOk s req ∧
      (∀ x, (q.method, x) ∈ methodTable → req.requestLine.method = x) ∧
      req.requestLine.path = resolve q.pieces ∧
      (∀ x, (q.version, x) ∈ versionTable → req.requestLine.version = x) ∧
      ((∀ x, (q.version, x) ∉ versionTable) → req.requestLine.version = .httpInvalid) ∧
      req.headers.raw.map hpair = q.headers ∧ req.body = [] := by
  obtain ⟨hdrs, line, rem, reader, H, rl, e1, e3, e6, hbody, e7, -, e9, e10, e11, e4, e5⟩ :=
    wire_parts feat (fun _ => true) q hq.toFramed s after hs (.inr hb) (fun _ _ => rfl) (by rw [hb]; decide)
  have hn : contentLength H = 0 := by
    have h1 := contentLength_declared H
    rw [funext e5] at h1
    have := DeclaredLength.unique h1 hq.length
    rw [this, hb]; rfl
  have hck : feat.cookies = true → ∀ v, H.get c!"cookie" = some v → CookieText v := by
    intro _ v hv; rw [e5] at hv; exact hq.cookies v hv
  obtain ⟨cs, hcs⟩ := (Request.parse_spec feat rl H []).1 hck
  refine ⟨⟨rl, H, [], cs⟩, ⟨_, _, rem, reader, H, rl, e1, e3, e6, ?_⟩, e7, e9, e10, e11, e4, rfl⟩
  unfold Request.fromRaw
  simp only [hn]
  show Io.ofRes (Request.parse feat rl H []) = _
  rw [hcs]; rfl

/-! ### C86: lengths that are no lengths -/

/-- The full claim of C86: a request whose Content-Length headers do not give one number is answered by
400 and no handler runs. -/
def C86_statement : Prop :=
  ∀ (W : Type) (sv : Server W) (q : WireReq) (s : Sock) (w : W), q.Good → ¬ LengthOk q.headers →
    s.bytes = q.bytes → 0 ≤ sv.clock w →
    ∃ bytes v, sv.serve w s = .ok (w, bytes) ∧ ClientParses bytes v ∧ v.code = c!"400"

/-- The length the code goes by, exactly: that of a single Content-Length header of digits, with or
without a `+` before them; and 0 in all other cases, those of several headers included, even if they
agree. -/
theorem C86_length (hs : List (Str × Str)) (n : Nat) :
    DeclaredLength (joined hs) n ↔
      (∃ v, valuesOf hs c!"content-length" = [v] ∧ (IsLength v n ∨ ∃ ds, v = '+' :: ds ∧ IsLength ds n)) ∨
      (n = 0 ∧ ∀ v m, valuesOf hs c!"content-length" = [v] →
        ¬ (IsLength v m ∨ ∃ ds, v = '+' :: ds ∧ IsLength ds m)) := by
  have hu : ∀ v m, IsU64 v m ↔ (IsLength v m ∨ ∃ ds, v = '+' :: ds ∧ IsLength ds m) := by
    intro v m
    constructor
    · rintro ⟨ds, rfl | rfl, h⟩
      · exact .inl h
      · exact .inr ⟨ds, rfl, h⟩
    · rintro (h | ⟨ds, rfl, h⟩)
      · exact ⟨v, .inl rfl, h⟩
      · exact ⟨ds, .inr rfl, h⟩
  have hc : ∀ v m, IsU64 v m → ',' ∉ v := by
    rintro v m ⟨ds, h, -, hd, -⟩ hm
    rcases h with rfl | rfl
    · exact absurd (hd _ hm) (by decide)
    · rcases List.mem_cons.1 hm with hm | hm
      · exact absurd hm (by decide)
      · exact absurd (hd _ hm) (by decide)
  have hj : joined hs c!"content-length" = match valuesOf hs c!"content-length" with
      | [] => none
      | vs => some (c!", ".intercalate vs) := rfl
  have key : ∀ m, (∃ v, joined hs c!"content-length" = some v ∧ IsU64 v m) ↔
      ∃ v, valuesOf hs c!"content-length" = [v] ∧ (IsLength v m ∨ ∃ ds, v = '+' :: ds ∧ IsLength ds m) := by
    intro m
    rw [hj]
    rcases valuesOf hs c!"content-length" with _ | ⟨v, _ | ⟨v', vs⟩⟩
    · simp
    · simp [List.intercalate, hu]
    · simp only [Option.some.injEq, List.cons.injEq, reduceCtorEq, and_false, false_and, exists_false,
        iff_false]
      rintro ⟨x, rfl, hx⟩
      refine hc _ _ hx ?_
      rw [intercalate_cons_cons]
      simp
  unfold DeclaredLength
  rw [key]
  refine or_congr_right (and_congr_right fun _ => ?_)
  constructor
  · intro h v m hv hl
    obtain ⟨x, hx, hx'⟩ := (key m).2 ⟨v, hv, hl⟩
    exact h x m hx hx'
  · intro h v m hv hl
    obtain ⟨x, hx, hx'⟩ := (key m).1 ⟨v, hv, hl⟩
    exact h x m hx hx'

/-- What happens instead: several Content-Length headers, or one that is not a number (with or without
`+`), count as none. The request is read with an empty body, whatever follows it, and is otherwise the
one the client wrote. -/
theorem C86_ignored (feat : Features) (allocOk : Nat → Bool) (q : WireReq) (s : Sock) (after : Bytes)
    (hq : q.Good)
    (hl : ∀ v m, valuesOf q.headers c!"content-length" = [v] →
      ¬ (IsLength v m ∨ ∃ ds, v = '+' :: ds ∧ IsLength ds m))
    (hs : s.bytes = q.bytes ++ after) :
    ∃ req, Reads feat allocOk s req ∧
      (∀ x, (q.method, x) ∈ methodTable → req.requestLine.method = x) ∧
      req.requestLine.path = resolve q.pieces ∧ req.headers.raw.map hpair = q.headers ∧ req.body = [] := by
  have hb : q.body = [] := by
    have h0 := (C86_length q.headers 0).2 (.inr ⟨rfl, hl⟩)
    exact List.length_eq_zero_iff.1 (DeclaredLength.unique hq.length h0)
  obtain ⟨req, h1, h2, h3, -, -, h4, h5⟩ := reads_bodyless feat allocOk q s after hq hb hs
  exact ⟨req, h1, h2, h3, h4, h5⟩

/-- And it is answered: with a known method and a Host, whatever the registrations make of the request
is what the client gets, and what the handlers did to the state stands. -/
theorem C86_served (sv : Server W) (calls : List (Call (W × Response))) (hf : FairL calls)
    (hn : (logOfL calls).length < 2 ^ 64) (hsetup : execL Router.new calls = .ok sv.router)
    (q : WireReq) (s : Sock) (after : Bytes) (hq : q.Good)
    (hl : ∀ v m, valuesOf q.headers c!"content-length" = [v] →
      ¬ (IsLength v m ∨ ∃ ds, v = '+' :: ds ∧ IsLength ds m))
    (hs : s.bytes = q.bytes ++ after) (m : RequestMethod) (hm : (q.method, m) ∈ methodTable)
    (hhost : ∃ h ∈ q.headers, lowered h.1 = c!"host") :
    ∃ req, Reads sv.feat sv.allocOk s req ∧ req.body = [] ∧ ∀ w w' res,
      replay sv.feat.urlVariables req (logOfL calls) (w, Response.newEmpty) = .ok (w', res) →
      res.body ≠ .none →
      sv.serve w s = .ok (w', sendData (res.getData sv.U sv.feat.cookies sv.ord)) := by
  obtain ⟨req, h1, h2, h3, h4, h5⟩ := C86_ignored sv.feat sv.allocOk q s after hq hl hs
  refine ⟨req, h1, h5, fun w w' res hr hb => ?_⟩
  refine served_replay sv calls hf hn hsetup s req h1 (.inr ?_) ?_ w w' res hr hb
  · obtain ⟨h, hmem, he⟩ := hhost
    rw [← h4] at hmem
    obtain ⟨hd, hd1, rfl⟩ := List.mem_map.1 hmem
    exact ⟨hd, hd1, he⟩
  · rw [h2 m hm]; exact method_ne_none hm

/-- What holds of C86: no byte after the head of such a request reaches a handler. (With a `+` the
number counts: `C86_length`.) -/
theorem C86_no_body_partial (feat : Features) (allocOk : Nat → Bool) (q : WireReq) (s : Sock)
    (after : Bytes) (hq : q.Good) (hbad : ¬ LengthOk q.headers)
    (hplus : ∀ ds, valuesOf q.headers c!"content-length" ≠ ['+' :: ds])
    (hs : s.bytes = q.bytes ++ after) (req : Request) (hr : Reads feat allocOk s req) : req.body = [] := by
  obtain ⟨req', h1, -, -, -, h2⟩ := C86_ignored feat allocOk q s after hq (by
    rintro v m hv (h | ⟨ds, rfl, -⟩)
    · exact hbad ⟨m, by rw [hv]; simpa using h⟩
    · exact hplus ds hv) hs
  rw [hr.unique h1, h2]

namespace StrictExample

/-- two lengths -/
def q : WireReq :=
  ⟨c!"POST", [[], c!"a"], c!"1.1", [(c!"Host", c!"b"), (c!"Content-Length", c!"3"), (c!"content-length", c!"4")], []⟩

theorem q_values : valuesOf q.headers c!"content-length" = [c!"3", c!"4"] := by decide +kernel

theorem q_bad : ¬ LengthOk q.headers := by
  rintro ⟨n, h⟩
  rw [q_values] at h
  have h3 := (h c!"3" (by simp)).2.2.1
  have h4 := (h c!"4" (by simp)).2.2.1
  rw [h3] at h4
  exact absurd h4 (by decide)

/-- a request of the shape of these examples -/
theorem good (q : WireReq) (h0 : q.body = []) (h1 : ' ' ∉ q.method ∧ '\r' ∉ q.method)
    (h2 : q.pieces ≠ [] ∧ ∀ p ∈ q.pieces, ' ' ∉ p ∧ '/' ∉ p ∧ '\r' ∉ p)
    (h2' : ∀ p ∈ q.pieces, isUp p = false) (h3 : ' ' ∉ q.version ∧ '\r' ∉ q.version) (h4 : q.headers ≠ [])
    (h5 : ∀ h ∈ q.headers, h.1 ≠ [] ∧ (∀ c ∈ h.1, isTchar c) ∧
      (∀ c ∈ h.2, ¬ isRefusedControl c) ∧ ∀ c ∈ h.2.head?, ¬ isBlank c)
    (h6 : (valuesOf q.headers c!"content-length").length ≠ 1)
    (h7 : valuesOf q.headers c!"cookie" = []) : q.Good := by
  refine ⟨⟨h1, h2, ?_, h3, ⟨h4, h5⟩, (C86_length _ _).2 (.inr ⟨by simp [h0], ?_⟩)⟩, ?_⟩
  · rintro ⟨k, hk⟩
    have : (q.pieces.take k).countP isUp = 0 :=
      List.countP_eq_zero.2 fun p hp => by simp [h2' p (List.mem_of_mem_take hp)]
    omega
  · intro v m hv
    rw [hv] at h6
    exact absurd rfl h6
  · intro v hv
    have : joined q.headers c!"cookie" = none := by
      have h : joined q.headers c!"cookie" = match valuesOf q.headers c!"cookie" with
        | [] => none
        | vs => some (c!", ".intercalate vs) := rfl
      rw [h, h7]
    rw [this] at hv; simp at hv

theorem q_good : q.Good :=
  good q rfl (by decide) (by decide) (by decide) (by decide) (by decide) (by decide +kernel)
    (by rw [q_values]; decide) (by decide +kernel)

/-- a server at which nothing is registered -/
def sv : Server Unit := ⟨.default, fun _ => true, .asciiOnly, .id, fun _ => 0, Router.new⟩

/-- it answers all well-formed requests by 404 -/
theorem sv_404 (q : WireReq) (hq : q.Good) (hb : q.body = []) (m : RequestMethod)
    (hm : (q.method, m) ∈ methodTable)
    (hhost : q.version = c!"1.1" → ∃ h ∈ q.headers, lowered h.1 = c!"host") (s : Sock)
    (hs : s.bytes = q.bytes) :
    ∃ bytes v, sv.serve () s = .ok ((), bytes) ∧ ClientParses bytes v ∧ v.code = c!"404" := by
  obtain ⟨bytes, v, h1, h2, h3, -⟩ := C69_unmatched sv [] (by simp [FairL]) (by simp [logOfL]) (by simp [execL, sv])
    q hq s hs (fun _ _ => rfl) (by rw [hb]; decide) m hm hhost (by simp [logOfL]) () (by decide)
  exact ⟨bytes, v, h1, h2, h3⟩

/-- so no other code is seen -/
theorem sv_not (q : WireReq) (hq : q.Good) (hb : q.body = []) (m : RequestMethod)
    (hm : (q.method, m) ∈ methodTable)
    (hhost : q.version = c!"1.1" → ∃ h ∈ q.headers, lowered h.1 = c!"host") (code : Str)
    (hcode : code ≠ c!"404") (bytes : Bytes) (v : ClientView)
    (h : sv.serve () ⟨[q.bytes], .eof⟩ = .ok ((), bytes)) (hv : ClientParses bytes v)
    (hc : v.code = code) : False := by
  obtain ⟨bytes', v', h1, h2, h3⟩ := sv_404 q hq hb m hm hhost ⟨[q.bytes], .eof⟩ (by simp [Sock.bytes])
  rw [h1] at h
  injection h with h
  injection h with _ h
  subst h
  rw [ClientParses.unique hv h2, h3] at hc
  exact hcode hc.symm

end StrictExample

open StrictExample in
/-- C86 is false of the code: two lengths that differ are not refused. -/
theorem C86_counterexample : ¬ C86_statement := by
  intro h
  obtain ⟨bytes, v, h1, h2, h3⟩ := h Unit sv q ⟨[q.bytes], .eof⟩ () q_good q_bad (by simp [Sock.bytes]) (by decide)
  exact sv_not q q_good rfl .post (by decide) (fun _ => ⟨(c!"Host", c!"b"), by decide, by decide +kernel⟩) _
    (by decide) bytes v h1 h2 h3

open StrictExample in
/-- the hypotheses of `C86_ignored` and `C86_no_body_partial` are met; here three bytes follow -/
example : ∃ req, Reads .default (fun _ => true) ⟨[q.bytes, utf8 c!"abc"], .eof⟩ req ∧
    req.requestLine.path = [c!"a"] ∧ req.body = [] := by
  obtain ⟨req, h1, -, h2, -, h3⟩ := C86_ignored .default (fun _ => true) q ⟨[q.bytes, utf8 c!"abc"], .eof⟩
    (utf8 c!"abc") q_good (by intro v m hv; rw [q_values] at hv; simp at hv) (by simp [Sock.bytes])
  exact ⟨req, h1, by rw [h2]; decide, h3⟩

/-! ### C87: targets in absolute form -/

/-- The full claim of C87: `http://authority/path` is served as `/path`; so if no handler looks at the
request, the answer is the same. -/
def C87_statement : Prop :=
  ∀ (W : Type) (sv : Server W) (calls : List (Call (W × Response))), FairL calls →
    (logOfL calls).length < 2 ^ 64 → execL Router.new calls = .ok sv.router →
    (∀ k, sv.allocOk k = true) → (∀ e ∈ logOfL calls, Blind e.handler) →
    ∀ (q : WireReq) (authority : Str) (ps : List Str), q.pieces = [] :: ps → isName authority = true →
      q.Good → { q with pieces := absoluteForm authority ps }.Good → q.body.length ≤ i64Max →
      ∀ (s s' : Sock), s.bytes = q.bytes →
      s'.bytes = { q with pieces := absoluteForm authority ps }.bytes → ∀ w, sv.serve w s = sv.serve w s'

/-- The path the code takes from such a target: the scheme and the authority are its first two
segments. -/
theorem C87_path (authority : Str) (ps : List Str) (ha : isName authority = true) (hc : ¬ Climbs ps) :
    resolve (absoluteForm authority ps) = c!"http:" :: authority :: resolve ([] :: ps) := by
  have h1 : resolve ([] :: ps) = resolve ps := by
    have : ∀ up, survivorsRev up [[]] = [] := by intro up; simp [survivorsRev, isUp, isName]
    simp [resolve, survivorsRev_append, this]
  have h2 := resolve_keeps [c!"http:", []] authority ha ps hc
  rw [h1]
  exact h2

/-- So it is routed by that path: as the target `/http:/authority/path` is. -/
theorem C87_routed (sv : Server W) (calls : List (Call (W × Response))) (hf : FairL calls)
    (hn : (logOfL calls).length < 2 ^ 64) (hsetup : execL Router.new calls = .ok sv.router)
    (halloc : ∀ k, sv.allocOk k = true) (hblind : ∀ e ∈ logOfL calls, Blind e.handler)
    (q : WireReq) (authority : Str) (ps : List Str)
    (hq : { q with pieces := absoluteForm authority ps }.Good)
    (hq' : { q with pieces := [] :: c!"http:" :: authority :: ps }.Good)
    (hmax : q.body.length ≤ i64Max) (s s' : Sock)
    (hb : s.bytes = { q with pieces := absoluteForm authority ps }.bytes)
    (hb' : s'.bytes = { q with pieces := [] :: c!"http:" :: authority :: ps }.bytes) (w : W) :
    sv.serve w s = sv.serve w s' := by
  refine serve_same sv calls hf hn hsetup hblind _ _ hq hq' s s' hb hb' (fun k _ => halloc k) hmax ?_ w
  intro e _ m
  have : resolve (absoluteForm authority ps) = resolve ([] :: c!"http:" :: authority :: ps) := by
    have hn : ∀ up (l r : List Str), survivorsRev up (l ++ [] :: r) = survivorsRev up (l ++ r) := by
      intro up l r
      rw [survivorsRev_append, survivorsRev_append]
      simp [survivorsRev, isUp, isName]
    unfold resolve absoluteForm
    congr 1
    have e1 := hn 0 (ps.reverse ++ [authority]) [c!"http:"]
    have e2 := hn 0 (ps.reverse ++ [authority, c!"http:"]) []
    simp only [List.reverse_cons, List.append_assoc, List.cons_append, List.nil_append, List.append_nil] at e1 e2 ⊢
    rw [e1, e2]
  rw [this]

/-- How far the failure goes: if the first segment of every registered pattern is a name other than
`http:` (or the pattern is `/`), every request in absolute form is answered by 404 and no handler
runs. -/
theorem C87_not_found (sv : Server W) (calls : List (Call (W × Response))) (hf : FairL calls)
    (hn : (logOfL calls).length < 2 ^ 64) (hsetup : execL Router.new calls = .ok sv.router)
    (halloc : ∀ k, sv.allocOk k = true)
    (hlit : ∀ e ∈ logOfL calls, match e.target with
      | .on _ p | .anyMethod p => ∀ a, p.head? = some a → a.head? ≠ some ':' ∧ a ≠ c!"http:"
      | .everywhere => False)
    (q : WireReq) (hq : q.Good) (authority : Str) (ps : List Str) (ha : isName authority = true)
    (hcl : ¬ Climbs ps) (hp : q.pieces = absoluteForm authority ps)
    (m : RequestMethod) (hm : (q.method, m) ∈ methodTable)
    (hhost : q.version = c!"1.1" → ∃ h ∈ q.headers, lowered h.1 = c!"host")
    (hmax : q.body.length ≤ i64Max) (s : Sock) (hb : s.bytes = q.bytes) (w : W) (hc : 0 ≤ sv.clock w) :
    ∃ bytes v, sv.serve w s = .ok (w, bytes) ∧ ClientParses bytes v ∧ v.code = c!"404" ∧
      v.reason = c!"NOT FOUND" := by
  refine C69_unmatched sv calls hf hn hsetup q hq s hb (fun k _ => halloc k) hmax m hm hhost ?_ w hc
  intro e he
  rw [hp, C87_path _ _ ha hcl]
  have key : ∀ uv p, (∀ a, p.head? = some a → a.head? ≠ some ':' ∧ a ≠ c!"http:") →
      ¬ PatMatch uv p (c!"http:" :: authority :: resolve ([] :: ps)) := by
    intro uv p hpl h
    cases uv with
    | false =>
      simp only [PatMatch, Bool.false_eq_true, if_false] at h
      exact (hpl c!"http:" (by rw [h.1]; rfl)).2 rfl
    | true =>
      simp only [PatMatch, if_true] at h
      cases p with
      | nil => exact absurd h.1 (by simp)
      | cons a p =>
        rcases h.2 0 a c!"http:" rfl rfl with h1 | h1
        · exact (hpl a rfl).1 h1
        · exact (hpl a rfl).2 h1
  have hv := hlit e he
  cases ht : e.target with
  | everywhere => rw [ht] at hv; exact hv.elim
  | on m' p => rw [ht] at hv; simp [Target.applies, key _ p hv]
  | anyMethod p => rw [ht] at hv; simp [Target.applies, key _ p hv]

/-- What holds of C87: if all handlers were registered without a path, the answer is the same. -/
theorem C87_same_partial (sv : Server W) (calls : List (Call (W × Response))) (hf : FairL calls)
    (hn : (logOfL calls).length < 2 ^ 64) (hsetup : execL Router.new calls = .ok sv.router)
    (halloc : ∀ k, sv.allocOk k = true) (hblind : ∀ e ∈ logOfL calls, Blind e.handler)
    (hev : ∀ e ∈ logOfL calls, e.target = .everywhere)
    (q : WireReq) (authority : Str) (ps : List Str) (hq : q.Good)
    (hq' : { q with pieces := absoluteForm authority ps }.Good)
    (hmax : q.body.length ≤ i64Max) (s s' : Sock) (hb : s.bytes = q.bytes)
    (hb' : s'.bytes = { q with pieces := absoluteForm authority ps }.bytes) (w : W) :
    sv.serve w s = sv.serve w s' := by
  refine serve_same sv calls hf hn hsetup hblind q _ hq hq' s s' hb hb' (fun k _ => halloc k) hmax ?_ w
  intro e he m
  rw [hev e he]; rfl

namespace StrictExample

/-- `/a` in origin form -/
def qa : WireReq := ⟨c!"GET", [[], c!"a"], c!"1.1", [(c!"Host", c!"b")], []⟩
theorem qa_good : qa.Good :=
  good qa rfl (by decide) (by decide) (by decide) (by decide) (by decide) (by decide +kernel)
    (by decide +kernel) (by decide +kernel)
/-- and in absolute form -/
def qb : WireReq := { qa with pieces := absoluteForm c!"b" [c!"a"] }
theorem qb_good : qb.Good :=
  good qb rfl (by decide) (by decide) (by decide) (by decide) (by decide) (by decide +kernel)
    (by decide +kernel) (by decide +kernel)

/-- the text of the target -/
example : ['/'].intercalate qb.pieces = c!"http://b/a" := by decide

/-- `/a` answers -/
def hello : Closure (Unit × Response) := fun _ st =>
  .ok ((st.1, { st.2 with body := .sized 2 (.cursor (utf8 c!"hi")) }), .stop)
def calls : List (Call (Unit × Response)) := [.route .get c!"/a" hello]

/-- the router these calls make -/
theorem made : ∃ r, execL Router.new calls = .ok r := by
  obtain ⟨r, h, -⟩ := C12_run_is_replay calls (by simp [calls, FairL, Fair]) (by decide)
  exact ⟨r, h⟩

theorem log_calls : logOfL calls = [⟨.on .get [c!"a"], hello⟩] := by
  have : Path.parse c!"/a" = some [c!"a"] := by decide
  simp [calls, logOfL, logOf, this, Verb.target, Verb.method]

end StrictExample

open StrictExample in
/-- C87 is false of the code: `GET http://b/a` is not answered as `GET /a` is. -/
theorem C87_counterexample : ¬ C87_statement := by
  intro h
  obtain ⟨r, hr⟩ := made
  let sv : Server Unit := ⟨.default, fun _ => true, .asciiOnly, .id, fun _ => 0, r⟩
  have hfair : FairL calls := by simp [calls, FairL, Fair]
  have hblind : ∀ e ∈ logOfL calls, Blind e.handler := by
    intro e he
    rw [log_calls] at he
    simp only [List.mem_singleton] at he
    subst he
    intro _ _; rfl
  have h1 := h Unit sv calls hfair (by rw [log_calls]; decide) hr (fun _ => rfl) hblind qa c!"b" [c!"a"] rfl
    (by decide) qa_good qb_good (by decide) ⟨[qa.bytes], .eof⟩ ⟨[qb.bytes], .eof⟩ (by simp [Sock.bytes])
    (by simp [Sock.bytes, qb]) ()
  obtain ⟨bytes, v, e1, e2, e3, -⟩ := C87_not_found sv calls hfair (by rw [log_calls]; decide) hr (fun _ => rfl)
    (by
      intro e he
      rw [log_calls] at he
      simp only [List.mem_singleton] at he
      subst he
      intro a ha
      simp only [List.head?_cons, Option.some.injEq] at ha
      subst ha; decide)
    qb qb_good c!"b" [c!"a"] (by decide) (by
      rw [← (C02_dotdot_rule [c!"a"] (by decide) (by decide)).1]; decide +kernel) rfl .get (by decide)
    (fun _ => ⟨(c!"Host", c!"b"), by decide, by decide +kernel⟩) (by decide) ⟨[qb.bytes], .eof⟩
    (by simp [Sock.bytes]) () (Int.le_refl 0)
  obtain ⟨req, g1, g2, g3, g4, g5, g6, -⟩ := reads_bodyless sv.feat sv.allocOk qa ⟨[qa.bytes], .eof⟩ [] qa_good rfl
    (by simp [Sock.bytes])
  have hrep : replay sv.feat.urlVariables req (logOfL calls) ((), Response.newEmpty) =
      .ok ((), { Response.newEmpty with body := .sized 2 (.cursor (utf8 c!"hi")) }) := by
    rw [log_calls]
    have hp : req.requestLine.path = [c!"a"] := by rw [g3]; decide
    have ha : Target.applies sv.feat.urlVariables (.on .get [c!"a"]) req.requestLine.method
        req.requestLine.path = true := by
      rw [g2 .get (by decide), hp]
      show Target.applies Features.default.urlVariables _ _ _ = true
      decide
    simp only [replay, ha, if_true, hello]
  have hs := served_replay sv calls hfair (by rw [log_calls]; decide) hr _ req g1
    (host_ok (q := qa) (fun _ => ⟨(c!"Host", c!"b"), by decide, by decide +kernel⟩) g4 g5 g6)
    (by rw [g2 .get (by decide)]; simp) () () _ hrep (by simp)
  rw [hs, e1] at h1
  injection h1 with h1
  injection h1 with _ h1
  subst h1
  obtain ⟨v', i1, i2, -⟩ := C36_roundtrip_partial sv.U sv.feat.cookies sv.ord
    { Response.newEmpty with body := .sized 2 (.cursor (utf8 c!"hi")) }
    ⟨by decide, by show '\r' ∉ Unicode.asciiOnly.upperStr StatusCode.ok.toStr; decide +kernel, by simp [Response.newEmpty],
      by simp [Response.newEmpty]⟩ (.inr rfl) (by intro b; simp [ResBody.getReader])
  rw [ClientParses.unique e2 i1, i2.2.1.eq] at e3
  exact absurd e3 (by decide +kernel)

/-! ### C88: several Host headers -/

/-- The full claim of C88: an HTTP/1.1 request with more than one Host header is answered by 400 and no
handler runs. -/
def C88_statement : Prop :=
  ∀ (W : Type) (sv : Server W) (q : WireReq) (s : Sock) (w : W), q.Good → q.version = c!"1.1" →
    2 ≤ (valuesOf q.headers c!"host").length → q.body = [] → s.bytes = q.bytes → 0 ≤ sv.clock w →
    ∃ bytes v, sv.serve w s = .ok (w, bytes) ∧ ClientParses bytes v ∧ v.code = c!"400"

theorem valuesOf_ne_nil {hs : List (Str × Str)} {k : Str} :
    valuesOf hs k ≠ [] ↔ ∃ h ∈ hs, lowered h.1 = k := by
  simp [valuesOf, List.filter_eq_nil_iff]

/-- What happens instead: any number of Host headers but none will do, whatever their values. Whatever
the registrations make of the request is what the client gets. -/
theorem C88_served (sv : Server W) (calls : List (Call (W × Response))) (hf : FairL calls)
    (hn : (logOfL calls).length < 2 ^ 64) (hsetup : execL Router.new calls = .ok sv.router)
    (q : WireReq) (s : Sock) (hq : q.Good) (hb : s.bytes = q.bytes)
    (halloc : ∀ k ≤ q.body.length, sv.allocOk k = true) (hmax : q.body.length ≤ i64Max)
    (hhost : valuesOf q.headers c!"host" ≠ []) (m : RequestMethod) (hm : (q.method, m) ∈ methodTable) :
    ∃ req, Reads sv.feat sv.allocOk s req ∧ req.headers.raw.map hpair = q.headers ∧ ∀ w w' res,
      replay sv.feat.urlVariables req (logOfL calls) (w, Response.newEmpty) = .ok (w', res) →
      res.body ≠ .none →
      sv.serve w s = .ok (w', sendData (res.getData sv.U sv.feat.cookies sv.ord)) := by
  obtain ⟨req, h1, h2, -, -, h5, h6, h7, -⟩ :=
    reads_wire sv.feat sv.allocOk q hq s [] (by simpa using hb) (.inl rfl) halloc hmax
  refine ⟨req, h1, h7, fun w w' res hr hres => ?_⟩
  exact served_replay sv calls hf hn hsetup s req h1
    (host_ok (fun _ => valuesOf_ne_nil.1 hhost) h5 h6 h7) (by rw [h2 m hm]; exact method_ne_none hm) w w' res hr hres

/-- What holds of C88: no Host header at all is answered by 400, whatever is registered. -/
theorem C88_none_partial (sv : Server W) (q : WireReq) (s : Sock) (w : W) (hq : q.Good)
    (hv : q.version = c!"1.1") (h0 : valuesOf q.headers c!"host" = []) (hb : s.bytes = q.bytes)
    (halloc : ∀ k ≤ q.body.length, sv.allocOk k = true) (hmax : q.body.length ≤ i64Max)
    (hc : 0 ≤ sv.clock w) :
    ∃ bytes v, (∀ router, { sv with router }.serve w s = .ok (w, bytes)) ∧ ClientParses bytes v ∧
      v.code = c!"400" ∧ v.reason = c!"BAD REQUEST" :=
  C32_refused_bytes sv w q hq s hb halloc hmax hv
    (fun h hm he => valuesOf_ne_nil.2 ⟨h, hm, he⟩ h0) hc

namespace StrictExample

/-- two hosts -/
def qh : WireReq := ⟨c!"GET", [[], c!"a"], c!"1.1", [(c!"Host", c!"b"), (c!"HOST", c!"c")], []⟩
theorem qh_good : qh.Good :=
  good qh rfl (by decide) (by decide) (by decide) (by decide) (by decide) (by decide +kernel)
    (by decide +kernel) (by decide +kernel)
theorem qh_two : valuesOf qh.headers c!"host" = [c!"b", c!"c"] := by decide +kernel

end StrictExample

open StrictExample in
/-- C88 is false of the code. -/
theorem C88_counterexample : ¬ C88_statement := by
  intro h
  obtain ⟨bytes, v, h1, h2, h3⟩ := h Unit sv qh ⟨[qh.bytes], .eof⟩ () qh_good rfl (by rw [qh_two]; decide) rfl
    (by simp [Sock.bytes]) (by decide)
  exact sv_not qh qh_good rfl .get (by decide) (fun _ => ⟨(c!"Host", c!"b"), by decide, by decide +kernel⟩) _
    (by decide) bytes v h1 h2 h3

open StrictExample in
/-- the hypotheses of `C88_served` are met -/
example : ∃ req, Reads .default (fun _ => true) ⟨[qh.bytes], .eof⟩ req ∧
    req.headers.raw.map hpair = [(c!"Host", c!"b"), (c!"HOST", c!"c")] := by
  obtain ⟨req, h1, h2, -⟩ := C88_served sv [] (by simp [FairL]) (by simp [logOfL]) (by simp [execL, sv]) qh
    ⟨[qh.bytes], .eof⟩ qh_good (by simp [Sock.bytes]) (fun _ _ => rfl) (by decide) (by rw [qh_two]; simp) .get
    (by decide)
  exact ⟨req, h1, h2⟩

/-! ### C89: other versions of HTTP -/

/-- The full claim of C89: a request that names a version of HTTP other than 1.0 and 1.1 is answered by
505 and no handler runs. -/
def C89_statement : Prop :=
  ∀ (W : Type) (sv : Server W) (q : WireReq) (s : Sock) (w : W), q.Good → q.version ≠ c!"1.1" →
    q.version ≠ c!"1.0" → q.body = [] → s.bytes = q.bytes → 0 ≤ sv.clock w →
    ∃ bytes v, sv.serve w s = .ok (w, bytes) ∧ ClientParses bytes v ∧ v.code = c!"505"

/-- What happens instead: every version token but `1.1` is treated alike, known or not. Two requests
that differ only in such tokens get the same answer from handlers that do not look at the request. -/
theorem C89_same (sv : Server W) (calls : List (Call (W × Response))) (hf : FairL calls)
    (hn : (logOfL calls).length < 2 ^ 64) (hsetup : execL Router.new calls = .ok sv.router)
    (hblind : ∀ e ∈ logOfL calls, Blind e.handler)
    (q : WireReq) (version' : Str) (hq : q.Good) (hq' : { q with version := version' }.Good)
    (hv : q.version ≠ c!"1.1") (hv' : version' ≠ c!"1.1")
    (s s' : Sock) (hb : s.bytes = q.bytes) (hb' : s'.bytes = { q with version := version' }.bytes)
    (halloc : ∀ k ≤ q.body.length, sv.allocOk k = true) (hmax : q.body.length ≤ i64Max) (w : W) :
    sv.serve w s = sv.serve w s' := by
  obtain ⟨req, h1, h2, h3, h4, h5, h6, h7, -⟩ :=
    reads_wire sv.feat sv.allocOk q hq s [] (by simpa using hb) (.inl rfl) halloc hmax
  obtain ⟨req', h1', h2', h3', h4', h5', h6', h7', -⟩ :=
    reads_wire sv.feat sv.allocOk _ hq' s' [] (by simpa using hb') (.inl rfl) halloc hmax
  obtain ⟨r, g1, g2⟩ := C12_run_is_replay calls hf hn
  rw [hsetup] at g1
  simp only [Res.ok.injEq] at g1
  subst g1
  have hmeth : req.requestLine.method = req'.requestLine.method := by
    by_cases hk : ∃ x, (q.method, x) ∈ methodTable
    · obtain ⟨x, hx⟩ := hk
      rw [h2 x hx, h2' x hx]
    · rw [h3 fun x hx => hk ⟨x, hx⟩, h3' fun x hx => hk ⟨x, hx⟩]
  have not11 : ∀ (v : Str) (x : HttpVersion), v ≠ c!"1.1" → (∀ y, (v, y) ∈ versionTable → x = y) →
      ((∀ y, (v, y) ∉ versionTable) → x = .httpInvalid) → x ≠ .http11 := by
    intro v x hne ha hb
    by_cases hk : ∃ y, (v, y) ∈ versionTable
    · obtain ⟨y, hy⟩ := hk
      rw [ha y hy]
      rintro rfl
      have : ∀ p ∈ versionTable, p.2 = .http11 → p.1 = c!"1.1" := by decide
      exact hne (this _ hy rfl)
    · rw [hb fun y hy => hk ⟨y, hy⟩]; simp
  have e1 := not11 _ _ hv h5 h6
  have e2 := not11 _ _ hv' h5' h6'
  have hrun : Router.run sv.feat.urlVariables sv.router req (w, Response.newEmpty) =
      Router.run sv.feat.urlVariables sv.router req' (w, Response.newEmpty) := by
    rw [g2 _ _ _ h1.facts.2, g2 _ _ _ h1'.facts.2]
    apply replay_same _ _ _ _ _ hblind
    intro e he
    rw [h4, h4', ← hmeth]
  rw [serve_reads h1, serve_reads h1', handle_spec, if_neg (fun h => e1 h.1), handle_spec,
    if_neg (c := _ ∧ _) (fun h => e2 h.1), hmeth, hrun]

/-- And the request is answered, without a Host: whatever the registrations make of it is what the
client gets. -/
theorem C89_served (sv : Server W) (calls : List (Call (W × Response))) (hf : FairL calls)
    (hn : (logOfL calls).length < 2 ^ 64) (hsetup : execL Router.new calls = .ok sv.router)
    (q : WireReq) (s : Sock) (hq : q.Good) (hb : s.bytes = q.bytes)
    (halloc : ∀ k ≤ q.body.length, sv.allocOk k = true) (hmax : q.body.length ≤ i64Max)
    (hv : q.version ≠ c!"1.1") (m : RequestMethod) (hm : (q.method, m) ∈ methodTable) :
    ∃ req, Reads sv.feat sv.allocOk s req ∧
      ((∀ x, (q.version, x) ∉ versionTable) → req.requestLine.version = .httpInvalid) ∧ ∀ w w' res,
      replay sv.feat.urlVariables req (logOfL calls) (w, Response.newEmpty) = .ok (w', res) →
      res.body ≠ .none →
      sv.serve w s = .ok (w', sendData (res.getData sv.U sv.feat.cookies sv.ord)) := by
  obtain ⟨req, h1, h2, -, -, h5, h6, h7, -⟩ :=
    reads_wire sv.feat sv.allocOk q hq s [] (by simpa using hb) (.inl rfl) halloc hmax
  refine ⟨req, h1, h6, fun w w' res hr hres => ?_⟩
  exact served_replay sv calls hf hn hsetup s req h1
    (host_ok (fun h => absurd h hv) h5 h6 h7) (by rw [h2 m hm]; exact method_ne_none hm) w w' res hr hres

namespace StrictExample

/-- a version that does not exist -/
def qv : WireReq := ⟨c!"GET", [[], c!"a"], c!"7.3", [(c!"X", c!"b")], []⟩
theorem qv_good : qv.Good :=
  good qv rfl (by decide) (by decide) (by decide) (by decide) (by decide) (by decide +kernel)
    (by decide +kernel) (by decide +kernel)
theorem qw_good : { qv with version := c!"1.0" }.Good :=
  good _ rfl (by decide) (by decide) (by decide) (by decide) (by decide) (by decide +kernel)
    (by decide +kernel) (by decide +kernel)

end StrictExample

open StrictExample in
/-- C89 is false of the code. -/
theorem C89_counterexample : ¬ C89_statement := by
  intro h
  obtain ⟨bytes, v, h1, h2, h3⟩ := h Unit sv qv ⟨[qv.bytes], .eof⟩ () qv_good (by decide) (by decide) rfl
    (by simp [Sock.bytes]) (by decide)
  exact sv_not qv qv_good rfl .get (by decide) (fun h => absurd h (by decide)) _ (by decide) bytes v h1 h2 h3

open StrictExample in
/-- the hypotheses of `C89_same` are met -/
example : sv.serve () ⟨[qv.bytes], .eof⟩ = sv.serve () ⟨[{ qv with version := c!"1.0" }.bytes], .eof⟩ :=
  C89_same sv [] (by simp [FairL]) (by simp [logOfL]) (by simp [execL, sv]) (by simp [logOfL]) qv c!"1.0" qv_good
    qw_good (by decide) (by decide) _ _ (by simp [Sock.bytes]) (by simp [Sock.bytes]) (fun _ _ => rfl) (by decide) ()

open StrictExample in
/-- the hypotheses of `C86_served` are met, ... -/
example := C86_served sv [] (by simp [FairL]) (by simp [logOfL]) (by simp [execL, sv]) q ⟨[q.bytes, utf8 c!"abc"], .eof⟩
  (utf8 c!"abc") q_good (fun v m h => by rw [q_values] at h; simp at h) (by simp [Sock.bytes]) .post (by decide)
open StrictExample in
/-- ... those of `C88_none_partial`, ... -/
example := C88_none_partial sv { qv with version := c!"1.1" } 
  ⟨[{ qv with version := c!"1.1" }.bytes], .eof⟩ ()
  (good _ rfl (by decide) (by decide) (by decide) (by decide) (by decide) (by decide +kernel)
    (by decide +kernel) (by decide +kernel)) rfl (by decide +kernel) (by simp [Sock.bytes]) (fun _ _ => rfl)
  (by decide) (by decide)
open StrictExample in
/-- ... and those of `C89_served` -/
example := C89_served sv [] (by simp [FairL]) (by simp [logOfL]) (by simp [execL, sv]) qv ⟨[qv.bytes], .eof⟩ qv_good
  (by simp [Sock.bytes]) (fun _ _ => rfl) (by decide) (by decide) .get (by decide)

end Octane
