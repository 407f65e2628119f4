import Verif.Props.Seen
import Verif.Props.Time
import Verif.Props.Tables
import Verif.Props.Lookup
import Verif.Props.Lines
import Verif.Props.Strict
import Verif.Props.Forms
import Verif.Props.Climb
import Verif.Props.Robust
import Verif.Check.Cases2
/-
For C28, C44, C46, C53, C56, C68, C72, C79, C86, C88, C96, C111 and C136, which do not hold of every input: exactly the inputs they
hold of.
-/
namespace Octane
open Spec
universe u
variable {W : Type u}

/-- C28, exactly: the value of an accepted header has a control character if and only if it has U+001F. -/
theorem C28_iff (line : Str) (h : Header) (hp : Header.parse true line = some h) :
    (h.name ≠ [] ∧ (∀ c ∈ h.name, isTchar c) ∧ ∀ c ∈ h.value, ¬ isControl c) ↔ Char.ofNat 0x1F ∉ h.value := by
  obtain ⟨h1, h2, h3⟩ := C28_wellformed_partial line h hp
  refine ⟨fun h hc => h.2.2 _ hc (by decide), fun hc => ⟨h1, h2, fun c hm hctl => hc ?_⟩⟩
  have e := h3 c hm hctl
  have : c = Char.ofNat 0x1F := by rw [← e, Char.ofNat_toNat]
  exact this ▸ hm

example : Header.parse true c!"A: b" = some ⟨c!"A", c!"b"⟩ ∧ Char.ofNat 0x1F ∉ c!"b" := by decide +kernel

/-- C44, exactly: the type is well-formed for every extension but `bin`, in any case. -/
theorem C44_iff (U : Unicode) (ext : Str) :
    (∃ top sub, mimeType U ext = top ++ '/' :: sub ∧ top ∈ topLevel ∧ sub ≠ [] ∧ '/' ∉ sub) ↔ U.lower ext ≠ c!"bin" := by
  refine ⟨fun ⟨top, sub, h1, h2, _, _⟩ hb => ?_, C44_wellformed_partial U ext⟩
  have e : mimeType U ext = c!"applcation/octet-stream" := by
    unfold mimeType
    rw [hb]
    decide +kernel
  rw [e] at h1
  simp only [topLevel, List.mem_cons, List.not_mem_nil, or_false] at h2
  rcases h2 with rfl | rfl | rfl | rfl | rfl | rfl <;> simp at h1

example (U : Unicode) : U.lower c!"BIN" = c!"bin" ∧ U.lower c!"Html" ≠ c!"bin" := by
  rw [U.lower_ascii _ (by decide), U.lower_ascii _ (by decide)]
  decide +kernel

/-- C46, exactly: the date is an IMF-fixdate in every month but September. -/
theorem C46_iff (clock : Int) (h0 : 0 ≤ clock) (h1 : clock ≤ i64Max) (c : Civil) (hv : c.Valid)
    (hi : c.instant = clock) (hy : c.year ≤ 9999) :
    (∃ s, dateHeader clock = .ok (some s) ∧ IMFFixdate c s ∧ s.length = 29) ↔ c.month ≠ 8 := by
  refine ⟨fun ⟨s, e, hs, _⟩ hm => ?_, C46_imf_fixdate_partial clock h0 h1 c hv hi hy⟩
  obtain ⟨s', e', -, hn⟩ := C46_september clock h0 h1 c hv hi hy hm
  rw [e] at e'
  simp only [Res.ok.injEq, Option.some.injEq] at e'
  exact hn c (e' ▸ hs)

/-- 1 September 2020 and the first of January 1970 -/
example : ¬ (∃ s, dateHeader 1598918400 = .ok (some s) ∧ IMFFixdate ⟨2020, 8, 1, 0, 0, 0⟩ s ∧ s.length = 29) ∧
    ∃ s, dateHeader 0 = .ok (some s) ∧ IMFFixdate ⟨1970, 0, 1, 0, 0, 0⟩ s ∧ s.length = 29 := by
  rw [C46_iff _ (by decide) (by decide) _ (by unfold Civil.Valid; decide) (by decide +kernel) (by decide),
    C46_iff _ (by decide) (by decide) _ (by unfold Civil.Valid; decide) (by decide +kernel) (by decide)]
  decide

/-- C53, exactly: the version is printed back as it came for every token that is accepted but 2.0. -/
theorem C53_iff (tok : Str) (h : versionOf tok ≠ .httpInvalid) : (versionOf tok).toStr = tok ↔ tok ≠ c!"2.0" := by
  refine ⟨?_, fun h2 => (C53_roundtrip_partial tok h h2).1⟩
  rintro e rfl
  exact absurd e (by decide)

example : versionOf c!"2.0" ≠ .httpInvalid ∧ versionOf c!"1.0" ≠ .httpInvalid := by decide

/-- C72, exactly: a header is found under this spelling if the spelling has no capital, and one that was not sent is
found under none. -/
theorem C72_iff (feat : Features) (allocOk : Nat → Bool) (s : Sock) (req : Request)
    (h : Reads feat allocOk s req) (k : Str) :
    req.headers.get k = joined (req.headers.raw.map hpair) (lowered k) ↔
      (∀ c ∈ k, ¬ isUpper c) ∨ ∀ hd ∈ req.headers.raw, lowered hd.name ≠ lowered k := by
  have hj : joined (req.headers.raw.map hpair) (lowered k) = none ↔
      ∀ hd ∈ req.headers.raw, lowered hd.name ≠ lowered k := by
    rw [joined_none]
    simp [hpair]
  by_cases hk : ∀ c ∈ k, ¬ isUpper c
  · exact ⟨fun _ => .inl hk, fun _ => C72_lower_partial feat allocOk s req h k hk⟩
  · have : ∃ c, c ∈ k ∧ isUpper c := by
      apply Classical.byContradiction
      intro hn
      exact hk fun c hc hu => hn ⟨c, hc, hu⟩
    obtain ⟨c, hc, hu⟩ := this
    rw [C72_upper_never feat allocOk s req h k c hc hu, ← hj]
    exact ⟨fun e => .inr e.symm, fun e => (e.resolve_left hk).symm⟩

/-- C96, exactly: of the arguments that name a type the full ones work. -/
theorem C96_iff (r : Response) (t m : Str) (h : TypeNamed t m) :
    (r.withType t).get c!"Content-Type" = some m ↔ '/' ∈ t :=
  ⟨fun e => Classical.byContradiction fun hs => C96_short_never r t m h hs e, C96_full_partial r t m h⟩

/-- C56, exactly: the answer to a HEAD request ends with its head if and only if the handlers sent a body from which
nothing comes: an empty one, or a file. -/
theorem C56_iff (sv : Server W) (w w' : W) (s : Sock) (req : Request) (res : Response)
    (h : Reads sv.feat sv.allocOk s req)
    (hv : req.requestLine.version ≠ .http11 ∨ ∃ hd ∈ req.headers.raw, lowered hd.name = c!"host")
    (hm : req.requestLine.method = .head)
    (hr : Router.run sv.feat.urlVariables sv.router req (w, Response.newEmpty) = .ok (w', res))
    (hw : Writable sv.U res) (hc : sv.feat.cookies = false ∨ res.cookies = []) (hclock : 0 ≤ sv.clock w') :
    (∃ out v, sv.serve w s = .ok (w', out) ∧ ClientParses out v ∧ v.body = []) ↔
      res.body ≠ .none ∧ (InMemory res → bodyBytes res = []) := by
  obtain ⟨d1, d2⟩ := (C34_dispatch sv w s req h hv (by rw [hm]; decide)).1 w' res hr
  by_cases hb : res.body = .none
  · obtain ⟨bytes, v, f1, f2, -, -, f3⟩ := d1 hb hclock
    refine ⟨?_, fun hx => absurd hb hx.1⟩
    rintro ⟨out, v', k1, k2, k3⟩
    rw [f1] at k1
    simp only [Io.ok.injEq, Prod.mk.injEq, true_and] at k1
    subst k1
    rw [k2.unique f2, f3] at k3
    exact absurd k3 (by decide)
  · obtain ⟨v, h1, ⟨-, -, -, -, h2⟩, h3⟩ := C36_roundtrip_partial sv.U sv.feat.cookies sv.ord (onWire res)
      (onWire_writable hw) hc (onWire_inMemory res)
    rw [← onWire_bytes] at h1 h3
    have e : bodyBytes (onWire res) = [] ↔ (InMemory res → bodyBytes res = []) := by
      have e0 : bodyBytes (onWire res) = (copy res.body.getReader).1 := rfl
      rw [e0]
      by_cases hmem : InMemory res
      · rw [copy_inMemory hmem]
        exact ⟨fun h _ => h, fun h => h hmem⟩
      · obtain ⟨b, hb'⟩ : ∃ b, res.body.getReader = .file b := by
          apply Classical.byContradiction
          intro h
          exact hmem fun b hb => h ⟨b, hb⟩
        rw [hb', copy_anyFile]
        exact ⟨fun _ hx => absurd hx hmem, fun _ => rfl⟩
    rw [d2 hb, ← e]
    constructor
    · rintro ⟨out, v', k1, k2, k3⟩
      simp only [Io.ok.injEq, Prod.mk.injEq, true_and] at k1
      subst k1
      rw [h3 v' k2] at k3
      exact ⟨hb, h2.symm.trans k3⟩
    · rintro ⟨-, he⟩
      exact ⟨_, v, rfl, h1, h2.trans he⟩

/-- C136, exactly: if the request without the header is not refused, the request with it is answered the same if and only
if the bytes are UTF-8. -/
theorem C136_iff (P : Str → Prop) (calls : List (Call (W × Response))) (hf : FairL calls)
    (hn : (logOfL calls).length < 2 ^ 64) (sv : Server W) (hsv : execL Router.new calls = .ok sv.router)
    (hl : ∀ e ∈ logOfL calls, LooksOnlyAt P e.handler)
    (q : WireReq) (pre post : List (Str × Str)) (n : Str) (v : Bytes) (hp : q.headers = pre ++ post) (hq : q.Framed)
    (hname : n ≠ [] ∧ ∀ c ∈ n, isTchar c) (hP : ¬ P (lowered n))
    (hk : lowered n ∉ [c!"content-length", c!"cookie", c!"host"]) (hv : ∀ b ∈ v, 0x80 ≤ b.toNat)
    (s s' : Sock) (hb : s.bytes = q.bytes) (hb' : s'.bytes = q.withRaw pre post n v)
    (halloc : ∀ k ≤ q.body.length, sv.allocOk k = true) (hmax : q.body.length ≤ i64Max) (w : W)
    (hc : 0 ≤ sv.clock w) (hok : ¬ Page sv w s w c!"400" c!"BAD REQUEST") :
    sv.serve w s = sv.serve w s' ↔ ∃ t, v = utf8 t := by
  refine ⟨fun e => Classical.byContradiction fun hu => hok ?_, fun ⟨t, hu⟩ =>
    C136_utf8_partial P calls hf hn sv hsv hl q pre post n v hp hq hname hP hk hv t hu s s' hb hb' halloc hmax w⟩
  have hcr : '\r' ∉ n := fun hm => absurd (hname.2 _ hm) (by decide)
  have h13 : (13 : UInt8) ∉ v := fun hm => absurd (hv _ hm) (by decide)
  have := C136_value sv w s' q hq pre post hp n v hcr h13 (fun t ht => hu ⟨t, ht⟩) hb' hc
  unfold Page at this ⊢
  rw [e]
  exact this

/-- C68, exactly: if no length beyond `isize::MAX` is declared and memory can be had, a connection is waited for if and
only if the peer neither sends nor closes and its request is incomplete. -/
theorem C68_iff (sv : Server W) (w : W) (s : Sock) (halloc : ∀ k, sv.allocOk k = true)
    (hmax : ∀ text line hdrs hs rest n, FirstSplit s.bytes blankLine (utf8 text) rest → FirstSplit text crlf line hdrs →
      BlockOk sv.feat.faithful hdrs hs → DeclaredLength (joined hs) n → n ≤ i64Max) :
    sv.serve w s = .pending ↔ s.fin = .silent ∧ Incomplete sv.feat.faithful s.bytes := by
  refine ⟨C68_waits_only_partial sv w s, ?_⟩
  rintro ⟨hf, h | ⟨text, line, hdrs, hs, rest, n, h1, h2, h3, h4, h5, h6⟩⟩
  · exact C68_waits_head sv w s hf h
  · exact C68_waits_body sv w s hf halloc text line hdrs hs rest n h1 h2 h3 h4 h5 h6
      (hmax text line hdrs hs rest n h1 h2 h3 h5)

/-- C88, exactly: a request of HTTP/1.1 is refused with 400 whatever is registered if and only if it has no Host at
all. -/
theorem C88_iff (sv : Server W) (q : WireReq) (s : Sock) (w : W) (hq : q.Good) (hv : q.version = c!"1.1")
    (hb : s.bytes = q.bytes) (halloc : ∀ k ≤ q.body.length, sv.allocOk k = true) (hmax : q.body.length ≤ i64Max)
    (hc : 0 ≤ sv.clock w) (m : RequestMethod) (hm : (q.method, m) ∈ methodTable) :
    (∀ router, ∃ bytes v, { sv with router }.serve w s = .ok (w, bytes) ∧ ClientParses bytes v ∧ v.code = c!"400") ↔
      valuesOf q.headers c!"host" = [] := by
  constructor
  · intro h
    apply Classical.byContradiction
    intro hh
    obtain ⟨bytes, v, e1, e2, e3⟩ := h Router.new
    obtain ⟨bytes', v', k1, k2, k3⟩ := C134_unregistered_partial { sv with router := Router.new } [] (by simp [FairL])
      (by simp [logOfL]) rfl q hq s hb halloc hmax m hm (fun _ => valuesOf_ne_nil.1 hh) (by simp [logOfL]) w hc
    rw [e1] at k1
    simp only [Io.ok.injEq, Prod.mk.injEq, true_and] at k1
    subst k1
    rw [e2.unique k2, k3] at e3
    exact absurd e3 (by decide)
  · intro h0 router
    obtain ⟨bytes, v, e1, e2, e3, -⟩ := C88_none_partial sv q s w hq hv h0 hb halloc hmax hc
    exact ⟨bytes, v, e1 router, e2, e3⟩

/-- C86, exactly: a request with a known method is refused with 400 whatever is registered if and only if it is of
HTTP/1.1 and has no Host. Its Content-Length headers make no difference. -/
theorem C86_iff (sv : Server W) (q : WireReq) (s : Sock) (w : W) (hq : q.Good)
    (hb : s.bytes = q.bytes) (halloc : ∀ k ≤ q.body.length, sv.allocOk k = true) (hmax : q.body.length ≤ i64Max)
    (hc : 0 ≤ sv.clock w) (m : RequestMethod) (hm : (q.method, m) ∈ methodTable) :
    (∀ router, ∃ bytes v, { sv with router }.serve w s = .ok (w, bytes) ∧ ClientParses bytes v ∧ v.code = c!"400") ↔
      q.version = c!"1.1" ∧ valuesOf q.headers c!"host" = [] := by
  by_cases hv : q.version = c!"1.1"
  · rw [C88_iff sv q s w hq hv hb halloc hmax hc m hm]
    simp [hv]
  · refine ⟨fun h => ?_, fun h => absurd h.1 hv⟩
    obtain ⟨bytes, v, e1, e2, e3⟩ := h Router.new
    obtain ⟨bytes', v', k1, k2, k3⟩ := C134_unregistered_partial { sv with router := Router.new } [] (by simp [FairL])
      (by simp [logOfL]) rfl q hq s hb halloc hmax m hm (fun h => absurd h hv) (by simp [logOfL]) w hc
    rw [e1] at k1
    simp only [Io.ok.injEq, Prod.mk.injEq, true_and] at k1
    subst k1
    rw [e2.unique k2, k3] at e3
    exact absurd e3 (by decide)

/-- C79, exactly: a request with a query gets 404 from all handlers registered for literal paths other than the one
before the `?`, if and only if what its `..` leave of the target is that path or is not literal itself (a name in it has
a `?`, or begins with a colon). (That `ps ++ [last]` is what comes before the `?` does not matter.) -/
theorem C79_iff {W : Type} (sv : Server W) (halloc : ∀ k, sv.allocOk k = true) (q : WireReq) (ps : List Str)
    (last : Str) (hq : q.Good) (m : RequestMethod) (hm : (q.method, m) ∈ methodTable)
    (hhost : q.version = c!"1.1" → ∃ h ∈ q.headers, lowered h.1 = c!"host")
    (hmax : q.body.length ≤ i64Max) (s : Sock) (hb : s.bytes = q.bytes) (w : W) (hc : 0 ≤ sv.clock w) :
    (∀ (calls : List (Call (W × Response))) router, FairL calls → (logOfL calls).length < 2 ^ 64 →
      execL Router.new calls = .ok router → (∀ e ∈ logOfL calls, Literal e.target) →
      (∀ e ∈ logOfL calls, ∀ m p, e.target = .on m p ∨ e.target = .anyMethod p → p ≠ resolve (ps ++ [last])) →
      ∃ bytes v, { sv with router }.serve w s = .ok (w, bytes) ∧ ClientParses bytes v ∧ v.code = c!"404") ↔
    resolve q.pieces = resolve (ps ++ [last]) ∨ ∃ a ∈ resolve q.pieces, a.head? = some ':' ∨ '?' ∈ a := by
  constructor
  · intro h
    apply Classical.byContradiction
    intro hn
    have hne : resolve q.pieces ≠ resolve (ps ++ [last]) := fun e => hn (.inl e)
    have hlit : ∀ a ∈ resolve q.pieces, a.head? ≠ some ':' ∧ '?' ∉ a := fun a ha =>
      ⟨fun e => hn (.inr ⟨a, ha, .inl e⟩), fun e => hn (.inr ⟨a, ha, .inr e⟩)⟩
    have hparse := (C02_dotdot_rule q.pieces hq.pieces.1 fun x hx => (hq.pieces.2 x hx).2.1).2 hq.inside
    let calls : List (Call (W × Response)) := [.route .addRoute (['/'].intercalate q.pieces) fun _ _ => .panic]
    have hlog : logOfL calls = [⟨.anyMethod (resolve q.pieces), fun _ _ => .panic⟩] := by
      simp [calls, logOfL, logOf, Verb.target, hparse]
    have hfair : FairL calls := by simp [calls, FairL, Fair]
    have hlen : (logOfL calls).length < 2 ^ 64 := by rw [hlog]; simp
    obtain ⟨router, g1, g2⟩ := C12_run_is_replay calls hfair hlen
    obtain ⟨bytes, v, e1, -⟩ := h calls router hfair hlen g1
      (by rw [hlog]; intro e he; rw [List.mem_singleton.1 he]; exact hlit)
      (by
        rw [hlog]; intro e he m' p hp
        rw [List.mem_singleton.1 he] at hp
        rcases hp with hp | hp
        · cases hp
        · cases hp; exact hne)
    obtain ⟨req, h1, h2, -, h4, h5, h6, h7, -⟩ :=
      reads_wire sv.feat sv.allocOk q hq s [] (by simpa using hb) (.inl rfl) (fun k _ => halloc k) hmax
    have hm1 := h2 m hm
    have hmn : req.requestLine.method ≠ .none := by
      rw [hm1]
      have : ∀ p ∈ methodTable, p.2 ≠ .none := by decide
      exact this _ hm
    have hpat : PatMatch sv.feat.urlVariables (resolve q.pieces) (resolve q.pieces) := by
      unfold PatMatch
      split
      · exact ⟨rfl, fun i a b ha hb => .inr (by rw [ha] at hb; exact Option.some.inj hb)⟩
      · exact ⟨rfl, fun a ha => (hlit a ha).1⟩
    have hrun : Router.run sv.feat.urlVariables router req (w, Response.newEmpty) = .panic := by
      rw [g2 _ _ _ h1.facts.2, hlog]
      simp [replay, Target.applies, h4, hpat]
    have := (C34_dispatch { sv with router } w s req h1 (host_ok hhost h5 h6 h7) hmn).2 hrun
    rw [this] at e1
    cases e1
  · intro h calls router hf hn hsetup hlit hother
    obtain ⟨bytes, v, h1, h2, h3, -⟩ := C69_unmatched { sv with router } calls hf hn hsetup q hq s hb
      (fun k _ => halloc k) hmax m hm hhost
      (by
        intro e he
        have key : ∀ uv p, (∀ a ∈ p, a.head? ≠ some ':' ∧ '?' ∉ a) → p ≠ resolve (ps ++ [last]) →
            ¬ PatMatch uv p (resolve q.pieces) := by
          intro uv p hpl hne hpm
          have hp : p = resolve q.pieces := by
            cases uv with
            | false =>
              simp only [PatMatch, Bool.false_eq_true, if_false] at hpm
              exact hpm.1
            | true =>
              simp only [PatMatch, if_true] at hpm
              obtain ⟨hl, hpm⟩ := hpm
              refine List.ext_getElem hl fun i h1 h2 => ?_
              rcases hpm i _ _ (List.getElem?_eq_getElem h1) (List.getElem?_eq_getElem h2) with h | h
              · exact absurd h (hpl _ (List.getElem_mem _)).1
              · exact h
          rcases h with h | ⟨a, ha, h⟩
          · exact hne (hp.trans h)
          · rw [← hp] at ha
            rcases h with h | h
            · exact (hpl a ha).1 h
            · exact (hpl a ha).2 h
        have hv := hlit e he
        have ho := hother e he
        cases ht : e.target with
        | everywhere => rw [ht] at hv; exact hv.elim
        | on m' p => rw [ht] at hv; simp [Target.applies, key _ p hv (ho m' p (.inl ht))]
        | anyMethod p => rw [ht] at hv; simp [Target.applies, key _ p hv (ho m p (.inr ht))]) w hc
    exact ⟨bytes, v, h1, h2, h3⟩

/-- C111, exactly: a well-formed request after an empty line is answered as without it if and only if it is not answered
without it either, because its task panics. -/
theorem C111_iff (sv : Server W) (q : WireReq) (hq : q.Framed) (s s' : Sock) (rest rest' : Bytes)
    (hb : s.bytes = q.bytes ++ rest) (hb' : s'.bytes = crlfB ++ (q.bytes ++ rest')) (w : W) :
    sv.serve w s = sv.serve w s' ↔ sv.serve w s = .panic := by
  have hp : sv.serve w s' = .panic := by
    have hs := firstSplit_lines q.line (q.headers.map wireHeader) (by
      intro x hx
      rcases List.mem_cons.1 hx with rfl | hx
      · exact ⟨hq.line_cr, by simp [WireReq.line]⟩
      · obtain ⟨h, hh, rfl⟩ := List.mem_map.1 hx
        exact hq.header_cr hh) (q.body ++ rest')
    have hcr := hq.line_cr
    obtain ⟨c, line, e⟩ : ∃ c line, q.line = c :: line := by
      cases hl : q.line with
      | nil => simp [WireReq.line] at hl
      | cons c line => exact ⟨c, line, rfl⟩
    obtain ⟨text, et⟩ : ∃ text, crlf.intercalate (q.line :: q.headers.map wireHeader) = c :: text := by
      rw [e]
      cases q.headers with
      | nil => exact ⟨line, by simp [List.intercalate]⟩
      | cons h hs => exact ⟨_, by rw [List.map_cons, intercalate_cons_cons]; rfl⟩
    rw [et] at hs
    refine C111_panics sv s' c text (q.body ++ rest') (fun h => hcr (by rw [e, h]; simp)) hs ?_ w
    rw [hb', WireReq.bytes, et]
    simp
  rw [hp]

namespace ExtentExample

open Cases in
/-- HEAD for a handler that sends nothing, and for one that sends a text -/
example : (∃ out v, (demo nothing).serve () (sends c!"HEAD /a HTTP/1.0\r\nA: b\r\n\r\n") = .ok ((), out) ∧
      ClientParses out v ∧ v.body = []) ∧
    ¬ ∃ out v, (demo hello).serve () (sends c!"HEAD /a HTTP/1.0\r\nA: b\r\n\r\n") = .ok ((), out) ∧
      ClientParses out v ∧ v.body = [] := by
  rw [C56_iff (demo nothing) () () _ _ nothingResponse C56_reads (.inl (by decide)) rfl nothing_head nothing_writable
      (.inr (by decide +kernel)) (by decide),
    C56_iff (demo hello) () () _ _ helloResponse C56_reads (.inl (by decide)) rfl hello_head hello_writable
      (.inr (by decide +kernel)) (by decide)]
  exact ⟨⟨by decide +kernel, fun _ => by decide +kernel⟩,
    fun h => absurd (h.2 hello_memory) (by decide +kernel)⟩

open TargetExample FieldsExample UnknownExample LinesExample

/-- a request with a capital in the header it asks for, and one it does not have -/
example (feat : Features) (allocOk : Nat → Bool) (s : Sock) (req : Request) (h : Reads feat allocOk s req)
    (hr : req.headers.raw = [⟨c!"Host", c!"b"⟩]) :
    req.headers.get c!"Host" ≠ joined (req.headers.raw.map hpair) (lowered c!"Host") ∧
      req.headers.get c!"Accept" = joined (req.headers.raw.map hpair) (lowered c!"Accept") := by
  rw [Ne, C72_iff feat allocOk s req h, C72_iff feat allocOk s req h, hr]
  decide +kernel

example (r : Response) : (r.withType c!"text/css").get c!"Content-Type" = some c!"text/css" ∧
    (r.withType c!"css").get c!"Content-Type" ≠ some c!"text/css" := by
  refine ⟨(C96_iff r _ _ (.inl ⟨by decide, rfl⟩)).2 (by decide), fun h => ?_⟩
  exact absurd ((C96_iff r c!"css" c!"text/css" (.inr ⟨by decide, by decide +kernel⟩)).1 h) (by decide)

/-- the handler answers, and not by the page: the answer is shorter -/
theorem answered : ¬ Page (demo tells) () (asks [(c!"A", c!"1")]) () c!"400" c!"BAD REQUEST" := by
  rintro ⟨bytes, v, h1, ⟨sl, lines, h2, -⟩, -, -, h3, -⟩
  have e : (match (demo tells).serve () (asks [(c!"A", c!"1")]) with
      | .ok (_, b) => decide (b.length < (utf8 notFoundPage).length)
      | _ => false) = true := by decide +kernel
  rw [h1] at e
  have hl := congrArg List.length h2.1
  rw [List.length_append, h3] at hl
  have := of_decide_eq_true e
  omega

/-- `é` in Latin-1 is refused, in UTF-8 it is not looked at -/
example : ∀ v, v = latin ∨ v = unicode →
    (Server.serve (demo tells) () (asks [(c!"A", c!"1")]) = Server.serve (demo tells) () (asksRaw v) ↔ v = unicode) := by
  intro v hv
  rw [C136_iff (· = c!"a") [.add tells] (by simp [FairL, Fair]) (by simp [logOfL, logOf]) (demo tells) rfl
    (by intro e he; simp only [logOfL, logOf, List.append_nil, List.mem_singleton] at he; subst he; exact tells_only)
    { q [c!"a"] with headers := [(c!"A", c!"1")] } [(c!"A", c!"1")] [] c!"X" v rfl
    (framed _ (by decide) (by decide) (by decide)) (by decide) (by decide +kernel) (by decide +kernel)
    (by rcases hv with rfl | rfl <;> decide)
    _ _ (by simp [FieldsExample.asks, Sock.bytes]) (by simp [asksRaw, Sock.bytes]) (fun _ _ => rfl) (by decide) ()
    (by decide) answered]
  rcases hv with rfl | rfl
  · exact ⟨fun ⟨t, ht⟩ => absurd ht (latin_not t), fun h => absurd h (by decide)⟩
  · exact ⟨fun _ => rfl, fun _ => ⟨c!"é", by decide⟩⟩

/-- nothing has arrived yet: waited for, unless the peer closes -/
example : empty.serve () ⟨[], .silent⟩ = .pending ∧ empty.serve () ⟨[], .eof⟩ ≠ .pending := by
  have hno : ∀ f, ¬ Occurs (Sock.bytes ⟨[], f⟩) blankLine := by
    rintro f ⟨i, x, y, h, -⟩
    simp [Sock.bytes, blankLine] at h
  have hm : ∀ f, ∀ text line hdrs hs rest n, FirstSplit (Sock.bytes ⟨[], f⟩) blankLine (utf8 text) rest →
      FirstSplit text crlf line hdrs → BlockOk empty.feat.faithful hdrs hs → DeclaredLength (joined hs) n →
      n ≤ i64Max := fun f _ _ _ _ _ _ h => absurd ⟨_, _, _, h.1, rfl⟩ (hno f)
  rw [Ne, C68_iff _ () _ (fun _ => rfl) (hm _), C68_iff _ () _ (fun _ => rfl) (hm _)]
  exact ⟨⟨rfl, .inl (hno _)⟩, fun h => absurd h.1 (by decide)⟩

/-- two hosts are not refused -/
example : ¬ ∀ router, ∃ bytes v, { StrictExample.sv with router }.serve () ⟨[StrictExample.qh.bytes], .eof⟩ =
    .ok ((), bytes) ∧ ClientParses bytes v ∧ v.code = c!"400" := by
  rw [C88_iff StrictExample.sv StrictExample.qh _ () StrictExample.qh_good rfl (by simp [Sock.bytes]) (fun _ _ => rfl)
    (by decide) (by decide) .get (by decide), StrictExample.qh_two]
  decide

/-- `GET /p?x/y/../z` is not answered by handlers for other literal paths; `GET /p?/../a` is by one of them -/
example : (∃ a ∈ resolve ClimbExample.level, a.head? = some ':' ∨ '?' ∈ a) ∧
    ¬ (resolve ClimbExample.pieces = resolve ([[]] ++ [c!"p"]) ∨
      ∃ a ∈ resolve ClimbExample.pieces, a.head? = some ':' ∨ '?' ∈ a) := by
  have h1 : resolve ClimbExample.level = [c!"p?x", c!"z"] := by decide +kernel
  have h2 : resolve ClimbExample.pieces = [c!"a"] := by decide +kernel
  rw [h1, h2]
  decide +kernel

open TargetExample in
example : ¬ ∀ (calls : List (Call (Unit × Response))) router, FairL calls → (logOfL calls).length < 2 ^ 64 →
    execL Router.new calls = .ok router → (∀ e ∈ logOfL calls, Literal e.target) →
    (∀ e ∈ logOfL calls, ∀ m p, e.target = .on m p ∨ e.target = .anyMethod p → p ≠ resolve ([[]] ++ [c!"p"])) →
    ∃ bytes v, { empty with router }.serve () ClimbExample.sock = .ok ((), bytes) ∧ ClientParses bytes v ∧
      v.code = c!"404" := by
  rw [C79_iff empty (fun _ => rfl) { q [c!"a"] with pieces := ClimbExample.pieces } [[]] c!"p" ClimbExample.good .get
    (by decide +kernel) (by intro h; cases h) (by decide) ClimbExample.sock (by simp [ClimbExample.sock, Sock.bytes]) ()
    (by simp [empty])]
  have h2 : resolve ClimbExample.pieces = [c!"a"] := by decide +kernel
  simp only [h2]
  decide +kernel

/-- two lengths that differ, and a Host -/
example : ¬ LengthOk StrictExample.q.headers ∧ ¬ ∀ router, ∃ bytes v,
    { StrictExample.sv with router }.serve () ⟨[StrictExample.q.bytes], .eof⟩ = .ok ((), bytes) ∧ ClientParses bytes v ∧
      v.code = c!"400" := by
  rw [C86_iff StrictExample.sv StrictExample.q _ () StrictExample.q_good (by simp [Sock.bytes]) (fun _ _ => rfl)
    (by decide) (by decide) .post (by decide)]
  exact ⟨StrictExample.q_bad, by decide +kernel⟩

/-- `GET /a` after an empty line -/
example (sv : Server Unit) : sv.serve () (TargetExample.sock [c!"a"]) = sv.serve () RobustExample.late ↔
    sv.serve () (TargetExample.sock [c!"a"]) = .panic :=
  C111_iff sv (TargetExample.q [c!"a"]) RobustExample.slash_framed.toFramed _ _ [] []
    (by rw [TargetExample.sock_bytes, List.append_nil]) (by simp [RobustExample.late, Sock.bytes]) ()

end ExtentExample
end Octane
