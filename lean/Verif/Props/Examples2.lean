import Verif.Spec.Examples2
import Verif.Proof.Examples2
/-
C153: the examples in the documentation of the router and of the request.
-/
namespace Octane
open Spec Query
variable {W : Type u} {α : Type}

/-! ### C153 -/

/-- The full claim of C153, for the examples that read something from the request. -/
def C153_statement : Prop :=
  ∀ (sv : Server Unit) (s : Sock) (q : Asked), Brings sv s q → q.method = c!"GET" → Guided sv () s q

/-- The examples of the six methods and the three macros: "Hello, World" is shown for `/` and the method of the
example, HEAD among them, and the 404 page for everything else. -/
theorem C153_hello (sv : Server W) (v : Verb) (flow : Flow) (hv : v ≠ .addRoute)
    (hsv : execL Router.new (Doc.hello sv.U sv.clock v flow) = .ok sv.router) (w : W) (s : Sock) (q : Asked)
    (hq : Brings sv s q) :
    ((q.method, v.method) ∈ methodTable ∧ resolve q.pieces = [] → Shows sv w s (utf8 c!"Hello, World")) ∧
    (¬ ((q.method, v.method) ∈ methodTable ∧ resolve q.pieces = []) → Page sv w s w c!"404" c!"NOT FOUND") := by
  obtain ⟨n, hin⟩ := hq.asked
  have hp : Path.parse c!"/" = some [] := by decide +kernel
  have h := C123_texts (Doc.hello sv.U sv.clock v flow) (by simp [Doc.hello, FairL, Fair])
    (by simp [Doc.hello, logOfL, logOf, hp]) sv hsv [⟨v.target [], utf8 c!"Hello, World", flow⟩]
    (by
      simp only [Doc.hello, logOfL, logOf, hp, List.append_nil, List.map_cons, List.map_nil, Script.reg, Text.script,
        List.cons.injEq, and_true, Reg.mk.injEq, true_and]
      funext mr st
      simp only [routeFlow, sendText, execOps, ResOp.exec]
      cases st.2.send sv.U (sv.clock st.1) (utf8 c!"Hello, World") <;> rfl)
    w s hq.eof hq.len hq.memory hq.clock q n hin hq.host _ (method_known _ hq.known)
  rw [shown_same _ _ _ (utf8 c!"Hello, World") _ (by simp)] at h
  have happ : (v.target []).applies sv.feat.urlVariables (methodOf q.method) (resolve q.pieces) = true ↔
      (q.method, v.method) ∈ methodTable ∧ resolve q.pieces = [] := by
    have h1 : (v.target []).applies sv.feat.urlVariables (methodOf q.method) (resolve q.pieces) =
        (decide (v.method = methodOf q.method) && patMatchB sv.feat.urlVariables [] (resolve q.pieces)) := by
      cases v <;> first | exact absurd rfl hv | simp [Verb.target, Target.applies, decide_patMatch]
    have h2 : patMatchB sv.feat.urlVariables [] (resolve q.pieces) = true ↔ resolve q.pieces = [] := by
      cases resolve q.pieces <;> simp [patMatchB]
    have h3 : ∀ t ∈ methodTokens, ∀ p ∈ methodTable, p.1 = t → p.2 = methodOf t := by decide +kernel
    rw [h1, Bool.and_eq_true, decide_eq_true_eq, h2]
    constructor
    · rintro ⟨e, e2⟩
      exact ⟨e ▸ method_known _ hq.known, e2⟩
    · rintro ⟨e, e2⟩
      exact ⟨h3 _ hq.known _ e rfl, e2⟩
  simp only [List.any_cons, List.any_nil, Bool.or_false, happ] at h
  constructor
  · intro hyes
    rw [if_pos hyes] at h
    exact h
  · intro hno
    rw [if_neg hno] at h
    exact h

/-- The examples of `Headers` and `MatchedRequest`: whatever a program does with what it has read, and whatever a
connection brings, it does what it would do if it were told that there is no such header. (So for every name with an
upper-case letter.) -/
theorem C153_header_none (sv : Server W) (name : Str) (c : Char) (hc : c ∈ name) (hu : isUpper c) (flow : Flow)
    (k : Option Str → W × Response → Res (W × Response))
    (hsv : execL Router.new (reading (Doc.header name) flow k) = .ok sv.router) (r' : Router (W × Response))
    (hr' : execL Router.new (reading (fun _ => .ok none) flow k) = .ok r') (w : W) (s : Sock) :
    sv.serve w s = { sv with router := r' }.serve w s :=
  reading_constant sv _ flow k hsv none r' hr' w s fun req q n vars _ hw _ _ => by
    show Res.ok (req.headers.get name) = _
    rw [hw.get, joined_upper _ _ c hc hu]

/-- The examples of `get_query` and `QueryValue`: the same, with no value in the query. -/
theorem C153_query_none (sv : Server W) (flow : Flow) (w : W) (s : Sock) :
    (∀ (k : Option Str → W × Response → Res (W × Response)) (r' : Router (W × Response)),
      execL Router.new (reading (Doc.query sv.feat) flow k) = .ok sv.router →
      execL Router.new (reading (fun _ => .ok none) flow k) = .ok r' →
      sv.serve w s = { sv with router := r' }.serve w s) ∧
    (∀ (k : Option QueryValue → W × Response → Res (W × Response)) (r' : Router (W × Response)),
      execL Router.new (reading (Doc.extendedQuery sv.feat) flow k) = .ok sv.router →
      execL Router.new (reading (fun _ => .ok none) flow k) = .ok r' →
      sv.serve w s = { sv with router := r' }.serve w s) := by
  have key : ∀ f : Bool, ((parseQuery f (Path.display [])).bind fun m => Res.ok (HMap.get m c!"value")) = .ok none ∧
      ((parseExtendedQuery f (Path.display [])).bind fun m => Res.ok (HMap.get m c!"value")) = .ok none := by
    decide +kernel
  constructor
  · intro k r' hsv hr'
    refine reading_constant sv _ flow k hsv none r' hr' w s fun req q n vars _ _ _ hp => ?_
    show ((parseQuery sv.feat.faithful (Path.display req.requestLine.path)).bind fun m => Res.ok (HMap.get m c!"value")) = _
    rw [hp]
    exact (key _).1
  · intro k r' hsv hr'
    refine reading_constant sv _ flow k hsv none r' hr' w s fun req q n vars _ _ _ hp => ?_
    show ((parseExtendedQuery sv.feat.faithful (Path.display req.requestLine.path)).bind
      fun m => Res.ok (HMap.get m c!"value")) = _
    rw [hp]
    exact (key _).2

/-- The example of `RequestLine`: the assertion never fails. -/
theorem C153_request_line (sv : Server W) (flow : Flow) (k : Unit → W × Response → Res (W × Response))
    (hsv : execL Router.new (reading Doc.requestLine flow k) = .ok sv.router) (r' : Router (W × Response))
    (hr' : execL Router.new (reading (fun _ => .ok ()) flow k) = .ok r') (w : W) (s : Sock) :
    sv.serve w s = { sv with router := r' }.serve w s :=
  reading_constant sv _ flow k hsv () r' hr' w s fun req q n vars _ _ hm _ => by
    show (if RequestMethod.get = req.requestLine.method then Res.ok () else .panic) = _
    rw [if_pos hm.symm]

/-- a program that is told something on which it sends nothing leaves every request to the 404 page -/
theorem told_page (sv : Server W) (flow : Flow) (a : α) (k : α → W × Response → Res (W × Response))
    (hk : ∀ st, k a st = .ok st) (hsv : execL Router.new (reading (fun _ => .ok a) flow k) = .ok sv.router)
    (w : W) (s : Sock) (q : Asked) (hq : Brings sv s q) : Page sv w s w c!"404" c!"NOT FOUND" := by
  obtain ⟨n, hin⟩ := hq.asked
  have h1 := ((C83_connection (reading (fun _ => Res.ok a) flow k) (by simp [reading, FairL, Fair])
      (by simp [log_reading]) sv hsv w s hq.eof hq.len hq.memory (fun w => (hq.clock w).1)).2.1 q n hin).2
    (by
      rintro ⟨hv, hno⟩
      obtain ⟨h, hh, he⟩ := hq.host hv
      exact hno h hh he)
  obtain ⟨req, hg, -, -, hok⟩ := h1.2 hq.known
  refine (hok w Response.newEmpty ?_).1 rfl
  rw [log_reading]
  simp only [replay, routeFlow, Res.bind_ok', hk]
  cases flow <;> split <;> rfl

theorem Spec.Brings.with_router {sv : Server W} {s : Sock} {q : Asked} (h : Brings sv s q)
    (r : Router (W × Response)) : Brings { sv with router := r } s q :=
  ⟨h.asked, h.host, h.known, h.eof, h.len, h.memory, h.clock⟩

/-- So a program that sends what it has read never sends anything: every request gets the 404 page, with whatever
headers and whatever query. So do the examples themselves, which send nothing. -/
theorem C153_never (sv : Server W) (flow : Flow) (w : W) (s : Sock) (q : Asked) (hq : Brings sv s q)
    (hsv : (∃ name, (∃ c ∈ name, isUpper c) ∧
        execL Router.new (reading (Doc.header name) flow (sendRead sv.U sv.clock)) = .ok sv.router) ∨
      execL Router.new (reading (Doc.query sv.feat) flow (sendRead sv.U sv.clock)) = .ok sv.router ∨
      execL Router.new (reading Doc.requestLine flow fun _ st => .ok st) = .ok sv.router) :
    Page sv w s w c!"404" c!"NOT FOUND" := by
  have page : ∀ r', { sv with router := r' }.serve w s = sv.serve w s →
      Page { sv with router := r' } w s w c!"404" c!"NOT FOUND" → Page sv w s w c!"404" c!"NOT FOUND" := by
    intro r' e h
    obtain ⟨a, b, h1, h2⟩ := h
    exact ⟨a, b, e ▸ h1, h2⟩
  rcases hsv with ⟨name, ⟨c, hc, hu⟩, hsv⟩ | hsv | hsv
  · obtain ⟨r', hr'⟩ := reading_made (fun _ => Res.ok none) flow (sendRead sv.U sv.clock)
    exact page r' (C153_header_none sv name c hc hu flow _ hsv r' hr' w s).symm
      (told_page { sv with router := r' } flow none _ (fun _ => rfl) hr' w s q (hq.with_router r'))
  · obtain ⟨r', hr'⟩ := reading_made (fun _ => Res.ok none) flow (sendRead sv.U sv.clock)
    exact page r' ((C153_query_none sv flow w s).1 _ r' hsv hr').symm
      (told_page { sv with router := r' } flow none _ (fun _ => rfl) hr' w s q (hq.with_router r'))
  · obtain ⟨r', hr'⟩ := reading_made (fun _ => Res.ok ()) flow (fun _ (st : W × Response) => .ok st)
    exact page r' (C153_request_line sv flow _ hsv r' hr' w s).symm
      (told_page { sv with router := r' } flow () _ (fun _ => rfl) hr' w s q (hq.with_router r'))

/-- What holds of the claim: written in lower case, the name in the example is found, however the client wrote it.
Missing: the names as they are in the examples, and the query, see `C153_never`. -/
theorem C153_header_partial (sv : Server W) (name : Str) (flow : Flow)
    (hsv : execL Router.new (reading (Doc.header name) flow (sendRead sv.U sv.clock)) = .ok sv.router)
    (w : W) (s : Sock) (q : Asked) (hq : Brings sv s q) (hm : q.method = c!"GET") (hp : resolve q.pieces = []) (v : Str)
    (hv : (q.headers.filter fun h => lowered h.1 = name).map (·.2) = [v]) : Shows sv w s (utf8 v) := by
  obtain ⟨n, hin⟩ := hq.asked
  have h1 := ((C83_connection (reading (Doc.header name) flow (sendRead sv.U sv.clock)) (by simp [reading, FairL, Fair])
      (by simp [log_reading]) sv hsv w s hq.eof hq.len hq.memory (fun w => (hq.clock w).1)).2.1 q n hin).2
    (by
      rintro ⟨hv, hno⟩
      obtain ⟨h, hh, he⟩ := hq.host hv
      exact hno h hh he)
  obtain ⟨req, hg, -, -, hok⟩ := h1.2 hq.known
  have hget : req.requestLine.method = .get := by
    have : ∀ p ∈ methodTable, p.1 = c!"GET" → p.2 = .get := by decide +kernel
    exact this _ hg.method hm
  have hj : req.headers.get name = some v := by
    rw [hg.get]; unfold joined; rw [hv]; simp
  obtain ⟨r, hr⟩ := send_ok (U := sv.U) (hq.clock w).1 Response.newEmpty (utf8 v)
  have hplain := send_plain (hq.clock w).2 hr (.inl rfl)
  refine hplain.shows ((hok w r ?_).2 (by rw [hplain.body]; simp))
  rw [log_reading]
  simp only [replay, Target.applies, decide_patMatch, hg.path, hp, hget, routeFlow, Doc.header, hj, Res.bind_ok',
    sendRead, hr, patMatchB, decide_true, Bool.and_self, if_true]
  cases flow <;> rfl

/-- The example of the variables: GET of `/foo/x` shows `x` with the type `application/json`, whatever `x` is;
everything else gets the 404 page. -/
theorem C153_variables (sv : Server W) (hsv : execL Router.new (Doc.variables sv.U sv.clock) = .ok sv.router)
    (huv : sv.feat.urlVariables = true) (w : W) (s : Sock) (q : Asked) (hq : Brings sv s q) :
    (∀ x, q.method = c!"GET" → resolve q.pieces = [c!"foo", x] →
      ∃ n d, Numeral (utf8 x).length n ∧ dateHeader (sv.clock w) = .ok (some d) ∧ Sees sv w s c!"200" c!"OK"
        [(c!"Content-Type", c!"application/json"), (c!"Content-Length", n), (c!"Date", d)] (utf8 x)) ∧
    (¬ (q.method = c!"GET" ∧ ∃ x, resolve q.pieces = [c!"foo", x]) → Page sv w s w c!"404" c!"NOT FOUND") := by
  obtain ⟨n, hin⟩ := hq.asked
  have hp : Path.parse c!"/foo/:var" = some [c!"foo", c!":var"] := by decide +kernel
  have h1 := ((C83_connection (Doc.variables sv.U sv.clock) (by simp [Doc.variables, FairL, Fair])
      (by simp [Doc.variables, logOfL, logOf, hp]) sv hsv w s hq.eof hq.len hq.memory (fun w => (hq.clock w).1)).2.1 q n hin).2
    (by
      rintro ⟨hv, hno⟩
      obtain ⟨h, hh, he⟩ := hq.host hv
      exact hno h hh he)
  obtain ⟨req, hg, -, -, hok⟩ := h1.2 hq.known
  have hget : req.requestLine.method = .get ↔ q.method = c!"GET" := by
    have : ∀ p ∈ methodTable, p.2 = .get ↔ p.1 = c!"GET" := by decide +kernel
    exact this _ hg.method
  have hmatch : ∀ path : PathBuf, patMatchB true [c!"foo", c!":var"] path = true ↔ ∃ x, path = [c!"foo", x] := by
    intro path
    match path with
    | [] => simp [patMatchB]
    | [_] => simp [patMatchB]
    | [a, b] => simp [patMatchB, eq_comm]
    | _ :: _ :: _ :: _ => simp [patMatchB]
  rw [huv] at hok
  simp only [Doc.variables, logOfL, logOf, hp, List.append_nil, replay, Verb.target, Target.applies, Verb.method,
    decide_patMatch, Target.vars, if_true, hg.path] at hok
  constructor
  · intro x hq1 hq2
    obtain ⟨d, hd⟩ := date_some (hq.clock w).1 (hq.clock w).2
    have hf := send_typed (U := sv.U) hd (Response.newEmpty.withType c!"application/json") (utf8 x)
      c!"application/json" rfl
    have happ : (decide (RequestMethod.get = req.requestLine.method) &&
        patMatchB true [c!"foo", c!":var"] (resolve q.pieces)) = true := by
      rw [hget.2 hq1, (hmatch _).2 ⟨_, hq2⟩]; rfl
    have hvars : HMap.get (bindings [c!"foo", c!":var"] (resolve q.pieces)) c!"var" = some x := by rw [hq2]; rfl
    simp only [happ, if_true, routeNext, hvars, hf, Res.bind_ok'] at hok
    refine ⟨showNat (utf8 x).length, d, showNat_numeral _, hd, ?_⟩
    exact sees_of 4 ((hok w _ rfl).2 (by simp)) rfl rfl
      (by
        intro k v hm
        simp only [List.mem_cons, Prod.mk.injEq, List.not_mem_nil, or_false] at hm
        rcases hm with ⟨rfl, rfl⟩ | ⟨rfl, rfl⟩ | ⟨rfl, rfl⟩
        · exact good_of _ _ (by decide) (by decide)
        · exact good_length _
        · exact good_date hd) (by simp [Response.withType, Response.set, Response.newEmpty]) (.inr rfl)
      (inMemory_of rfl) (code := c!"200") (reason := c!"OK") (by decide +kernel) (by decide +kernel)
  · intro hno
    have happ : ¬ (decide (RequestMethod.get = req.requestLine.method) &&
        patMatchB true [c!"foo", c!":var"] (resolve q.pieces)) = true := by
      rw [Bool.and_eq_true, decide_eq_true_eq, hmatch]
      exact fun e => hno ⟨hget.1 e.1.symm, e.2⟩
    rw [if_neg happ] at hok
    exact (hok w _ rfl).1 rfl

namespace Examples2Example
open ProgramsExample

/-- the clients of `ProgramsExample`: `User-Agent: x` and `Host: b` -/
theorem brings (r : Router (Unit × Response)) (m : Str) (pieces : List Str) (h1 : m ∈ methodTokens)
    (h2 : ∀ p ∈ pieces, (' ' ∉ p ∧ '/' ∉ p ∧ '\r' ∉ p) ∧ isUp p = false)
    (h3 : (sock m pieces).bytes.length ≤ i64Max) : Brings { empty with router := r } (sock m pieces) (asked m pieces) :=
  ⟨⟨0, asked_in m pieces (by
      have : ∀ m ∈ methodTokens, ' ' ∉ m ∧ '\r' ∉ m := by decide
      exact this m h1) h2⟩, host m pieces, h1, rfl, h3, fun _ => rfl, clock⟩

/-- a client that sends `HeaderName: y` -/
def qh : WireReq := ⟨c!"GET", [[], []], c!"1.1", [(c!"Host", c!"b"), (c!"HeaderName", c!"y")], []⟩
theorem qh_good : qh.Good :=
  StrictExample.good qh rfl (by decide) ⟨by decide, by decide⟩ (by decide) (by decide) (by decide) (by decide +kernel)
    (by decide +kernel) (by decide +kernel)
def sh : Sock := ⟨[qh.bytes.take 9, qh.bytes.drop 9], .eof⟩
def ah : Asked := ⟨c!"GET", [[], []], c!"1.1", [(c!"Host", c!"b"), (c!"HeaderName", c!"y")], []⟩
theorem bringsh (r : Router (Unit × Response)) : Brings { empty with router := r } sh ah := by
  refine ⟨⟨0, ?_⟩, fun _ => ⟨(c!"Host", c!"b"), by simp [ah], by decide +kernel⟩, by decide, rfl, by decide +kernel,
    fun _ => rfl, clock⟩
  have := C83_written true true qh qh_good []
  have e : sh.bytes = qh.bytes ++ [] := by simp [sh, Sock.bytes, List.take_append_drop]
  rw [e]
  exact this

/-- the client with the header, the examples with its name -/
theorem header (flow : Flow) : ∃ r, execL Router.new (reading (Doc.header c!"HeaderName") flow
      (sendRead empty.U empty.clock)) = .ok r ∧
    Page { empty with router := r } () sh () c!"404" c!"NOT FOUND" := by
  obtain ⟨r, hr⟩ := reading_made (W := Unit) (Doc.header c!"HeaderName") flow (sendRead empty.U empty.clock)
  exact ⟨r, hr, C153_never { empty with router := r } flow () sh ah (bringsh r)
    (.inl ⟨_, ⟨'H', by decide, by decide⟩, hr⟩)⟩

/-- and in lower case -/
theorem lower (flow : Flow) : ∃ r, execL Router.new (reading (Doc.header c!"headername") flow
      (sendRead empty.U empty.clock)) = .ok r ∧ Shows { empty with router := r } () sh (utf8 c!"y") := by
  obtain ⟨r, hr⟩ := reading_made (W := Unit) (Doc.header c!"headername") flow (sendRead empty.U empty.clock)
  exact ⟨r, hr, C153_header_partial { empty with router := r } _ flow hr () sh ah (bringsh r) rfl (by decide) _
    (by decide +kernel)⟩

/-- `GET /?value=v` -/
theorem query (flow : Flow) : ∃ r, execL Router.new (reading (Doc.query empty.feat) flow
      (sendRead empty.U empty.clock)) = .ok r ∧
    Page { empty with router := r } () (sock c!"GET" [c!"?value=v"]) () c!"404" c!"NOT FOUND" := by
  obtain ⟨r, hr⟩ := reading_made (W := Unit) (Doc.query empty.feat) flow (sendRead empty.U empty.clock)
  exact ⟨r, hr, C153_never { empty with router := r } flow () _ _
    (brings r c!"GET" [c!"?value=v"] (by decide) (by decide) (by decide +kernel)) (.inr (.inl hr))⟩

/-- the six methods: POST -/
example : ∃ r, execL Router.new (Doc.hello empty.U empty.clock .post .next) = .ok r ∧
    Shows { empty with router := r } () (sock c!"POST" [[]]) (utf8 c!"Hello, World") ∧
    Page { empty with router := r } () (sock c!"GET" [[]]) () c!"404" c!"NOT FOUND" := by
  have hp : Path.parse c!"/" = some [] := by decide +kernel
  obtain ⟨r, hr⟩ := made (Doc.hello empty.U empty.clock .post .next) (by simp [Doc.hello, FairL, Fair])
    (by simp [Doc.hello, logOfL, logOf, hp])
  exact ⟨r, hr,
    (C153_hello { empty with router := r } .post .next (by decide) hr () _ _
      (brings r c!"POST" [[]] (by decide) (by decide) (by decide +kernel))).1 ⟨by show _ ∈ methodTable; decide +kernel, by decide⟩,
    (C153_hello { empty with router := r } .post .next (by decide) hr () _ _
      (brings r c!"GET" [[]] (by decide) (by decide) (by decide +kernel))).2
        (fun h => absurd (show (c!"GET", RequestMethod.post) ∈ methodTable from h.1) (by decide +kernel))⟩

/-- the variables: `/foo/7` -/
example : ∃ r n d, execL Router.new (Doc.variables empty.U empty.clock) = .ok r ∧
    Sees { empty with router := r } () (sock c!"GET" [c!"foo", c!"7"]) c!"200" c!"OK"
      [(c!"Content-Type", c!"application/json"), (c!"Content-Length", n), (c!"Date", d)] (utf8 c!"7") := by
  have hp : Path.parse c!"/foo/:var" = some [c!"foo", c!":var"] := by decide +kernel
  obtain ⟨r, hr⟩ := made (Doc.variables empty.U empty.clock) (by simp [Doc.variables, FairL, Fair])
    (by simp [Doc.variables, logOfL, logOf, hp])
  obtain ⟨n, d, -, -, h⟩ := (C153_variables { empty with router := r } hr rfl () _ _
    (brings r c!"GET" [c!"foo", c!"7"] (by decide) (by decide) (by decide +kernel))).1 c!"7" rfl (by decide)
  exact ⟨r, n, d, hr, h⟩

/-- C153_header_none, C153_query_none and C153_request_line: a program that would panic if it read something -/
example (w : Unit) (s : Sock) : ∃ r r',
    execL Router.new (reading (Doc.header c!"HeaderName") .stop fun a (st : Unit × Response) =>
      if a = none then .ok st else .panic) = .ok r ∧
    execL Router.new (reading (fun _ => .ok none) .stop fun (a : Option Str) (st : Unit × Response) =>
      if a = none then .ok st else .panic) = .ok r' ∧
    { empty with router := r }.serve w s = { empty with router := r' }.serve w s := by
  obtain ⟨r, hr⟩ := reading_made (Doc.header c!"HeaderName") .stop fun a (st : Unit × Response) =>
    if a = none then .ok st else .panic
  obtain ⟨r', hr'⟩ := reading_made (fun _ => .ok none) .stop fun (a : Option Str) (st : Unit × Response) =>
    if a = none then .ok st else .panic
  exact ⟨r, r', hr, hr', C153_header_none { empty with router := r } _ 'H' (by decide) (by decide) _ _ hr r' hr' w s⟩

end Examples2Example

/-- what shows a text is not the 404 page -/
theorem Spec.Shows.not_page {sv : Server W} {w : W} {s : Sock} {t : Bytes} (h : Shows sv w s t) :
    ¬ Page sv w s w c!"404" c!"NOT FOUND" := by
  rintro ⟨x, v, a1, a2, a3, -, -, a6⟩
  obtain ⟨y, u, n, d, b1, b2, -, b4, -⟩ := h
  rw [a1] at b1
  injection b1 with b1
  injection b1 with _ b1
  subst b1
  have := a6 u b2
  subst this
  rw [a3] at b4
  revert b4
  decide

open Examples2Example ProgramsExample in
/-- C153 is false of the code: neither the header of the example nor the value in the query is shown. -/
theorem C153_counterexample : ¬ C153_statement ∧
    ¬ (∀ (sv : Server Unit) (s : Sock) (q : Asked), Brings sv s q → q.method = c!"GET" → ∀ flow v r,
      q.pieces = [[], c!"?value=" ++ v] → (∀ c ∈ v, isLetter c) →
      execL Router.new (reading (Doc.query sv.feat) flow (sendRead sv.U sv.clock)) = .ok r →
      Shows { sv with router := r } () s (utf8 v)) := by
  constructor
  · intro h
    obtain ⟨r, hr, hp⟩ := header .stop
    exact ((h empty sh ah (bringsh empty.router) rfl).header c!"HeaderName" .stop c!"y" r (by simp) (by decide)
      (by decide +kernel) hr).not_page hp
  · intro h
    obtain ⟨r, hr, hp⟩ := query .next
    exact (h empty _ _ (brings empty.router c!"GET" [c!"?value=v"] (by decide) (by decide) (by decide +kernel)) rfl
      .next c!"v" r rfl (by decide) hr).not_page hp

end Octane
