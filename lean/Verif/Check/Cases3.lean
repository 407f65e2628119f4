import Verif.Check.Cases2
import Verif.Props.Lookup
import Verif.Props.Echo
import Verif.Props.Settings
import Verif.Props.Jar
import Verif.Props.ExtQuery
import Verif.Props.StatusMacro
import Verif.Props.Whole
import Verif.Props.Parallel
import Verif.Props.Strict
import Verif.Props.Sent
import Verif.Props.Cost
import Verif.Props.Answer
import Verif.Props.Field
import Verif.Props.Unread
import Verif.Props.Process
import Verif.Props.Handshake
import Verif.Props.ProcessLive
import Verif.Props.Frame
import Verif.Props.Time
/-
Cases for C72 – C109, as in `Cases1`. No theorem depends on this file.
-/
namespace Octane.Cases
open Octane Spec Query

/-! ### What handlers can look up -/

example := C72_upper_never _ _ _ _ readsGet c!"Host" 'H' (by decide) (by decide +kernel)
example := C75_pairs_partial _ _ _ _ readsGet

/-- an HTTP/1.0 request with both headers -/
def keptRequest : Request := ⟨⟨.get, [c!"a"], .http10⟩,
  ⟨[(c!"connection", c!"keep-alive"), (c!"keep-alive", c!"timeout=5, max=100")],
    [⟨c!"Connection", c!"keep-alive"⟩, ⟨c!"Keep-Alive", c!"timeout=5, max=100"⟩]⟩, [], []⟩
example : ∃ h, Http.validate keptRequest = .ok h ∧ h.isKeepAlive = true := by
  have hv : ∃ h, Http.validate keptRequest = .ok h := by
    cases h : Http.validate keptRequest with
    | ok x => exact ⟨x, rfl⟩
    | panic => exact absurd h (by decide +kernel)
  obtain ⟨h, hv⟩ := hv
  exact ⟨h, hv, (C74_exact _ _ hv).2 ⟨by decide +kernel, .inr ⟨rfl, by decide +kernel⟩⟩⟩

/-! ### Cookies -/

def cookieOps : List ResOp :=
  [.cookie ⟨c!"a", c!"1", [c!"Path=/"]⟩, .set c!"X" c!"y", .send 0 (utf8 c!"hi"), .cookie ⟨c!"b", c!"2", []⟩]
def cookieResponse : Response :=
  match execOps Unicode.asciiOnly Response.newEmpty cookieOps with
  | .ok r => r
  | .panic => Response.newEmpty
example := C77_cookie_lines Unicode.asciiOnly MapOrder.id (cookieOps.take 2) (cookieOps.drop 3) 0 (utf8 c!"hi")
  cookieResponse (by decide +kernel) (by simp [cookieOps, ResOp.replacesCookies]) (by simp [cookieOps, ResOp.leavesBody])

example : ∃ jar ps, Cookie.parse (cookieHeader jar) = .ok ps ∧ (ps.map (·.name)).Nodup ∧
    ∀ n v, (n, v) ∈ ps.map (fun p => (p.name, p.value)) ↔
      ∃ a c b, JarExample.cookies = a ++ c :: b ∧ c.name = n ∧ c.value = v ∧ ∀ d ∈ b, d.name ≠ n := by
  obtain ⟨keep, jar, h1, h2⟩ := C78_client JarExample.cookies JarExample.cookies_good
  exact ⟨jar, C78_comes_back_partial JarExample.cookies (by decide) JarExample.cookies_good keep h1 jar h2⟩

/-! ### Queries -/

def queried : WireReq := ⟨c!"GET", [[], c!"a", c!"b?x[]=1&x[]=2&y=3"], c!"1.1", [(c!"Host", c!"h")], []⟩
theorem queried_good : queried.Good := good_of (by decide +kernel) (by decide +kernel)
def queriedRequest : Request :=
  ⟨⟨.get, [c!"a", c!"b?x[]=1&x[]=2&y=3"], .http11⟩, ⟨[(c!"host", c!"h")], [⟨c!"Host", c!"h"⟩]⟩, [], []⟩
theorem queried_reads : Reads Features.default (fun _ => true) (closed queried.bytes) queriedRequest :=
  ⟨c!"Host: h", c!"GET /a/b?x[]=1&x[]=2&y=3 HTTP/1.1", [], ⟨[], .eof⟩, queriedRequest.headers,
    queriedRequest.requestLine, by rfl, by decide +kernel, by decide +kernel, by decide +kernel⟩
example := C80_exact .default (fun _ => true) queried (closed _) [[], c!"a"] c!"b" [c!"x[]=1", c!"x[]=2", c!"y=3"]
  queried_good (closed_bytes _) (fun _ => rfl) (by decide) (by decide +kernel) (by decide) (by decide) (by decide) _
  queried_reads

/-! ### The status macro -/

example := C81_generates_partial Unicode.asciiOnly [.literal c!"299", .other, .literal c!"\"Odd\""] [(299, c!"Odd")]
  (.cons ((parseI32_iff _ _).1 (by decide)) ⟨c!"Odd", rfl, .text (by decide) (by decide) (by decide)
    (.text (by decide) (by decide) (by decide) (.text (by decide) (by decide) (by decide) .nil))⟩
    ⟨'O', by simp, by unfold isLetter; decide⟩ .nil) (by decide)

/-! ### One stream, one request -/

example (q' : Asked) (n' : Nat) (h : q'.In true true (queried.bytes ++ utf8 c!"more") n') :
    q' = ⟨queried.method, queried.pieces, queried.version, queried.headers, queried.body ++ utf8 c!"more"⟩ ∧ n' = 0 := by
  have := C83_one_request (C83_written true true queried queried_good (utf8 c!"more")) h
  exact ⟨this.1.symm, this.2.symm⟩

/-! ### Handlers at the same time -/

section
open ParallelExample

theorem fetchAdd_one (q : Request) : (requestProg true [⟨.everywhere, fetchAdd⟩] q).AtMostOne := by
  unfold requestProg
  split
  · trivial
  · split
    · trivial
    · split
      · simp only [chain, Target.applies, if_true, fetchAdd]
        intro w u n
        simp [Prog.bind]
      · trivial
def twoAdds : List (PEvent Nat) :=
  [.arrive req, .arrive req, .start 0, .start 1, .access 1, .access 0, .finish 0, .finish 1]
theorem twoAdds_req : ∀ q, .arrive q ∈ twoAdds → q = req := by
  intro q hq
  simpa [twoAdds] using hq
example := C84_one_access_partial (server fetchAdd) _ (setUp _) 0 2 twoAdds
  (fun q hq => by rw [twoAdds_req q hq]; decide) (fun q _ => fetchAdd_one q)
example : ((PSys.start 0 2).run (server fetchAdd) twoAdds).world = 2 := by rfl

example : ∀ evs, (((PSys.start 0 1).run (server sometimes) (fill 1 ++ [.arrive req])).run (server sometimes) evs).jobs[1]? =
    some (.ready req) := (C85_stops 1).2.2
example (evs : List (PEvent Nat)) := C85_stalled (server sometimes)
  ⟨0, 1, [.running bad [], .ready req]⟩ (by simp [Hung, stage_bad]) 1 req rfl evs
end

/-! ### Lengths, targets and versions -/

section
open StrictExample

theorem two_lengths_read : ∃ req, Reads Features.default (fun _ => true) ⟨[StrictExample.q.bytes, utf8 c!"abc"], .eof⟩ req := by
  obtain ⟨req, h1, -⟩ := reads_bodyless .default (fun _ => true) StrictExample.q ⟨[StrictExample.q.bytes, utf8 c!"abc"], .eof⟩
    (utf8 c!"abc") q_good rfl (by simp [Sock.bytes])
  exact ⟨req, h1⟩
example : ∃ req, Reads Features.default (fun _ => true) ⟨[StrictExample.q.bytes, utf8 c!"abc"], .eof⟩ req ∧ req.body = [] := by
  obtain ⟨req, h⟩ := two_lengths_read
  exact ⟨req, h, C86_no_body_partial _ _ StrictExample.q _ (utf8 c!"abc") q_good q_bad
    (fun ds => by rw [q_values]; simp) (by simp [Sock.bytes]) req h⟩

example := C87_path c!"b" [c!"a", c!"..", c!"c"] (by decide) (by decide +kernel)

/-- an answer from everywhere -/
def anywhere : List (Call (Unit × Response)) := [.add StrictExample.hello]
theorem anywhere_log : logOfL anywhere = [⟨.everywhere, StrictExample.hello⟩] := by simp [anywhere, logOfL, logOf]
theorem anywhere_blind : ∀ e ∈ logOfL anywhere, Blind e.handler := by
  intro e he
  rw [anywhere_log, List.mem_singleton] at he
  subst he
  intro _ _; rfl
example : ∃ sv : Server Unit, execL Router.new anywhere = .ok sv.router ∧
    sv.serve () (closed qa.bytes) = sv.serve () (closed qb.bytes) := by
  obtain ⟨r, hr, -⟩ := C12_run_is_replay anywhere (by simp [anywhere, FairL, Fair]) (by decide)
  let sv : Server Unit := ⟨.default, fun _ => true, .asciiOnly, .id, fun _ => 0, r⟩
  exact ⟨sv, hr, C87_same_partial sv anywhere (by simp [anywhere, FairL, Fair]) (by decide) hr (fun _ => rfl)
    anywhere_blind (by rw [anywhere_log]; simp) qa c!"b" [c!"a"] qa_good qb_good (by decide) (closed _) (closed _)
    (closed_bytes _) (closed_bytes _) ()⟩
example : ∃ sv : Server Unit, execL Router.new calls = .ok sv.router ∧
    sv.serve () (closed qb.bytes) = sv.serve () (closed { qa with pieces := [[], c!"http:", c!"b", c!"a"] }.bytes) ∧
    ∃ bytes v, sv.serve () (closed qb.bytes) = .ok ((), bytes) ∧ ClientParses bytes v ∧ v.code = c!"404" := by
  obtain ⟨r, hr⟩ := made
  let sv : Server Unit := ⟨.default, fun _ => true, .asciiOnly, .id, fun _ => 0, r⟩
  have hfair : FairL calls := by simp [calls, FairL, Fair]
  obtain ⟨bytes, v, h1, h2, h3, -⟩ := C87_not_found sv calls hfair (by decide) hr (fun _ => rfl)
    (by
      intro e he
      rw [log_calls] at he
      simp only [List.mem_singleton] at he
      subst he
      intro a ha
      simp only [List.head?_cons, Option.some.injEq] at ha
      subst ha; decide)
    qb qb_good c!"b" [c!"a"] (by decide) (by decide +kernel) rfl .get (by decide)
    (fun _ => ⟨(c!"Host", c!"b"), by decide, by decide +kernel⟩) (by decide) (closed _) (closed_bytes _) () (Int.le_refl 0)
  exact ⟨sv, hr, C87_routed sv calls hfair (by decide) hr (fun _ => rfl)
    (by
      intro e he
      rw [log_calls, List.mem_singleton] at he
      subst he
      intro _ _; rfl) qa c!"b" [c!"a"] qb_good (good_of (by decide +kernel) (by decide +kernel)) (by decide) (closed _)
    (closed _) (closed_bytes _) (closed_bytes _) (), bytes, v, h1, h2, h3⟩
end

/-! ### What is sent -/

def settingOps : List ResOp := [.status .found, .set c!"A" c!"1", .send 0 (utf8 c!"hi")]
def settingResponse : Response :=
  match execOps Unicode.asciiOnly Response.newEmpty settingOps with
  | .ok r => r
  | .panic => Response.newEmpty
example := C90_exact Unicode.asciiOnly settingOps settingResponse (by decide +kernel) (by simp [settingOps])

section
open AnswerExample
example : ∃ bytes v t, (demo (doing fun _ => polite)).serve () AnswerExample.request = .ok ((), bytes) ∧ ClientParses bytes v ∧
    dateHeader 0 = .ok (some t) ∧ (c!"Date", t) ∈ v.headers ∧ v.body = utf8 c!"{}" :=
  C91_send_partial (demo (doing fun _ => polite)) () () AnswerExample.request asked reads (.inl (by decide)) (by decide)
    (polite.take 2) [] 0 (utf8 c!"{}") politely (demo_run _ _ polite_left) polite_ops (by simp) (by decide)
    politely_writable (.inr rfl)

example : ∃ bytes v, (demo (doing fun _ => polite)).serve () AnswerExample.request = .ok ((), bytes) ∧ ClientParses bytes v ∧
    (SaysClose v.headers ↔ SaysClose politely.headers) :=
  C99_iff (demo (doing fun _ => polite)) () () AnswerExample.request asked politely reads (.inl (by decide)) (by decide)
    (demo_run _ _ polite_left) (by simp [politely]) politely_writable (.inr rfl)
end

/-! ### What requests cost -/

/-- a server with little memory -/
def small (h : Closure (Unit × Response)) : Server Unit := { demo h with allocOk := fun k => decide (k ≤ 1000) }
def promised : Sock := ⟨[utf8 c!"GET / HTTP/1.1\r\nContent-Length: 99999\r\n\r\n"], .silent⟩
theorem promised_aborts : (small hello).serve () promised = .abort :=
  C92_amplifies (small hello) () promised c!"99999" 99999 ((parseU64_iff _ _).1 (by decide +kernel)) (by decide) (by decide)
    (by simp [promised, Sock.bytes]) rfl
example := C92_abort_only (small hello) () promised promised_aborts

theorem blockOk_of {f : Bool} (lines : List Str) (hs : List (Str × Str)) (h1 : lines ≠ [])
    (h2 : ∀ l ∈ lines, ¬ Occurs l crlf) (h3 : lines.map (Header.parse f) = hs.map fun x => some ⟨x.1, x.2⟩) :
    BlockOk f (crlf.intercalate lines) hs := by
  refine ⟨lines, h1, rfl, h2, ?_, fun i line n v hl hh => ?_⟩
  · have := congrArg List.length h3
    simpa using this.symm
  · have := congrArg (·[i]?) h3
    simp only [List.getElem?_map, hl, hh, Option.map_some, Option.some.injEq] at this
    exact (Header.parse_iff f line ⟨n, v⟩).1 this

/-- a body that never comes -/
example : (demo hello).serve () ⟨[utf8 c!"POST /a HTTP/1.1\r\nHost: x\r\nContent-Length: 70000\r\n\r\n"], .silent⟩ = .pending :=
  (C92_held_for_nothing (demo hello) () ⟨[utf8 c!"POST /a HTTP/1.1\r\nHost: x\r\nContent-Length: 70000\r\n\r\n"], .silent⟩ 70000
    _ c!"POST /a HTTP/1.1\r\nHost: x\r\nContent-Length: 70000" c!"POST /a HTTP/1.1"
    (crlf.intercalate [c!"Host: x", c!"Content-Length: 70000"]) [(c!"Host", c!"x"), (c!"Content-Length", c!"70000")]
    (by decide +kernel) rfl (by decide +kernel) (blockOk_of _ _ (by decide) (by decide +kernel) (by decide +kernel))
    ⟨c!"POST", [[], c!"a"], c!"HTTP/", c!"1.1", [], by decide +kernel, by decide +kernel, by decide, by decide,
      by decide +kernel, by decide +kernel, fun _ => ⟨rfl, rfl⟩⟩
    (.inl ⟨c!"70000", by decide +kernel, (parseU64_iff _ _).1 (by decide +kernel)⟩) (by decide) (by decide) rfl).trans
    (if_pos rfl)

/-- text without a blank line -/
def endless : Sock := ⟨[utf8 c!"GET / HTTP/1.1\r\nA: b\r\n", utf8 c!"C: d\r\n"], .silent⟩
example := C92_head_unlimited endless (by decide +kernel)
example := C93_quadratic endless (by decide +kernel)

theorem block_ok : BlockOk true (crlf.intercalate [c!"Host: x", c!"A:1", c!"a: 2"]) [(c!"Host", c!"x"), (c!"A", c!"1"), (c!"a", c!"2")] :=
  blockOk_of _ _ (by decide) (by decide +kernel) (by decide +kernel)
example := C94_split_least true _ _ block_ok
example := C94_written true _ _ block_ok
example := C94_repeated true (crlf.intercalate [c!"A: bc", c!"A: bc", c!"A: bc"]) (c!"A", c!"bc") 3
  (blockOk_of _ _ (by decide) (by decide +kernel) (by decide +kernel))

example (r : Router Unit) (hr : execL Router.new costCalls = .ok r) := C95_visits costCalls
  (by simp [costCalls, FairL, Fair]) r hr true ⟨⟨.get, [c!"a", c!"b"], .http11⟩, ⟨[], []⟩, [], []⟩ (by decide) ()
example (r : Router Unit) (hr : execL Router.new costCalls = .ok r) := C95_scans costCalls
  (by simp [costCalls, FairL, Fair]) r hr true ⟨⟨.get, [c!"a", c!"b"], .http11⟩, ⟨[], []⟩, [], []⟩ (by decide) ()

/-! ### Header fields -/

example := C96_short_never Response.newEmpty c!"json" c!"application/json" (.inr ⟨by decide, by decide +kernel⟩) (by decide)
def fourBytes : WireReq := ⟨c!"POST", [[], c!"a"], c!"1.1", [(c!"Host", c!"x"), (c!"Content-Length", c!"4")], utf8 c!"abcd"⟩
example := C97_waits (demo hello) () fourBytes (framed_of (by decide +kernel))
  ⟨[utf8 c!"POST /a HTTP/1.1\r\nHost: x\r\nContent-Length: 4\r\n\r\nab"], .silent⟩ (utf8 c!"ab") (utf8 c!"cd") (by decide +kernel)
  (by decide +kernel) (by decide) (fun _ => rfl) (by decide +kernel) rfl
def pageResponse : Response :=
  match ((Response.newFromSlice (utf8 notFoundPage)).status .notFound).defaultHeaders Unicode.asciiOnly 0 with
  | .ok r => r.set c!"Content-Type" c!"text/html"
  | .panic => Response.newEmpty
def pageBytes : Bytes := sendData (pageResponse.getData Unicode.asciiOnly true MapOrder.id)
theorem page_bytes : errorPage Unicode.asciiOnly true MapOrder.id 0 .notFound = .ok pageBytes := by decide +kernel
theorem page_writable : Writable Unicode.asciiOnly pageResponse where
  version := by decide +kernel
  phrase := by decide +kernel
  headers := good_all _ (by decide +kernel)
  cookies := by
    have : pageResponse.cookies = [] := by decide +kernel
    rw [this]; simp
theorem page_parses : ∃ v, ClientParses pageBytes v ∧ v.headers.Perm pageResponse.headers := by
  obtain ⟨v, h1, h2, -⟩ := client_head Unicode.asciiOnly true MapOrder.id pageResponse page_writable (.inr (by decide +kernel))
  exact ⟨v, h1, h2⟩
example : ∃ bytes v, errorPage Unicode.asciiOnly true MapOrder.id 0 .notFound = .ok bytes ∧ ClientParses bytes v ∧
    ¬ SaysClose v.headers := by
  obtain ⟨v, h, -⟩ := page_parses
  exact ⟨_, v, page_bytes, h, C99_pages _ _ _ _ _ _ page_bytes v h⟩
example := C100_hidden [(c!"Host", c!"x")] [(c!"A", c!"b")] c!"Host" c!" \t" c!"y" c!"host" (by decide) (by decide) (by decide)

/-! ### Processes -/

section
open ParallelExample ProcessExample
example (evs : List (Happening Nat)) := C105_stalled (server sometimes) (fun _ => true)
  ⟨0, 1, .listening, .listening, [⟨false, .handling reqH [], ⟨[], .eof⟩⟩, ⟨false, .reading (.head []), asksP⟩], false⟩
  (by simp [StuckConn, stageH]) 1 _ rfl (by simp) evs
example := C106_no_tls (server sometimes) (fun _ => true) 0 2 true false true rfl
  [.connect true asksP, .connect false asksP, .poll 0] 0 _ rfl
example := C107_threads (server sometimes) _ (setUp sometimes) (fun _ => true) 0 2 true true true
  ProcessLiveExample.turns ProcessLiveExample.alive [0] (by decide) ProcessLiveExample.fair
  (fun n i tls s hi h => ProcessLiveExample.ends n i tls s hi h)
end

/-! ### What is left of a connection -/

section
open UnreadExample
example : ∃ c s0, ((Sys.start () false false true).run empty twiceEvents).conns[0]? = some c ∧
    (accepted true (false && false) twiceEvents)[0]? = some (c.tls, s0) ∧
      LeftUnread empty.feat.faithful s0.bytes c.sock.bytes := by
  obtain ⟨c, h1, h2, -⟩ := twice_state
  obtain ⟨s0, h⟩ := C103_exact empty () false false true twiceEvents 0 c h1 h2
  exact ⟨c, s0, h1, h⟩
end

/-! ### Methods -/

section
open StrictExample
example : ∃ sv : Server Unit, execL Router.new calls = .ok sv.router ∧
    ∃ bytes v, sv.serve () (closed { qa with method := c!"HEAD" }.bytes) = .ok ((), bytes) ∧ ClientParses bytes v ∧
      v.code = c!"404" := by
  obtain ⟨r, hr⟩ := made
  let sv : Server Unit := ⟨.default, fun _ => true, .asciiOnly, .id, fun _ => 0, r⟩
  exact ⟨sv, hr, C102_not_found sv calls (by simp [calls, FairL, Fair]) (by decide) hr qa qa_good (closed _) (closed_bytes _)
    (fun _ _ => rfl) (by decide) (fun _ => ⟨(c!"Host", c!"b"), by decide, by decide +kernel⟩)
    (by rw [log_calls]; intro e he; rw [List.mem_singleton] at he; subst he; exact ⟨_, _, rfl, by decide⟩) () (Int.le_refl 0)⟩

example := C100_refused_partial (demo hello) rfl () ⟨[utf8 FieldExample.spaced], .eof⟩ FieldExample.spacedLines
  (by simpa [Sock.bytes] using FieldExample.spaced_lines) c!"Content-Length" ' ' c!": 5" (by simp [FieldExample.spacedLines])
  (by decide) (by decide)

/-- one more route, for another path -/
def callsB : List (Call (Unit × Response)) := calls ++ [.route .get c!"/b" hello]
theorem log_callsB : logOfL callsB = [⟨.on .get [c!"a"], StrictExample.hello⟩, ⟨.on .get [c!"b"], hello⟩] := by
  have h1 : Path.parse c!"/a" = some [c!"a"] := by decide
  have h2 : Path.parse c!"/b" = some [c!"b"] := by decide
  simp [callsB, calls, logOfL, logOf, h1, h2, Verb.target, Verb.method]
example : ∃ (sv : Server Unit) (r' : Router (Unit × Response)), execL Router.new calls = .ok sv.router ∧
    execL Router.new callsB = .ok r' ∧ { sv with router := r' }.serve () (closed qa.bytes) = sv.serve () (closed qa.bytes) := by
  obtain ⟨r, hr⟩ := made
  have hf : FairL calls := by simp [calls, FairL, Fair]
  have hf' : FairL callsB := by simp [callsB, calls, FairL, Fair]
  obtain ⟨r', hr', -⟩ := C12_run_is_replay callsB hf' (by rw [log_callsB]; decide)
  let sv : Server Unit := ⟨.default, fun _ => true, .asciiOnly, .id, fun _ => 0, r⟩
  refine ⟨sv, r', hr, hr', C108_same sv calls callsB hf hf' (by rw [log_calls]; decide) (by rw [log_callsB]; decide) r' hr hr' ()
    (closed qa.bytes) fun q n m hq hm => ?_⟩
  have hq' := C83_written true true qa qa_good []
  rw [List.append_nil, ← closed_bytes qa.bytes] at hq'
  obtain ⟨rfl, -⟩ := C83_one_request hq' hq
  have hmm : m = .get := by
    have : (c!"GET", m) ∈ methodTable := hm
    revert this
    cases m <;> decide
  subst hmm
  rw [log_calls, log_callsB]
  have hb : Target.applies true (.on .get [c!"b"]) .get (resolve [[], c!"a"]) = false := by decide +kernel
  show applying true .get (resolve [[], c!"a"]) _ = applying true .get (resolve [[], c!"a"]) _
  simp [applying, List.filter_cons, hb]
end

/-! ### Times -/

example : Time.time (-9000000000000000000) ≠ .panic := by
  rw [Ne, C109_overflow_iff _ (by decide) (by decide)]; decide
example : Time.time (-9223372036854775807) = .panic := (C109_overflow_iff _ (by decide) (by decide)).2 (by decide)

end Octane.Cases
