import Verif.Props.Programs
import Verif.Props.Lines
import Verif.Props.Whole
/-
C137: requests without headers. C138: the version every answer says. C139: what can go wrong in the operations on a
response, and applications that do nothing else.
-/
namespace Octane
open Spec
variable {W : Type u}

/-! ### C137 -/

/-- The full claim of C137 (RFC 1945 section 5; RFC 7230 asks for a Host only from 1.1 on): a request of HTTP/1.0 needs
no header. So if a header is of no importance to anyone, the request without it is answered as the one with it, though
it is the only one. -/
def C137_statement : Prop :=
  ∀ (P : Str → Prop) (calls : List (Call (Nat × Response))) (sv : Server Nat) (q : WireReq) (n v : Str)
    (s s' : Sock) (w : Nat),
    FairL calls → (logOfL calls).length < 2 ^ 64 → execL Router.new calls = .ok sv.router →
    (∀ e ∈ logOfL calls, LooksOnlyAt P e.handler) → q.version = c!"1.0" → q.headers = [(n, v)] → q.Framed →
    ¬ P (lowered n) → lowered n ∉ [c!"content-length", c!"cookie", c!"host"] →
    s.bytes = { q with headers := [] }.bytes → s'.bytes = q.bytes → s.fin = .eof → s'.fin = .eof →
    (∀ k, sv.allocOk k = true) → (∀ w, 0 ≤ sv.clock w) → q.body.length ≤ i64Max → sv.serve w s = sv.serve w s'

/-- A request without any header is answered by the 400 page, whatever its method, target and version, whatever
follows and however the stream ends; no handler runs. -/
theorem C137_refused (sv : Server W) (w : W) (s : Sock) (line : Str) (rest : Bytes) (hline : '\r' ∉ line)
    (hb : s.bytes = utf8 line ++ blankLine ++ rest) (hc : 0 ≤ sv.clock w) : Page sv w s w c!"400" c!"BAD REQUEST" := by
  have hf : FirstSplit s.bytes blankLine (utf8 line) rest := by
    refine ⟨hb, fun j hj ho => ?_⟩
    rw [hb, List.append_assoc, show blankLine = crlfB ++ crlfB from rfl, List.append_assoc] at ho
    have := blank_after (cr_not_mem_utf8 hline) ho
    omega
  have hr := ((C25_head_from_bytes s).2 _ _ hf).2 (fun t ht => by
    rw [← utf8_injective ht]
    exact no_crlf_of_no_cr hline)
  refine page_of 21 hc ?_ (by decide +kernel) (by decide +kernel)
  unfold Server.serve
  simp only [hr, Io.bind_ok]
  rfl

/-- What holds of C137: one header is enough, and it does not matter which. Missing: no header at all, which is
refused (`C137_refused`). -/
theorem C137_any_partial (P : Str → Prop) (calls : List (Call (W × Response))) (hf : FairL calls)
    (hn : (logOfL calls).length < 2 ^ 64) (sv : Server W) (hsv : execL Router.new calls = .ok sv.router)
    (hl : ∀ e ∈ logOfL calls, LooksOnlyAt P e.handler)
    (q : WireReq) (n v n' v' : Str) (hv : q.version = c!"1.0") (hh : q.headers = [(n, v)]) (hq : q.Framed)
    (hq' : { q with headers := [(n', v')] }.Framed) (hP : ¬ P (lowered n)) (hP' : ¬ P (lowered n'))
    (hk : lowered n ≠ c!"cookie") (hk' : lowered n' ≠ c!"cookie")
    (s s' : Sock) (hb : s.bytes = q.bytes) (hb' : s'.bytes = { q with headers := [(n', v')] }.bytes)
    (halloc : ∀ k ≤ q.body.length, sv.allocOk k = true) (hmax : q.body.length ≤ i64Max) (w : W) :
    sv.serve w s = sv.serve w s' := by
  have hj : ∀ a b k, lowered a ≠ k → joined [(a, b)] k = none := by
    intro a b k h
    exact (joined_none _ _).2 (by simpa using h)
  refine C130_same P calls hf hn sv hsv hl q _ hq hq' (fun k h => ?_) (fun _ => ?_) (fun h => ?_) s s' hb hb' halloc
    hmax w
  · rw [hh, hj n v k (by rintro rfl; exact hP h), hj n' v' k (by rintro rfl; exact hP' h)]
  · rw [hh, hj n v _ hk, hj n' v' _ hk']
  · rw [hv] at h; exact absurd h (by decide)

namespace AnswersExample
open TargetExample FieldsExample UnknownExample

def bareRequest : Bytes := utf8 c!"GET / HTTP/1.0" ++ blankLine ++ []

example : Page (demo tells) () ⟨[bareRequest], .silent⟩ () c!"400" c!"BAD REQUEST" :=
  C137_refused (demo tells) () _ c!"GET / HTTP/1.0" [] (by decide) (by simp [Sock.bytes, bareRequest]) (by decide)

theorem old_framed (n v : Str) (h : n ≠ [] ∧ ∀ c ∈ n, isTchar c)
    (hv : (∀ c ∈ v, ¬ isRefusedControl c) ∧ ∀ c, v.head? = some c → ¬ isBlank c) (hn : lowered n ≠ c!"content-length") :
    { q [c!"a"] with version := c!"1.0", headers := [(n, v)] }.Framed := by
  have hq := (TargetExample.good [c!"a"] (by decide) (by decide)).toFramed
  refine ⟨hq.method, hq.pieces, hq.inside, ⟨by show _ ∉ c!"1.0"; decide, by show _ ∉ c!"1.0"; decide⟩,
    ⟨by simp, fun x hx => ?_⟩, ?_⟩
  · simp only [List.mem_singleton] at hx; subst hx
    exact ⟨h.1, h.2, hv⟩
  · refine .inr ⟨rfl, fun v m hv => ?_⟩
    rw [(joined_none _ _).2 (by simpa using hn)] at hv
    simp at hv

/-- a request of HTTP/1.0 with these headers -/
def asks10 (hs : List (Str × Str)) : Sock := ⟨[{ q [c!"a"] with version := c!"1.0", headers := hs }.bytes], .eof⟩

example (router : Router (Unit × Response)) (hr : execL Router.new [.add tells] = .ok router) :
    Server.serve { empty with router } () (asks10 [(c!"X", c!"1")]) =
      Server.serve { empty with router } () (asks10 [(c!"Host", c!"h")]) :=
  C137_any_partial (· = c!"a") [.add tells] (by simp [FairL, Fair]) (by simp [logOfL, logOf]) { empty with router } hr
    (by intro e he; simp only [logOfL, logOf, List.append_nil, List.mem_singleton] at he; subst he; exact tells_only)
    { q [c!"a"] with version := c!"1.0", headers := [(c!"X", c!"1")] } c!"X" c!"1" c!"Host" c!"h" rfl rfl
    (old_framed _ _ (by decide) (by decide) (by decide +kernel)) (old_framed _ _ (by decide) (by decide) (by decide +kernel))
    (by decide +kernel) (by decide +kernel) (by decide +kernel) (by decide +kernel) _ _ (by simp [asks10, Sock.bytes])
    (by simp [asks10, Sock.bytes]) (fun _ _ => rfl) (by decide) ()

end AnswersExample

open AnswersExample TargetExample FieldExample in
/-- C137 is false of the code. -/
theorem C137_counterexample : ¬ C137_statement := by
  intro h
  have h1 := h (fun _ => False) [] (counting false) { q [c!"a"] with version := c!"1.0", headers := [(c!"X", c!"1")] }
    c!"X" c!"1" (asks10 []) (asks10 [(c!"X", c!"1")]) 0 (by simp [FairL]) (by simp [logOfL]) (by simp [execL, counting])
    (by simp [logOfL]) rfl rfl (old_framed _ _ (by decide) (by decide) (by decide +kernel)) (by simp) (by decide +kernel)
    (by simp [asks10, Sock.bytes]) (by simp [asks10, Sock.bytes]) rfl rfl (fun _ => rfl) (fun _ => by simp [counting])
    (by decide)
  revert h1
  decide +kernel

/-! ### C138 -/

/-- If a property of responses holds of the empty one and no handler destroys it, then every answer is one of the
error pages or a response with that property, whatever the client sent. -/
theorem C138_invariant (I : Response → Prop) (calls : List (Call (W × Response))) (hf : FairL calls)
    (hn : (logOfL calls).length < 2 ^ 64) (sv : Server W) (hsv : execL Router.new calls = .ok sv.router)
    (h0 : I Response.newEmpty)
    (hl : ∀ e ∈ logOfL calls, ∀ mr st st' fl, e.handler mr st = .ok (st', fl) → I st.2 → I st'.2)
    (w w' : W) (s : Sock) (bytes : Bytes) (h : sv.serve w s = .ok (w', bytes)) :
    (∃ code ∈ [StatusCode.badRequest, .notFound, .notImplemented],
      errorPage sv.U sv.feat.cookies sv.ord (sv.clock w') code = .ok bytes) ∨
    ∃ r, I r ∧ r.hasBody = true ∧ bytes = sendData (r.getData sv.U sv.feat.cookies sv.ord) := by
  have herr : ∀ w0 code, Io.ofRes (sv.declareError w0 code) = .ok (w', bytes) →
      errorPage sv.U sv.feat.cookies sv.ord (sv.clock w') code = .ok bytes := by
    intro w0 code h
    unfold Server.declareError at h
    cases he : errorPage sv.U sv.feat.cookies sv.ord (sv.clock w0) code with
    | panic => rw [he] at h; cases h
    | ok b =>
      rw [he] at h
      simp only [Res.bind_ok', Io.ofRes_ok, Io.ok.injEq, Prod.mk.injEq] at h
      rw [← h.1, ← h.2, he]
  rw [serve_readRest] at h
  cases hread : readRest sv.feat sv.allocOk s (.head []) with
  | panic => rw [hread] at h; cases h
  | pending => rw [hread] at h; cases h
  | abort => rw [hread] at h; cases h
  | ok o =>
    rw [hread, Io.bind_ok] at h
    cases o with
    | none => exact .inl ⟨_, by simp, herr w _ h⟩
    | some req =>
      simp only at h
      rw [handle_spec] at h
      split at h
      · exact .inl ⟨_, by simp, herr w _ h⟩
      · split at h
        · exact .inl ⟨_, by simp, herr w _ h⟩
        · rename_i hm
          obtain ⟨q, n, hq, hw, -⟩ := readRest_received hread
          have hall : req.requestLine.method ≠ .all := by
            intro e
            rcases hw.method with hm' | ⟨-, hm'⟩
            · rw [e] at hm'; simp [methodTable] at hm'
            · exact hm hm'
          obtain ⟨r, hr, hrun⟩ := C12_run_is_replay calls hf hn
          rw [hsv] at hr
          injection hr with hr
          subst hr
          rw [hrun _ req _ hall] at h
          have key : ∀ (log : List (Reg (W × Response))) (st st' : W × Response),
              (∀ e ∈ log, ∀ mr st st' fl, e.handler mr st = .ok (st', fl) → I st.2 → I st'.2) →
              replay sv.feat.urlVariables req log st = .ok st' → I st.2 → I st'.2 := by
            intro log
            induction log with
            | nil => intro st st' _ h hi; simp only [replay, Res.ok.injEq] at h; rw [← h]; exact hi
            | cons e log ih =>
              intro st st' hl h hi
              have ih := fun st => ih st st' (fun e he => hl e (List.mem_cons_of_mem _ he))
              unfold replay at h
              split at h
              · split at h
                · cases h
                · rename_i h1
                  simp only [Res.ok.injEq] at h
                  subst h
                  exact hl e (by simp) _ _ _ _ h1 hi
                · rename_i h1
                  exact ih _ h (hl e (by simp) _ _ _ _ h1 hi)
              · exact ih _ h hi
          cases hrep : replay sv.feat.urlVariables req (logOfL calls) (w, Response.newEmpty) with
          | panic => rw [hrep] at h; cases h
          | ok st =>
            rw [hrep] at h
            simp only [Res.bind_ok'] at h
            split at h
            · exact .inl ⟨_, by simp, herr st.1 _ h⟩
            · rename_i hb
              simp only [Io.ofRes_ok, Io.ok.injEq, Prod.mk.injEq] at h
              exact .inr ⟨st.2, key _ _ _ hl hrep h0, by simpa using hb, h.2.symm⟩

theorem begins_with_version (U : Unicode) (cookies : Bool) (ord : MapOrder) (r : Response) :
    ∃ rest, sendData (r.getData U cookies ord) = utf8 (c!"HTTP/" ++ r.httpVersion ++ c!" ") ++ rest := by
  refine ⟨utf8 (showInt r.statusCode.code ++ [' '] ++ r.reasonPhrase U ++ c!"\r\n" ++ r.headersStr cookies ord ++ c!"\r\n")
    ++ (copy r.body.getReader).1, ?_⟩
  unfold sendData Response.getData Response.statusLine
  rw [← List.append_assoc, ← utf8_append]
  congr 2
  simp

/-- C138: every answer says HTTP/1.1, whatever version the client spoke (and also if it is not understood), unless a
handler chooses another. -/
theorem C138_version (calls : List (Call (W × Response))) (hf : FairL calls) (hn : (logOfL calls).length < 2 ^ 64)
    (sv : Server W) (hsv : execL Router.new calls = .ok sv.router)
    (hl : ∀ e ∈ logOfL calls, ∀ mr st st' fl, e.handler mr st = .ok (st', fl) → st'.2.httpVersion = st.2.httpVersion)
    (w w' : W) (s : Sock) (bytes : Bytes) (h : sv.serve w s = .ok (w', bytes)) :
    ∃ rest, bytes = utf8 c!"HTTP/1.1 " ++ rest := by
  rcases C138_invariant (fun r => r.httpVersion = c!"1.1") calls hf hn sv hsv rfl
    (fun e he mr st st' fl h hi => (hl e he mr st st' fl h).trans hi) w w' s bytes h with ⟨code, -, he⟩ | ⟨r, hr, -, rfl⟩
  · unfold errorPage at he
    cases hd : ((Response.newFromSlice (utf8 notFoundPage)).status code).defaultHeaders sv.U (sv.clock w') with
    | panic => rw [hd] at he; cases he
    | ok r =>
      rw [hd] at he
      simp only [Res.bind_ok', Res.ok.injEq] at he
      subst he
      obtain ⟨rest, e⟩ := begins_with_version sv.U sv.feat.cookies sv.ord (r.set c!"Content-Type" c!"text/html")
      refine ⟨rest, ?_⟩
      rw [e, show (r.set c!"Content-Type" c!"text/html").httpVersion = r.httpVersion from rfl,
        (defaultHeaders_spec hd).2.2.2.2.1]
      rfl
  · obtain ⟨rest, e⟩ := begins_with_version sv.U sv.feat.cookies sv.ord r
    exact ⟨rest, by rw [e, hr]; rfl⟩

/-- Of the operations on a response, only those that name a version change it. -/
theorem C138_kept (U : Unicode) (ops : List ResOp) (r r' : Response) (h : execOps U r ops = .ok r')
    (ho : ∀ o ∈ ops, o.versionSet = none) : r'.httpVersion = r.httpVersion := by
  rcases (C77_settings U ops r r' h).2.1 with ⟨pre, op, post, rfl, h1, -⟩ | ⟨-, h1⟩
  · rw [ho op (by simp)] at h1; cases h1
  · exact h1

/-! ### C139 -/

/-- Operations that are asked for something impossible: a date before 1970; a file whose name ends in `..` or has no
last component, though it is an ordinary file (no file system has one). -/
def Spec.ResOp.Faulty : ResOp → Prop
  | .send clock _ | .defaultHeaders clock => clock < 0
  | .sendFile fs path => (∃ contents len, fs path = .regular contents len) ∧ fileName path = none
  | _ => False

/-- C139: operations on a response panic exactly if one of them is asked for something impossible. -/
theorem C139_ops (U : Unicode) (r : Response) (ops : List ResOp) :
    execOps U r ops = .panic ↔ ∃ o ∈ ops, o.Faulty := by
  have one : ∀ (o : ResOp) (r : Response), o.exec U r = .panic ↔ o.Faulty := by
    intro o r
    have hdef : ∀ (clock : Int) (r : Response), r.defaultHeaders U clock = .panic ↔ clock < 0 := by
      intro clock r
      constructor
      · intro h
        rcases Int.lt_or_le clock 0 with h0 | h0
        · exact h0
        · obtain ⟨r', h'⟩ := defaultHeaders_ok (U := U) h0 r
          rw [h'] at h; cases h
      · intro h
        unfold Response.defaultHeaders
        rw [dateHeader_panic h]
        rfl
    cases o <;> simp only [ResOp.exec, ResOp.Faulty, reduceCtorEq]
    case send => exact hdef _ _
    case defaultHeaders => exact hdef _ _
    case sendFile fs path =>
      unfold Response.sendFile handleFile
      cases hf : fs path <;> simp
      cases hn : fileName path <;> simp
  induction ops generalizing r with
  | nil => simp [execOps]
  | cons o ops ih =>
    simp only [execOps, List.mem_cons, exists_eq_or_imp]
    cases ho : o.exec U r with
    | panic => simp [(one o r).1 ho]
    | ok r1 =>
      have : ¬ o.Faulty := fun h => by rw [(one o r).2 h] at ho; cases ho
      simp [ih, this]

/-- So an application whose handlers do nothing but operations on the response (which may depend on the request and
the time), none of them impossible, answers every request that the server can read, however it is cut and whatever
it asks for. -/
theorem C139_answered (sv : Server W) (calls : List (Call (W × Response))) (hf : FairL calls)
    (hn : (logOfL calls).length < 2 ^ 64) (hr : execL Router.new calls = .ok sv.router) (xs : List Script)
    (hlog : logOfL calls = xs.map (Script.reg sv.U sv.clock))
    (hx : ∀ x ∈ xs, ∀ mr now, 0 ≤ now → ∀ o ∈ x.ops mr now, ¬ o.Faulty) (hc : ∀ w, 0 ≤ sv.clock w)
    (s : Sock) (q : Asked) (n : Nat) (hq : q.In sv.feat.faithful sv.feat.cookies s.bytes n)
    (halloc : ∀ k ≤ n, sv.allocOk k = true) (hmax : n ≤ i64Max) (w : W) :
    ∃ w' bytes, sv.serve w s = .ok (w', bytes) := by
  obtain ⟨req, h1, h2, -⟩ := reads_asked sv.feat sv.allocOk s q n hq halloc hmax
  have herr : ∀ w0 (i : Fin 61), ∃ w' bytes, Io.ofRes (sv.declareError w0 (.named i)) = .ok (w', bytes) := by
    intro w0 i
    obtain ⟨bytes, v, e1, -⟩ := declareError_ok sv w0 i (hc w0)
    exact ⟨w0, bytes, by rw [e1]; rfl⟩
  rw [serve_reads h1, handle_spec]
  split
  · exact herr w _
  · split
    · exact herr w _
    · rename_i hm
      have hall : req.requestLine.method ≠ .all := by
        rw [h2]
        show methodOf q.method ≠ .all
        unfold methodOf
        repeat' split
        all_goals simp
      obtain ⟨r, hr', hrun⟩ := C12_run_is_replay calls hf hn
      rw [hr] at hr'
      injection hr' with hr'
      subst hr'
      rw [hrun _ req _ hall]
      obtain ⟨st, hst⟩ := replay_ok sv.feat.urlVariables req (logOfL calls) (by
        intro e he mr st h
        rw [hlog, List.mem_map] at he
        obtain ⟨x, hx', rfl⟩ := he
        simp only [Script.reg] at h
        cases ho : execOps sv.U st.2 (x.ops mr (sv.clock st.1)) with
        | panic =>
          obtain ⟨o, ho1, ho2⟩ := (C139_ops _ _ _).1 ho
          exact hx x hx' mr _ (hc _) o ho1 ho2
        | ok r => rw [ho] at h; cases h) (w, Response.newEmpty)
      rw [hst]
      simp only [Res.bind_ok']
      split
      · exact herr _ _
      · exact ⟨_, _, rfl⟩

open ProgramsExample in
/-- C138 and C139 for the scripts of C122: the request of HTTP/1.1 in `sock` and any other that is read. -/
example : ∃ r, execL Router.new (scriptCalls scripts) = .ok r ∧
    (∃ w' rest, ({ empty with router := r } : Server Unit).serve () (sock c!"GET" [c!"hi"]) =
      .ok (w', utf8 c!"HTTP/1.1 " ++ rest)) := by
  have hl : logOfL (scriptCalls scripts) = scripts.map (Script.reg empty.U empty.clock) := by
    have : Path.parse (Path.display [c!":a"]) = some [c!":a"] := by decide +kernel
    simp [scriptCalls, scripts, logOfL, logOf, this, Verb.target, Verb.method, Script.reg, empty]
  have hf : FairL (scriptCalls scripts) := by simp [scriptCalls, scripts, FairL, Fair]
  obtain ⟨r, hr⟩ := made (scriptCalls scripts) hf (by rw [hl]; decide)
  have hops : ∀ x ∈ scripts, ∀ mr now, ∀ o ∈ x.ops mr now, o.versionSet = none ∧ (0 ≤ now → ¬ o.Faulty) := by
    intro x hx mr now o ho
    simp only [scripts, List.mem_cons, List.not_mem_nil, or_false] at hx
    rcases hx with rfl | rfl | rfl <;> simp only [List.mem_cons, List.not_mem_nil, or_false] at ho
    · subst ho; exact ⟨rfl, fun _ h => h⟩
    · rcases ho with rfl | rfl
      · exact ⟨rfl, fun _ h => h⟩
      · exact ⟨rfl, fun h0 h => absurd h (by simp only [ResOp.Faulty]; omega)⟩
    · subst ho; exact ⟨rfl, fun h0 h => absurd h (by simp only [ResOp.Faulty]; omega)⟩
  obtain ⟨w', bytes, h⟩ := C139_answered { empty with router := r } _ hf (by rw [hl]; decide) hr scripts hl
    (fun x hx mr now h0 o ho => (hops x hx mr now o ho).2 h0) (fun w => (clock w).1) (sock c!"GET" [c!"hi"]) _ 0
    (asked_in c!"GET" [c!"hi"] (by decide) (by decide)) (fun _ _ => rfl) (by decide) ()
  obtain ⟨rest, h'⟩ := C138_version _ hf (by rw [hl]; decide) { empty with router := r } hr (by
    intro e he mr st st' fl he'
    rw [hl, List.mem_map] at he
    obtain ⟨x, hx, rfl⟩ := he
    simp only [Script.reg] at he'
    cases ho : execOps empty.U st.2 (x.ops mr (empty.clock st.1)) with
    | panic => rw [ho] at he'; cases he'
    | ok r1 =>
      rw [ho] at he'
      simp only [Res.bind_ok', Res.ok.injEq, Prod.mk.injEq] at he'
      rw [← he'.1]
      exact C138_kept _ _ _ _ ho fun o ho => (hops x hx mr _ o ho).1) () w' _ _ h
  exact ⟨r, hr, w', rest, by rw [h, h']⟩

/-- C138_invariant: no handler, so no body: every answer is an error page -/
example (s : Sock) (w' : Unit) (bytes : Bytes) (h : Server.serve empty () s = .ok (w', bytes)) :
    ∃ code ∈ [StatusCode.badRequest, .notFound, .notImplemented], errorPage empty.U true empty.ord 0 code = .ok bytes := by
  rcases C138_invariant (fun r => r.hasBody = false) [] (by simp [FairL]) (by simp [logOfL]) empty rfl rfl
    (by simp [logOfL]) () w' s bytes h with h | ⟨r, h1, h2, -⟩
  · exact h
  · rw [h1] at h2; cases h2

/-- C138_kept: a status, a body and a cookie -/
example : ∃ r, execOps Unicode.asciiOnly Response.newEmpty [.status (.named 25), .send 0 [1], .cookie ⟨c!"a", c!"b", []⟩] = .ok r ∧
    r.httpVersion = c!"1.1" := by
  cases h : execOps Unicode.asciiOnly Response.newEmpty [.status (.named 25), .send 0 [1], .cookie ⟨c!"a", c!"b", []⟩] with
  | panic =>
    obtain ⟨o, ho, hf⟩ := (C139_ops _ _ _).1 h
    simp only [List.mem_cons, List.not_mem_nil, or_false] at ho
    rcases ho with rfl | rfl | rfl
    · exact absurd hf (by simp [ResOp.Faulty])
    · exact absurd hf (by simp [ResOp.Faulty])
    · exact absurd hf (by simp [ResOp.Faulty])
  | ok r => exact ⟨r, rfl, C138_kept _ _ _ _ h (by simp [ResOp.versionSet])⟩

/-- C139_ops: a clock before 1970 -/
example : execOps Unicode.asciiOnly Response.newEmpty [.status (.named 25), .send (-1) [1]] = .panic :=
  (C139_ops _ _ _).2 ⟨.send (-1) [1], by simp, by simp [ResOp.Faulty]⟩

end Octane
