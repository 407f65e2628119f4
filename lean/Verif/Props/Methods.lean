import Verif.Props.Dead
import Verif.Props.TargetExact
import Verif.Props.Examples
/-
C158: which methods can be routed by themselves.
-/
namespace Octane
open Spec Query
universe u
variable {W : Type u} {S : Type u}

/-- The full claim of C158: for every method that is understood there is a program with which a request with that
method for `/` is answered by a handler and requests with other methods for `/` are not found. The handlers are not to
look at the request: it is routing that has to tell the methods apart. -/
def C158_statement : Prop :=
  ∀ (sv : Server Unit) (name : Str), name ∈ methodTokens →
    ∃ (calls : List (Call (Unit × Response))) (r : Router (Unit × Response)), FairL calls ∧
      (logOfL calls).length < 2 ^ 64 ∧ (∀ e ∈ logOfL calls, Blind e.handler) ∧ execL Router.new calls = .ok r ∧
      ∀ s name', Asks { sv with router := r } s name' [] →
        if name' = name then ∃ headers, Sees { sv with router := r } () s c!"200" c!"OK" headers (utf8 c!"hi")
        else Page { sv with router := r } () s () c!"404" c!"NOT FOUND"

/-- The methods that are understood in requests and have no function to register a handler with. -/
def Spec.orphans : List Str := [c!"OPTIONS", c!"TRACE", c!"CONNECT"]

/-- the registrations that are for every method -/
def Spec.anyMethods : Target → Bool
  | .on _ _ => false
  | _ => true

mutual
theorem log_verbs : ∀ (c : Call S) (e : Reg S), e ∈ logOf c → ∀ m p, e.target = .on m p →
    m ∈ [RequestMethod.get, .post, .put, .delete, .head, .patch]
  | .route v path h => by
    intro e he m p ht
    unfold logOf at he
    cases hp : Path.parse path with
    | none => rw [hp] at he; cases he
    | some q =>
      rw [hp] at he
      rw [List.mem_singleton.1 he] at ht
      cases v <;> simp [Verb.target, Verb.method] at ht <;> simp [← ht.1]
  | .add h => by
    intro e he m p ht
    unfold logOf at he
    rw [List.mem_singleton.1 he] at ht
    cases ht
  | .mount calls _ => by
    intro e he
    unfold logOf at he
    exact logL_verbs calls e he
theorem logL_verbs : ∀ (calls : List (Call S)) (e : Reg S), e ∈ logOfL calls → ∀ m p, e.target = .on m p →
    m ∈ [RequestMethod.get, .post, .put, .delete, .head, .patch]
  | [] => by intro e he; unfold logOfL at he; cases he
  | c :: calls => by
    intro e he
    unfold logOfL at he
    rcases List.mem_append.1 he with he | he
    · exact log_verbs c e he
    · exact logL_verbs calls e he
end

theorem orphan_method {name : Str} {m : RequestMethod} (h : (name, m) ∈ methodTable) (ho : name ∈ orphans) :
    m ∉ [RequestMethod.get, .post, .put, .delete, .head, .patch] := by
  have : ∀ e ∈ methodTable, e.1 ∈ orphans → e.2 ∉ [RequestMethod.get, .post, .put, .delete, .head, .patch] := by
    decide +kernel
  exact this _ h ho

/-- How far the failure goes: whatever the program registers, a handler that is called for OPTIONS, TRACE or CONNECT
at some path is called there for every method. -/
theorem C158_never (uv : Bool) (calls : List (Call S)) (name : Str) (m : RequestMethod)
    (hm : (name, m) ∈ methodTable) (ho : name ∈ orphans) (e : Reg S) (he : e ∈ logOfL calls) (path : PathBuf)
    (hap : e.target.applies uv m path = true) : ∀ m', e.target.applies uv m' path = true := by
  intro m'
  cases ht : e.target with
  | everywhere => rfl
  | anyMethod p => rw [ht] at hap; exact hap
  | on m0 p =>
    have h1 := logL_verbs calls e he m0 p ht
    rw [ht] at hap
    simp only [Target.applies, Bool.and_eq_true, decide_eq_true_eq] at hap
    exact absurd (hap.1 ▸ h1) (orphan_method hm ho)

/-- what the server does with a request that is asked properly -/
theorem asks_serve {sv : Server W} {calls : List (Call (W × Response))} (hf : FairL calls)
    (hn : (logOfL calls).length < 2 ^ 64) (hr : execL Router.new calls = .ok sv.router) {s : Sock} {name : Str}
    {path : PathBuf} (ha : Asks sv s name path) (w : W) :
    ∃ req, (name, req.requestLine.method) ∈ methodTable ∧ req.requestLine.path = path ∧
      sv.serve w s = Io.ofRes ((replay sv.feat.urlVariables req (logOfL calls) (w, Response.newEmpty)).bind fun st =>
        if st.2.hasBody = false then sv.declareError st.1 .notFound
        else .ok (st.1, sendData (st.2.getData sv.U sv.feat.cookies sv.ord))) := by
  obtain ⟨q, n, hq, rfl, rfl, hhost⟩ := ha.asked
  have hn' : n ≤ i64Max := by
    obtain ⟨text, line, hdrs, h1, -, -, -, -, h6, -⟩ := hq
    have := congrArg List.length h1.1
    have h0 := ha.len
    simp only [List.length_append] at this
    omega
  obtain ⟨req, r1, r2, -, r4, -⟩ := reads_asked sv.feat sv.allocOk s q n hq (fun k _ => ha.memory k) hn'
  have hk := method_known _ ha.known
  have hserve := serve_reads r1 w
  rw [handle_spec, r2, r4] at hserve
  simp only [version_http11, joined_none_iff] at hserve
  rw [if_neg (by
      rintro ⟨hv, hno⟩
      obtain ⟨h, hh, he⟩ := hhost hv
      exact hno h hh he), if_neg (known_not_all hk).2,
    run_replays hf rfl hn hr req (by rw [r2]; exact (known_not_all hk).1)] at hserve
  exact ⟨req, by rw [r2]; exact hk, by rw [r2], hserve⟩

/-- On a connection: handlers that do not look at the request give the same answer for OPTIONS, TRACE and CONNECT of
the same path, whatever is registered. -/
theorem C158_alike (sv : Server W) (calls : List (Call (W × Response))) (hf : FairL calls)
    (hn : (logOfL calls).length < 2 ^ 64) (hr : execL Router.new calls = .ok sv.router)
    (hblind : ∀ e ∈ logOfL calls, Blind e.handler) (s s' : Sock) (name name' : Str) (path : PathBuf)
    (ha : Asks sv s name path) (ha' : Asks sv s' name' path) (ho : name ∈ orphans) (ho' : name' ∈ orphans) (w : W) :
    sv.serve w s = sv.serve w s' := by
  obtain ⟨req, h1, h2, h3⟩ := asks_serve hf hn hr ha w
  obtain ⟨req', h1', h2', h3'⟩ := asks_serve hf hn hr ha' w
  rw [h3, h3', replay_same _ req req' _ _ hblind]
  intro e he
  rw [h2, h2', Bool.eq_iff_iff]
  exact ⟨fun h => C158_never _ calls _ _ h1 ho e he path h _, fun h => C158_never _ calls _ _ h1' ho' e he path h _⟩

/-- What holds of C158: the other six methods have a function that registers for that method and no other, with every
path that can be registered. Missing: OPTIONS, TRACE and CONNECT, see `C158_alike`. -/
theorem C158_alone_partial (sv : Server W) (name : Str) (m : RequestMethod) (hm : (name, m) ∈ methodTable)
    (ho : name ∉ orphans) : ∃ v : Verb, ∀ (path : Str) (p : PathBuf) (text : Bytes) (r : Router (W × Response)),
      Path.parse path = some p →
      execL Router.new [.route v path (routeStop (sendText sv.U sv.clock text))] = .ok r →
      ∀ w s name' path', Asks { sv with router := r } s name' path' →
        (name' = name ∧ PatMatch sv.feat.urlVariables p path' →
          ∃ d, dateHeader (sv.clock w) = .ok (some d) ∧
            Sees { sv with router := r } w s c!"200" c!"OK" (sendHeaders (showNat text.length) d) text) ∧
        (¬ (name' = name ∧ PatMatch sv.feat.urlVariables p path') →
          Page { sv with router := r } w s w c!"404" c!"NOT FOUND") := by
  have : ∀ e ∈ methodTable, e.1 ∉ orphans → ∃ v ∈ [Verb.get, .post, .put, .delete, .head, .patch], v.method = e.2 := by
    decide +kernel
  obtain ⟨v, hv, hvm⟩ := this _ hm ho
  refine ⟨v, fun path p text r hp hr w s name' path' ha => ?_⟩
  have ht : v.target p = .on m p := by
    simp only at hvm
    subst hvm
    simp only [List.mem_cons, List.not_mem_nil, or_false] at hv
    rcases hv with rfl | rfl | rfl | rfl | rfl | rfl <;> rfl
  have hlog : logOfL [.route v path (routeStop (sendText sv.U sv.clock text))] =
      [⟨.on m p, routeStop (sendText sv.U sv.clock text)⟩] := by simp [logOfL, logOf, hp, ht]
  obtain ⟨req, h1, h2, h3⟩ := asks_serve (sv := { sv with router := r }) (by simp [FairL, Fair])
    (by rw [hlog]; simp) hr ha w
  have happ : (Target.on m p).applies sv.feat.urlVariables req.requestLine.method req.requestLine.path = true ↔
      name' = name ∧ PatMatch sv.feat.urlVariables p path' := by
    simp only [Target.applies, Bool.and_eq_true, decide_eq_true_eq, h2]
    refine and_congr_left fun _ => ?_
    have : ∀ a ∈ methodTable, ∀ b ∈ methodTable, a.2 = b.2 ↔ b.1 = a.1 := by decide +kernel
    exact this _ hm _ h1
  rw [hlog] at h3
  constructor
  · intro hc
    obtain ⟨d, hd⟩ := date_some (ha.clock w).1 (ha.clock w).2
    have hs := send_on (U := sv.U) hd Response.newEmpty text (by simp [Response.newEmpty])
    refine ⟨d, hd, ?_⟩
    have h4 : Server.serve { sv with router := r } w s = _ := h3
    simp only [replay] at h4
    rw [if_pos (happ.2 hc)] at h4
    simp only [routeStop, sendText, hs, Res.bind_ok'] at h4
    have := sees_of (sv := { sv with router := r }) (w := w) (s := s) 4 h4 rfl rfl
      (good_sent hd [] text.length c!"text/html" (by decide) (by simp)) (by simp [Response.newEmpty]) (.inr rfl) (inMemory_of rfl)
      (code := c!"200") (reason := c!"OK") (by decide +kernel) (by decide +kernel)
    exact this
  · intro hc
    have h4 : Server.serve { sv with router := r } w s = _ := h3
    simp only [replay] at h4
    rw [if_neg (fun h => hc (happ.1 h))] at h4
    exact page_of (sv := { sv with router := r }) 25 (ha.clock w).1 h4 (by decide +kernel) (by decide +kernel)

/-- the request at the beginning of a stream has one method -/
theorem asked_method {f c : Bool} {bytes : Bytes} {q q' : Asked} {n n' : Nat} (h : q.In f c bytes n)
    (h' : q'.In f c bytes n') : q.method = q'.method ∧ q.pieces = q'.pieces := by
  obtain ⟨text, line, hdrs, h1, h2, h3, -⟩ := h
  obtain ⟨text', line', hdrs', h1', h2', h3', -⟩ := h'
  have e1 := utf8_injective (h1.unique h1').1
  subst e1
  have e2 := (h2.unique h2').1
  subst e2
  have := h3.unique h3'
  exact ⟨this.1, this.2.1⟩

/-- On a connection: a request for OPTIONS, TRACE or CONNECT is answered by the application as if everything
registered for one method were left out, whatever the path and the handlers. -/
theorem C158_left_out (sv : Server W) (calls calls' : List (Call (W × Response))) (hf : FairL calls)
    (hf' : FairL calls') (hn : (logOfL calls).length < 2 ^ 64) (r' : Router (W × Response))
    (hr : execL Router.new calls = .ok sv.router) (hr' : execL Router.new calls' = .ok r')
    (hlog : logOfL calls' = (logOfL calls).filter fun e => anyMethods e.target)
    (s : Sock) (q : Asked) (n : Nat) (hq : q.In sv.feat.faithful sv.feat.cookies s.bytes n) (ho : q.method ∈ orphans)
    (w : W) : { sv with router := r' }.serve w s = sv.serve w s := by
  refine serve_congr_known sv r' w s fun req q' n' hq' hw hm => ?_
  rw [← (asked_method hq hq').1] at hm
  have hall := (known_not_all hm).1
  rw [run_replays hf rfl hn hr req hall, run_replays (sv := sv) hf' hlog
    (Nat.lt_of_le_of_lt (List.length_filter_le _ _) hn) hr' req hall]
  refine (replay_kept _ req _ _ _ fun e he hk => ?_).symm
  cases ht : e.target with
  | everywhere => rw [ht] at hk; cases hk
  | anyMethod p => rw [ht] at hk; cases hk
  | on m0 p =>
    have h1 := logL_verbs calls e he m0 p ht
    simp only [Target.applies, Bool.and_eq_false_iff, decide_eq_false_iff_not]
    exact .inl fun e0 => orphan_method hm ho (e0 ▸ h1)

/-- So if no handler for every method is registered that matches the path, such a request gets the 404 page. -/
theorem C158_not_found (sv : Server W) (calls : List (Call (W × Response))) (hf : FairL calls)
    (hn : (logOfL calls).length < 2 ^ 64) (hr : execL Router.new calls = .ok sv.router)
    (s : Sock) (name : Str) (path : PathBuf) (ha : Asks sv s name path) (ho : name ∈ orphans)
    (hno : ∀ e ∈ logOfL calls, e.target ≠ .everywhere ∧
      ∀ p, e.target = .anyMethod p → ¬ PatMatch sv.feat.urlVariables p path) (w : W) :
    Page sv w s w c!"404" c!"NOT FOUND" := by
  obtain ⟨q, n, hq, rfl, rfl, hhost⟩ := ha.asked
  have h1 := ((C83_connection calls hf hn sv hr w s ha.eof ha.len ha.memory (fun w => (ha.clock w).1)).2.1 q n hq).2
    (by
      rintro ⟨hv, hno⟩
      obtain ⟨h, hh, he⟩ := hhost hv
      exact hno h hh he)
  obtain ⟨req, hg, -, -, hok⟩ := h1.2 ha.known
  refine (hok w Response.newEmpty ?_).1 rfl
  rw [replay_kept _ req (fun _ => false)]
  · rw [List.filter_eq_nil_iff.2 (by simp)]
    rfl
  · intro e he _
    cases ht : e.target with
    | everywhere => exact absurd ht (hno e he).1
    | anyMethod p => simpa [Target.applies, hg.path] using (hno e he).2 p ht
    | on m0 p =>
      have h1 := logL_verbs calls e he m0 p ht
      simp only [Target.applies, Bool.and_eq_false_iff, decide_eq_false_iff_not]
      exact .inl fun e0 => orphan_method hg.method ho (e0 ▸ h1)

namespace MethodsExample
open ProgramsExample

/-- a handler that says hello -/
def hello : Closure (Unit × Response) := fun _ s => (s.2.send .asciiOnly 0 (utf8 c!"hi")).bind fun r => .ok ((s.1, r), .stop)
def calls : List (Call (Unit × Response)) := [.route .get c!"/" hello, .route .addRoute c!"/a" hello]
theorem calls_log : logOfL calls = [⟨.on .get [], hello⟩, ⟨.anyMethod [c!"a"], hello⟩] := by
  have h1 : Path.parse c!"/" = some [] := by decide +kernel
  have h2 : Path.parse c!"/a" = some [c!"a"] := by decide +kernel
  simp [calls, logOfL, logOf, h1, h2, Verb.target, Verb.method]
theorem asksOptions (r : Router (Unit × Response)) :
    Asks { empty with router := r } (sock c!"OPTIONS" [[]]) c!"OPTIONS" [] :=
  ⟨⟨_, 0, asked_in c!"OPTIONS" [[]] (by decide) (by decide), rfl, by decide, host _ _⟩, by decide, rfl,
    by decide +kernel, fun _ => rfl, clock⟩

theorem asksTrace (r : Router (Unit × Response)) :
    Asks { empty with router := r } (sock c!"TRACE" [[]]) c!"TRACE" [] :=
  ⟨⟨_, 0, asked_in c!"TRACE" [[]] (by decide) (by decide), rfl, by decide, host _ _⟩, by decide, rfl,
    by decide +kernel, fun _ => rfl, clock⟩

end MethodsExample

open ProgramsExample MethodsExample in
/-- C158 is false of the code: no program routes OPTIONS by itself. -/
theorem C158_counterexample : ¬ C158_statement := by
  intro h
  obtain ⟨calls, r, hf, hn, hblind, hr, h⟩ := h empty c!"OPTIONS" (by decide)
  obtain ⟨hs, bytes, v, h1, h2, -, h3, -⟩ := h _ _ (asksOptions r)
  obtain ⟨bytes', v', h1', h2', h3', -, -, h4⟩ := h _ _ (asksTrace r)
  have := C158_alike { empty with router := r } calls hf hn hr hblind _ _ _ _ _ (asksOptions r) (asksTrace r)
    (by decide) (by decide) ()
  rw [h1, h1'] at this
  injection this with this
  injection this with _ this
  subst this
  rw [h4 v h2, h3'] at h3
  revert h3
  decide

namespace MethodsExample
open ProgramsExample

/-- OPTIONS of `/`, for which only a handler for GET is registered: 404 -/
example (r : Router (Unit × Response)) (hr : execL Router.new calls = .ok r) :
    Page { empty with router := r } () (sock c!"OPTIONS" [[]]) () c!"404" c!"NOT FOUND" :=
  C158_not_found { empty with router := r } calls (by simp [calls, FairL, Fair]) (by rw [calls_log]; decide) hr _ _ _
    (asksOptions r) (by decide)
    (by
      intro e he
      rw [calls_log] at he
      simp only [List.mem_cons, List.not_mem_nil, or_false] at he
      rcases he with rfl | rfl
      · exact ⟨by simp, by simp⟩
      · refine ⟨by simp, fun p hp => ?_⟩
        cases hp
        show ¬ PatMatch empty.feat.urlVariables [c!"a"] []
        decide) ()

/-- the same server without the handler for GET -/
example (r r' : Router (Unit × Response)) (hr : execL Router.new calls = .ok r)
    (hr' : execL Router.new [.route .addRoute c!"/a" hello] = .ok r') :
    Server.serve { empty with router := r' } () (sock c!"OPTIONS" [[]]) =
      Server.serve { empty with router := r } () (sock c!"OPTIONS" [[]]) := by
  obtain ⟨q, n, h1, h2, -⟩ := (asksOptions r).asked
  have h3 : Path.parse c!"/a" = some [c!"a"] := by decide +kernel
  exact C158_left_out { empty with router := r } calls _ (by simp [calls, FairL, Fair]) (by simp [FairL, Fair])
    (by rw [calls_log]; decide) r' hr hr' (by rw [calls_log]; simp [logOfL, logOf, h3, anyMethods, Verb.target])
    _ q n h1 (by rw [h2]; decide) ()

/-- the handler of `/a` is called for OPTIONS, so for every method -/
example : ∀ m', (Target.anyMethod [c!"a"]).applies true m' [c!"a"] = true :=
  C158_never true calls c!"OPTIONS" .options (by decide) (by decide) ⟨_, hello⟩ (by rw [calls_log]; simp) [c!"a"]
    (by decide +kernel)

/-- the same answer to OPTIONS and TRACE -/
example (r : Router (Unit × Response)) (hr : execL Router.new calls = .ok r) :
    Server.serve { empty with router := r } () (sock c!"OPTIONS" [[]]) =
      Server.serve { empty with router := r } () (sock c!"TRACE" [[]]) :=
  C158_alike { empty with router := r } calls (by simp [calls, FairL, Fair]) (by rw [calls_log]; decide) hr
    (by
      intro e he
      rw [calls_log] at he
      simp only [List.mem_cons, List.not_mem_nil, or_false] at he
      rcases he with rfl | rfl <;> (intro _ _; rfl)) _ _ _ _ _ (asksOptions r) (asksTrace r) (by decide) (by decide) ()

/-- PATCH can be routed by itself -/
example := C158_alone_partial empty c!"PATCH" .patch (by decide) (by decide)

end MethodsExample

end Octane
