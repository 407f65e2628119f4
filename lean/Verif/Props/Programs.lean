import Verif.Proof.Programs
import Verif.Props.Strict
/-
C122: handlers without branches. C123: applications that send texts, the documented program. C124: the programs
of the tests, for all requests.
-/
namespace Octane
open Spec
variable {W : Type u}

/-! ### C122 -/

/-- one handler that does what all the scripts do -/
def Spec.Script.whole (U : Unicode) (clock : W → Int) (uv : Bool) (xs : List Script) : Closure (W × Response) :=
  fun mr st => (execOps U st.2 (Script.allOps uv mr.request (clock st.1) xs)).bind fun r => .ok ((st.1, r), .next)

/-- two routers that do the same with every request make the same server -/
theorem serve_congr_run (sv : Server W) (r' : Router (W × Response)) (w : W) (s : Sock)
    (h : ∀ req, req.requestLine.method ≠ .all → Router.run sv.feat.urlVariables r' req (w, Response.newEmpty) =
      Router.run sv.feat.urlVariables sv.router req (w, Response.newEmpty)) :
    { sv with router := r' }.serve w s = sv.serve w s := by
  rw [serve_readRest, serve_readRest]
  show (readRest sv.feat sv.allocOk s (.head [])).bind _ = _
  cases hread : readRest sv.feat sv.allocOk s (.head []) with
  | panic => rfl
  | pending => rfl
  | abort => rfl
  | ok o =>
    cases o with
    | none => rfl
    | some req =>
      simp only [Io.bind_ok]
      congr 1
      rw [handle_spec, handle_spec]
      obtain ⟨q, n, hq, hw, -⟩ := readRest_received hread
      rcases hw.method with hm | ⟨-, hm⟩
      · have hall : req.requestLine.method ≠ .all := by
          intro e
          rw [e] at hm
          simp [methodTable] at hm
        show (if _ then _ else if _ then _ else (Router.run sv.feat.urlVariables r' req (w, Response.newEmpty)).bind _) = _
        rw [h req hall]
        rfl
      · rw [if_pos hm, if_pos hm]
        rfl

/-- C122: however many handlers without branches are registered, for whatever methods and patterns, in whatever
mounted routers: with every connection the server does what it does with a single handler that applies, one
after the other, the operations of those that apply to the request, up to the first that stops. -/
theorem C122_one_handler (sv : Server W) (calls : List (Call (W × Response))) (hf : FairL calls)
    (hn : (logOfL calls).length < 2 ^ 64) (hr : execL Router.new calls = .ok sv.router) (xs : List Script)
    (hlog : logOfL calls = xs.map (Script.reg sv.U sv.clock)) :
    ∃ r', execL Router.new [.add (Script.whole sv.U sv.clock sv.feat.urlVariables xs)] = .ok r' ∧
      ∀ w s, { sv with router := r' }.serve w s = sv.serve w s := by
  obtain ⟨a, ha, hra⟩ := C12_run_is_replay calls hf hn
  rw [hr] at ha
  injection ha with ha
  subst ha
  obtain ⟨b, hb, hrb⟩ := C12_run_is_replay [Call.add (Script.whole sv.U sv.clock sv.feat.urlVariables xs)]
    (by simp [FairL, Fair]) (by simp [logOfL, logOf])
  refine ⟨b, hb, fun w s => serve_congr_run sv b w s fun req hall => ?_⟩
  rw [hra _ _ _ hall, hrb _ _ _ hall, hlog, replay_scripts]
  simp only [logOfL, logOf, List.append_nil, replay, Target.applies, if_true, Script.whole]
  cases execOps sv.U Response.newEmpty (Script.allOps sv.feat.urlVariables req (sv.clock w) xs) <;> rfl

theorem allOps_split (uv : Bool) (req : Request) (now : Int) (pre post : List Script) (t : Target)
    (a b : MatchedRequest → Int → List ResOp) (fl : Flow) :
    Script.allOps uv req now (pre ++ ⟨t, fun mr n => a mr n ++ b mr n, fl⟩ :: post) =
      Script.allOps uv req now (pre ++ ⟨t, a, .next⟩ :: ⟨t, b, fl⟩ :: post) := by
  unfold Script.allOps Script.ran
  induction pre with
  | nil =>
    simp only [List.nil_append, List.filter_cons]
    split
    · cases fl <;> simp [upToStop]
    · rfl
  | cons x pre ih =>
    simp only [List.cons_append, List.filter_cons]
    split
    · cases hx : x.flow with
      | stop => rw [upToStop_stop _ hx, upToStop_stop _ hx]
      | next => rw [upToStop_next _ hx, upToStop_next _ hx, List.flatMap_cons, List.flatMap_cons, ih]
    · exact ih

/-- So a handler may be split in two that are registered one after the other for the same target, the first of which
continues: no connection is treated differently. -/
theorem C122_split (sv : Server W) (calls calls' : List (Call (W × Response))) (hf : FairL calls) (hf' : FairL calls')
    (hn : (logOfL calls).length < 2 ^ 64) (hn' : (logOfL calls').length < 2 ^ 64) (r' : Router (W × Response))
    (hr : execL Router.new calls = .ok sv.router) (hr' : execL Router.new calls' = .ok r')
    (pre post : List Script) (t : Target) (a b : MatchedRequest → Int → List ResOp) (fl : Flow)
    (hlog : logOfL calls = (pre ++ ⟨t, fun mr n => a mr n ++ b mr n, fl⟩ :: post).map (Script.reg sv.U sv.clock))
    (hlog' : logOfL calls' = (pre ++ ⟨t, a, .next⟩ :: ⟨t, b, fl⟩ :: post).map (Script.reg sv.U sv.clock))
    (w : W) (s : Sock) : { sv with router := r' }.serve w s = sv.serve w s := by
  obtain ⟨x, hx, hrx⟩ := C12_run_is_replay calls hf hn
  rw [hr] at hx
  injection hx with hx
  subst hx
  obtain ⟨y, hy, hry⟩ := C12_run_is_replay calls' hf' hn'
  rw [hr'] at hy
  injection hy with hy
  subst hy
  refine serve_congr_run sv r' w s fun req hall => ?_
  rw [hrx _ _ _ hall, hry _ _ _ hall, hlog, hlog', replay_scripts, replay_scripts, allOps_split]

/-! ### C123 -/

theorem allOps_texts (uv : Bool) (req : Request) (now : Int) (xs : List Text) :
    Script.allOps uv req now (xs.map Text.script) =
      (upToStop Text.flow (xs.filter fun x => x.target.applies uv req.requestLine.method req.requestLine.path)).map
        fun x => ResOp.send now x.text := by
  unfold Script.allOps Script.ran
  induction xs with
  | nil => rfl
  | cons x xs ih =>
    simp only [List.map_cons, List.filter_cons]
    by_cases ha : x.target.applies uv req.requestLine.method req.requestLine.path = true
    · have ha' : x.script.target.applies uv req.requestLine.method req.requestLine.path = true := ha
      rw [if_pos ha, if_pos ha']
      cases hx : x.flow with
      | stop => rw [upToStop_stop _ hx, upToStop_stop _ (show x.script.flow = .stop from hx)]; rfl
      | next =>
        rw [upToStop_next _ hx, upToStop_next _ (show x.script.flow = .next from hx), List.flatMap_cons, ih]
        rfl
    · have ha' : ¬ x.script.target.applies uv req.requestLine.method req.requestLine.path = true := ha
      rw [if_neg ha, if_neg ha']
      exact ih

/-- C123: an application all of whose handlers send texts shows a client the text of the last handler that runs for
its request, with exactly the headers of `send`, and the 404 page if none applies; its state stays as it is. (The
other connections, with no or no understandable request, without Host or with an unknown method, get what
`C83_connection` says.) -/
theorem C123_texts (calls : List (Call (W × Response))) (hf : FairL calls) (hn : (logOfL calls).length < 2 ^ 64)
    (sv : Server W) (hsv : execL Router.new calls = .ok sv.router) (xs : List Text)
    (hlog : logOfL calls = xs.map fun x => x.script.reg sv.U sv.clock)
    (w : W) (s : Sock) (hfin : s.fin = .eof) (hlen : s.bytes.length ≤ i64Max) (halloc : ∀ k, sv.allocOk k = true)
    (hc : ∀ w, 0 ≤ sv.clock w ∧ sv.clock w ≤ i64Max)
    (q : Asked) (n : Nat) (hq : q.In sv.feat.faithful sv.feat.cookies s.bytes n)
    (hhost : q.version = c!"1.1" → ∃ h ∈ q.headers, lowered h.1 = c!"host")
    (m : RequestMethod) (hm : (q.method, m) ∈ methodTable) :
    match shown sv.feat.urlVariables m (resolve q.pieces) xs with
    | none => Page sv w s w c!"404" c!"NOT FOUND"
    | some t => Shows sv w s t := by
  have h1 := ((C83_connection calls hf hn sv hsv w s hfin hlen halloc (fun w => (hc w).1)).2.1 q n hq).2
    (by
      rintro ⟨hv, hno⟩
      obtain ⟨h, hh, he⟩ := hhost hv
      exact hno h hh he)
  obtain ⟨req, hg, -, -, hok⟩ := h1.2 (by
    have : ∀ p ∈ methodTable, p.1 ∈ methodTokens := by decide +kernel
    exact this _ hm)
  have hmeth : req.requestLine.method = m := by
    have : ∀ p ∈ methodTable, ∀ p' ∈ methodTable, p.1 = p'.1 → p.2 = p'.2 := by decide +kernel
    exact this _ hg.method _ hm rfl
  obtain ⟨r, e1, e2⟩ := sends_plain (U := sv.U) (hc w).1 (hc w).2
    ((upToStop Text.flow (xs.filter fun x => x.target.applies sv.feat.urlVariables req.requestLine.method
      req.requestLine.path)).map (·.text)) Response.newEmpty (.inl rfl)
  have hrep : replay sv.feat.urlVariables req (logOfL calls) (w, Response.newEmpty) = .ok (w, r) := by
    rw [hlog, show (xs.map fun x => x.script.reg sv.U sv.clock) = (xs.map Text.script).map (Script.reg sv.U sv.clock) by
      rw [List.map_map]; rfl, replay_scripts, allOps_texts]
    rw [List.map_map] at e1
    rw [show ((fun t => ResOp.send (sv.clock w) t) ∘ fun x : Text => x.text) = fun x => ResOp.send (sv.clock w) x.text
      from rfl] at e1
    rw [e1]; rfl
  obtain ⟨g1, g2⟩ := hok w r hrep
  rw [hmeth, hg.path] at e2
  unfold shown
  rw [List.getLast?_map] at e2
  cases hl : (upToStop Text.flow (xs.filter fun x => x.target.applies sv.feat.urlVariables m
      (resolve q.pieces))).getLast? with
  | none =>
    rw [hl] at e2
    have : r = Response.newEmpty := e2
    subst this
    exact g1 rfl
  | some x =>
    rw [hl] at e2
    have hp : Plain sv.U (sv.clock w) x.text r := e2
    exact hp.shows (g2 (by rw [hp.body]; simp))

/-- The program of the documentation: whatever a client sends, it is shown "Hello, World" exactly if it asks for a
target that names `/` by GET; a request for anything else gets the 404 page. -/
theorem C123_documented (sv : Server W) (hsv : execL Router.new (documented sv.U sv.clock) = .ok sv.router)
    (w : W) (s : Sock) (hfin : s.fin = .eof) (hlen : s.bytes.length ≤ i64Max) (halloc : ∀ k, sv.allocOk k = true)
    (hc : ∀ w, 0 ≤ sv.clock w ∧ sv.clock w ≤ i64Max)
    (q : Asked) (n : Nat) (hq : q.In sv.feat.faithful sv.feat.cookies s.bytes n)
    (hhost : q.version = c!"1.1" → ∃ h ∈ q.headers, lowered h.1 = c!"host") (hm : q.method ∈ methodTokens) :
    (q.method = c!"GET" ∧ resolve q.pieces = [] → Shows sv w s (utf8 c!"Hello, World")) ∧
    (¬ (q.method = c!"GET" ∧ resolve q.pieces = []) → Page sv w s w c!"404" c!"NOT FOUND") := by
  have hp : Path.parse c!"/" = some [] := by decide +kernel
  have h := C123_texts (documented sv.U sv.clock) (by simp [documented, FairL, Fair])
    (by simp [documented, logOfL, logOf, hp]) sv hsv [⟨.on .get [], utf8 c!"Hello, World", .stop⟩]
    (by
      simp only [documented, logOfL, logOf, hp, List.append_nil, List.map_cons, List.map_nil, Script.reg, Text.script,
        Verb.target, Verb.method, List.cons.injEq, and_true, Reg.mk.injEq, true_and]
      funext mr st
      simp only [routeStop, sendText, execOps, ResOp.exec]
      cases st.2.send sv.U (sv.clock st.1) (utf8 c!"Hello, World") <;> rfl)
    w s hfin hlen halloc hc q n hq hhost _ (method_known _ hm)
  have hpat : ∀ p : PathBuf, PatMatch sv.feat.urlVariables [] p ↔ p = [] := by
    intro p
    rw [← patMatchB_iff]
    cases p <;> simp [patMatchB]
  have hget : methodOf q.method = .get ↔ q.method = c!"GET" := by
    have : ∀ t ∈ methodTokens, methodOf t = .get ↔ t = c!"GET" := by decide +kernel
    exact this _ hm
  constructor
  · rintro ⟨h1, h2⟩
    rw [h2, hget.2 h1] at h
    exact h
  · intro hno
    have : Target.applies sv.feat.urlVariables (.on .get []) (methodOf q.method) (resolve q.pieces) = false := by
      simp only [Target.applies, Bool.and_eq_false_iff, decide_eq_false_iff_not]
      by_cases h1 : RequestMethod.get = methodOf q.method
      · right
        rw [hpat]
        exact fun h2 => hno ⟨hget.1 h1.symm, h2⟩
      · exact .inl h1
    simp only [shown, List.filter_cons, this] at h
    exact h

/-! ### C124 -/

theorem shown_same (uv : Bool) (m : RequestMethod) (path : PathBuf) (t : Bytes) (xs : List Text)
    (h : ∀ x ∈ xs, x.text = t) :
    shown uv m path xs = if xs.any (fun x => x.target.applies uv m path) then some t else none := by
  have hmem : ∀ (l : List Text) x, x ∈ upToStop Text.flow l → x ∈ l := by
    intro l
    induction l with
    | nil => simp [upToStop]
    | cons y l ih =>
      intro x hx
      rw [upToStop] at hx
      rcases List.mem_cons.1 hx with rfl | hx
      · simp
      · split at hx
        · simp at hx
        · exact List.mem_cons_of_mem _ (ih x hx)
  unfold shown
  split
  · rename_i hany
    obtain ⟨x, hx, ha⟩ := List.any_eq_true.1 hany
    cases hl : (upToStop Text.flow (xs.filter fun x => x.target.applies uv m path)).getLast? with
    | some y =>
      have := (List.mem_filter.1 (hmem _ y (List.mem_of_getLast? hl))).1
      simp [h y this]
    | none =>
      rw [List.getLast?_eq_none_iff] at hl
      have hx' : x ∈ xs.filter fun x => x.target.applies uv m path := List.mem_filter.2 ⟨hx, ha⟩
      revert hl hx'
      cases xs.filter fun x => x.target.applies uv m path with
      | nil => simp
      | cons y l => simp [upToStop]
  · rename_i hany
    have : (xs.filter fun x => x.target.applies uv m path) = [] := by
      rw [List.filter_eq_nil_iff]
      intro x hx ha
      exact hany (List.any_eq_true.2 ⟨x, hx, ha⟩)
    rw [this]; rfl

/-- the texts of `forMethods` -/
def textsFor (verbs : List Verb) (path : PathBuf) (text : Bytes) : List Text :=
  verbs.map fun v => ⟨v.target path, text, .next⟩

theorem any_textsFor (uv : Bool) (m : RequestMethod) (path : PathBuf) (verbs : List Verb) (p : PathBuf) (text : Bytes)
    (hv : .addRoute ∉ verbs) :
    (textsFor verbs p text).any (fun x => x.target.applies uv m path) = true ↔
      m ∈ verbs.map Verb.method ∧ patMatchB uv p path = true := by
  unfold textsFor
  induction verbs with
  | nil => simp
  | cons v vs ih =>
    simp only [List.mem_cons, not_or] at hv
    have hv1 : (v.target p).applies uv m path = (decide (v.method = m) && patMatchB uv p path) := by
      cases v <;> first | exact absurd rfl hv.1 | simp [Verb.target, Target.applies, decide_patMatch]
    simp only [List.map_cons, List.any_cons, Bool.or_eq_true, ih hv.2, hv1, Bool.and_eq_true, decide_eq_true_eq,
      List.mem_cons]
    constructor
    · rintro (⟨h1, h2⟩ | ⟨h1, h2⟩)
      · exact ⟨.inl h1.symm, h2⟩
      · exact ⟨.inr h1, h2⟩
    · rintro ⟨h1 | h1, h2⟩
      · exact .inl ⟨h1.symm, h2⟩
      · exact .inr ⟨h1, h2⟩

theorem log_forMethods (U : Unicode) (clock : W → Int) (verbs : List Verb) (path : Str) (p : PathBuf) (text : Bytes)
    (hp : Path.parse path = some p) :
    logOfL (forMethods U clock verbs path text) = (textsFor verbs p text).map fun x => x.script.reg U clock := by
  unfold forMethods textsFor
  induction verbs with
  | nil => rfl
  | cons v vs ih =>
    simp only [List.map_cons, logOfL, logOf, hp, ih, List.singleton_append]
    congr 1
    simp only [Script.reg, Text.script, Reg.mk.injEq, true_and]
    funext mr st
    simp only [routeNext, sendText, execOps, ResOp.exec]
    cases st.2.send U (clock st.1) text <;> rfl

theorem fair_forMethods (U : Unicode) (clock : W → Int) (verbs : List Verb) (path : Str) (text : Bytes) :
    FairL (forMethods U clock verbs path text) := by
  unfold forMethods
  induction verbs with
  | nil => trivial
  | cons v vs ih => exact ⟨trivial, ih⟩

/-- `tests/server.rs`, for every text and every request: the text is shown for `/` and each of the six methods,
HEAD among them, and for nothing else. -/
theorem C124_server (sv : Server W) (text : Bytes) (hsv : execL Router.new (serverTest sv.U sv.clock text) = .ok sv.router)
    (w : W) (s : Sock) (hfin : s.fin = .eof) (hlen : s.bytes.length ≤ i64Max) (halloc : ∀ k, sv.allocOk k = true)
    (hc : ∀ w, 0 ≤ sv.clock w ∧ sv.clock w ≤ i64Max)
    (q : Asked) (n : Nat) (hq : q.In sv.feat.faithful sv.feat.cookies s.bytes n)
    (hhost : q.version = c!"1.1" → ∃ h ∈ q.headers, lowered h.1 = c!"host") (hm : q.method ∈ methodTokens) :
    (q.method ∈ [c!"GET", c!"POST", c!"PUT", c!"PATCH", c!"DELETE", c!"HEAD"] ∧ resolve q.pieces = [] →
      Shows sv w s text) ∧
    (¬ (q.method ∈ [c!"GET", c!"POST", c!"PUT", c!"PATCH", c!"DELETE", c!"HEAD"] ∧ resolve q.pieces = []) →
      Page sv w s w c!"404" c!"NOT FOUND") := by
  have hl := log_forMethods sv.U sv.clock [.get, .post, .put, .patch, .head, .delete] c!"/" [] text (by decide +kernel)
  have h := C123_texts (serverTest sv.U sv.clock text) (fair_forMethods ..)
    (by unfold serverTest; rw [hl]; simp [textsFor]) sv hsv _ hl w s hfin hlen halloc hc q n hq hhost _ (method_known _ hm)
  rw [shown_same _ _ _ text _ (by simp [textsFor])] at h
  have key : (textsFor [.get, .post, .put, .patch, .head, .delete] [] text).any
      (fun x => x.target.applies sv.feat.urlVariables (methodOf q.method) (resolve q.pieces)) = true ↔
      q.method ∈ [c!"GET", c!"POST", c!"PUT", c!"PATCH", c!"DELETE", c!"HEAD"] ∧ resolve q.pieces = [] := by
    have hpat : patMatchB sv.feat.urlVariables [] (resolve q.pieces) = true ↔ resolve q.pieces = [] := by
      cases resolve q.pieces <;> simp [patMatchB]
    have hmeth : ∀ t ∈ methodTokens, (methodOf t ∈ [RequestMethod.get, .post, .put, .patch, .head, .delete] ↔
        t ∈ [c!"GET", c!"POST", c!"PUT", c!"PATCH", c!"DELETE", c!"HEAD"]) := by decide +kernel
    rw [← hmeth _ hm]
    rw [any_textsFor _ _ _ _ _ _ (by decide), hpat]
    rfl
  constructor
  · intro hyes
    rw [if_pos (key.2 hyes)] at h
    exact h
  · intro hno
    rw [if_neg (fun e => hno (key.1 e))] at h
    exact h

/-- `tests/router.rs`, for every text and every request: the text is shown for both paths, the one registered and
the one mounted, and each of the six methods, and for nothing else. -/
theorem C124_router (sv : Server W) (ord : Router.AppendOrder (W × Response)) (text : Bytes)
    (ho : (∀ m, (ord.outer m).Perm m) ∧ ∀ meth t m, (ord.inner meth t m).Perm m)
    (hsv : execL Router.new (routerTest sv.U sv.clock ord text) = .ok sv.router)
    (w : W) (s : Sock) (hfin : s.fin = .eof) (hlen : s.bytes.length ≤ i64Max) (halloc : ∀ k, sv.allocOk k = true)
    (hc : ∀ w, 0 ≤ sv.clock w ∧ sv.clock w ≤ i64Max)
    (q : Asked) (n : Nat) (hq : q.In sv.feat.faithful sv.feat.cookies s.bytes n)
    (hhost : q.version = c!"1.1" → ∃ h ∈ q.headers, lowered h.1 = c!"host") (hm : q.method ∈ methodTokens) :
    let asked := q.method ∈ [c!"GET", c!"POST", c!"PUT", c!"PATCH", c!"DELETE", c!"HEAD"] ∧
      (resolve q.pieces = [c!"route1"] ∨ resolve q.pieces = [c!"route2"])
    (asked → Shows sv w s text) ∧ (¬ asked → Page sv w s w c!"404" c!"NOT FOUND") := by
  intro asked
  let verbs : List Verb := [.get, .post, .put, .patch, .delete, .head]
  have hl : logOfL (routerTest sv.U sv.clock ord text) =
      (textsFor verbs [c!"route2"] text ++ textsFor verbs [c!"route1"] text).map fun x => x.script.reg sv.U sv.clock := by
    unfold routerTest
    rw [logOfL_append, log_forMethods _ _ _ _ [c!"route2"] _ (by decide +kernel), List.map_append]
    simp only [logOfL, logOf, List.append_nil]
    rw [log_forMethods _ _ _ _ [c!"route1"] _ (by decide +kernel)]
  have hfair : FairL (routerTest sv.U sv.clock ord text) :=
    ⟨trivial, trivial, trivial, trivial, trivial, trivial, ⟨fair_forMethods .., ho.1, ho.2⟩, trivial⟩
  have h := C123_texts (routerTest sv.U sv.clock ord text) hfair (by rw [hl]; simp [textsFor, verbs]) sv hsv _ hl w s
    hfin hlen halloc hc q n hq hhost _ (method_known _ hm)
  rw [shown_same _ _ _ text _ (by
    intro x hx
    simp only [textsFor, List.mem_append, List.mem_map] at hx
    rcases hx with ⟨_, _, rfl⟩ | ⟨_, _, rfl⟩ <;> rfl)] at h
  have key : (textsFor verbs [c!"route2"] text ++ textsFor verbs [c!"route1"] text).any
      (fun x => x.target.applies sv.feat.urlVariables (methodOf q.method) (resolve q.pieces)) = true ↔ asked := by
    have hpat : ∀ t : Str, t.head? ≠ some ':' →
        (patMatchB sv.feat.urlVariables [t] (resolve q.pieces) = true ↔ resolve q.pieces = [t]) := by
      intro t ht
      cases resolve q.pieces with
      | nil => simp [patMatchB]
      | cons a l =>
        cases l with
        | nil =>
          simp only [patMatchB, if_neg ht, Bool.and_true, decide_eq_true_eq, List.cons.injEq, and_true]
          exact eq_comm
        | cons b l => simp [patMatchB]
    have hmeth : ∀ t ∈ methodTokens, (methodOf t ∈ [RequestMethod.get, .post, .put, .patch, .delete, .head] ↔
        t ∈ [c!"GET", c!"POST", c!"PUT", c!"PATCH", c!"DELETE", c!"HEAD"]) := by decide +kernel
    rw [List.any_append, Bool.or_eq_true, any_textsFor _ _ _ _ _ _ (by decide), any_textsFor _ _ _ _ _ _ (by decide),
      hpat _ (by decide), hpat _ (by decide)]
    show _ ∧ _ ∨ _ ∧ _ ↔ q.method ∈ _ ∧ _
    rw [← hmeth _ hm]
    constructor
    · rintro (⟨h1, h2⟩ | ⟨h1, h2⟩)
      · exact ⟨h1, .inr h2⟩
      · exact ⟨h1, .inl h2⟩
    · rintro ⟨h1, h2 | h2⟩
      · exact .inr ⟨h1, h2⟩
      · exact .inl ⟨h1, h2⟩
  constructor
  · intro hyes
    rw [if_pos (key.2 hyes)] at h
    exact h
  · intro hno
    rw [if_neg (fun e => hno (key.1 e))] at h
    exact h

/-- `tests/url_variables.rs`, for every value: a GET of `/foo/x` is answered if `x` is the value and otherwise not at
all (the assertion of the handler panics, and what it had sent is lost); everything else gets the 404 page. -/
theorem C124_variable (sv : Server W) (value : Str)
    (hsv : execL Router.new (variableTest sv.U sv.clock value) = .ok sv.router) (huv : sv.feat.urlVariables = true)
    (w : W) (s : Sock) (hfin : s.fin = .eof) (hlen : s.bytes.length ≤ i64Max) (halloc : ∀ k, sv.allocOk k = true)
    (hc : ∀ w, 0 ≤ sv.clock w ∧ sv.clock w ≤ i64Max)
    (q : Asked) (n : Nat) (hq : q.In sv.feat.faithful sv.feat.cookies s.bytes n)
    (hhost : q.version = c!"1.1" → ∃ h ∈ q.headers, lowered h.1 = c!"host") (hm : q.method ∈ methodTokens) :
    (q.method = c!"GET" ∧ resolve q.pieces = [c!"foo", value] → Shows sv w s (utf8 c!"test")) ∧
    (∀ x, q.method = c!"GET" → resolve q.pieces = [c!"foo", x] → x ≠ value → sv.serve w s = .panic) ∧
    (¬ (q.method = c!"GET" ∧ ∃ x, resolve q.pieces = [c!"foo", x]) → Page sv w s w c!"404" c!"NOT FOUND") := by
  have hp : Path.parse c!"/foo/:var" = some [c!"foo", c!":var"] := by decide +kernel
  have h1 := ((C83_connection (variableTest sv.U sv.clock value) (by simp [variableTest, FairL, Fair])
      (by simp [variableTest, logOfL, logOf, hp]) sv hsv w s hfin hlen halloc (fun w => (hc w).1)).2.1 q n hq).2
    (by
      rintro ⟨hv, hno⟩
      obtain ⟨h, hh, he⟩ := hhost hv
      exact hno h hh he)
  obtain ⟨req, hg, -, hpanic, hok⟩ := h1.2 hm
  have hget : req.requestLine.method = .get ↔ q.method = c!"GET" := by
    have : ∀ p ∈ methodTable, p.2 = .get ↔ p.1 = c!"GET" := by decide +kernel
    exact this _ hg.method
  have hmatch : ∀ path : PathBuf, patMatchB true [c!"foo", c!":var"] path = true ↔ ∃ x, path = [c!"foo", x] := by
    intro path
    match path with
    | [] => simp [patMatchB]
    | [_] => simp [patMatchB]
    | [a, b] => simp [patMatchB, eq_comm]
    | _ :: _ :: _ :: _ => simp [patMatchB]
  rw [huv] at hpanic hok
  simp only [variableTest, logOfL, logOf, hp, List.append_nil, replay, Verb.target, Target.applies, Verb.method,
    decide_patMatch, Target.vars, if_true, hg.path] at hpanic hok
  obtain ⟨r, hr⟩ := send_ok (U := sv.U) (hc w).1 Response.newEmpty (utf8 c!"test")
  have hplain := send_plain (hc w).2 hr (.inl rfl)
  have hvars : ∀ x, resolve q.pieces = [c!"foo", x] →
      HMap.get (bindings [c!"foo", c!":var"] (resolve q.pieces)) c!"var" = some x := by
    intro x hx
    rw [hx]
    rfl
  refine ⟨?_, ?_, ?_⟩
  · rintro ⟨hq1, hq2⟩
    have happ : (decide (RequestMethod.get = req.requestLine.method) &&
        patMatchB true [c!"foo", c!":var"] (resolve q.pieces)) = true := by
      rw [hget.2 hq1, (hmatch _).2 ⟨_, hq2⟩]; rfl
    simp only [happ, if_true, routeNext, sendText, hr, Res.bind_ok', hvars _ hq2] at hok
    exact hplain.shows ((hok w r rfl).2 (by rw [hplain.body]; simp))
  · intro x hq1 hq2 hx
    have happ : (decide (RequestMethod.get = req.requestLine.method) &&
        patMatchB true [c!"foo", c!":var"] (resolve q.pieces)) = true := by
      rw [hget.2 hq1, (hmatch _).2 ⟨_, hq2⟩]; rfl
    apply hpanic
    simp only [happ, if_true, routeNext, sendText, hr, Res.bind_ok', hvars _ hq2]
    rw [if_neg (by simpa using hx)]
    rfl
  · intro hno
    have happ : ¬ (decide (RequestMethod.get = req.requestLine.method) &&
        patMatchB true [c!"foo", c!":var"] (resolve q.pieces)) = true := by
      rw [Bool.and_eq_true, decide_eq_true_eq, hmatch]
      exact fun e => hno ⟨hget.1 e.1.symm, e.2⟩
    rw [if_neg happ] at hok
    exact (hok w _ rfl).1 rfl

/-- `tests/headers.rs`, for every value: a GET of `/` whose `User-Agent` is the value gets the 404 page, because the
handler sends nothing; with another or none there is no answer at all; everything else gets the 404 page. -/
theorem C124_header (sv : Server W) (value : Str) (hsv : execL Router.new (headerTest value) = .ok sv.router)
    (w : W) (s : Sock) (hfin : s.fin = .eof) (hlen : s.bytes.length ≤ i64Max) (halloc : ∀ k, sv.allocOk k = true)
    (hc : ∀ w, 0 ≤ sv.clock w)
    (q : Asked) (n : Nat) (hq : q.In sv.feat.faithful sv.feat.cookies s.bytes n)
    (hhost : q.version = c!"1.1" → ∃ h ∈ q.headers, lowered h.1 = c!"host") (hm : q.method ∈ methodTokens) :
    (q.method = c!"GET" ∧ resolve q.pieces = [] ∧ joined q.headers c!"user-agent" ≠ some value →
      sv.serve w s = .panic) ∧
    (¬ (q.method = c!"GET" ∧ resolve q.pieces = [] ∧ joined q.headers c!"user-agent" ≠ some value) →
      Page sv w s w c!"404" c!"NOT FOUND") := by
  have hp : Path.parse c!"/" = some [] := by decide +kernel
  have h1 := ((C83_connection (headerTest value) (by simp [headerTest, FairL, Fair])
      (by simp [headerTest, logOfL, logOf, hp]) sv hsv w s hfin hlen halloc hc).2.1 q n hq).2
    (by
      rintro ⟨hv, hno⟩
      obtain ⟨h, hh, he⟩ := hhost hv
      exact hno h hh he)
  obtain ⟨req, hg, -, hpanic, hok⟩ := h1.2 hm
  have hget : req.requestLine.method = .get ↔ q.method = c!"GET" := by
    have : ∀ p ∈ methodTable, p.2 = .get ↔ p.1 = c!"GET" := by decide +kernel
    exact this _ hg.method
  have hmatch : patMatchB sv.feat.urlVariables [] (resolve q.pieces) = true ↔ resolve q.pieces = [] := by
    cases resolve q.pieces <;> simp [patMatchB]
  simp only [headerTest, logOfL, logOf, hp, List.append_nil, replay, Verb.target, Target.applies, Verb.method,
    decide_patMatch, hg.path, routeNext, hg.get] at hpanic hok
  constructor
  · rintro ⟨h1, h2, h3⟩
    apply hpanic
    rw [if_pos (by rw [hget.2 h1, hmatch.2 h2]; rfl), if_neg h3]
    rfl
  · intro hno
    refine (hok w Response.newEmpty ?_).1 rfl
    split
    · rename_i happ
      rw [Bool.and_eq_true, decide_eq_true_eq, hmatch] at happ
      have h3 : joined q.headers c!"user-agent" = some value := by
        refine Classical.byContradiction fun h3 => hno ⟨hget.1 happ.1.symm, happ.2, h3⟩
      rw [if_pos h3]
      rfl
    · rfl

/-! ### concrete cases -/

namespace ProgramsExample

/-- a request of a client called `x` -/
def q (m : Str) (pieces : List Str) : WireReq :=
  ⟨m, [] :: pieces, c!"1.1", [(c!"Host", c!"b"), (c!"User-Agent", c!"x")], []⟩
theorem q_good (m : Str) (pieces : List Str) (h1 : ' ' ∉ m ∧ '\r' ∉ m)
    (h2 : ∀ p ∈ pieces, (' ' ∉ p ∧ '/' ∉ p ∧ '\r' ∉ p) ∧ isUp p = false) : (q m pieces).Good :=
  StrictExample.good (q m pieces) rfl h1
    ⟨by simp [q], by
      intro p hp
      rcases List.mem_cons.1 hp with rfl | hp
      · decide
      · exact (h2 p hp).1⟩
    (by
      intro p hp
      rcases List.mem_cons.1 hp with rfl | hp
      · decide
      · exact (h2 p hp).2)
    (by show _ ∉ c!"1.1" ∧ _ ∉ c!"1.1"; decide) (by simp [q])
    (by show ∀ h ∈ [(c!"Host", c!"b"), (c!"User-Agent", c!"x")], _; decide +kernel)
    (by show (valuesOf [(c!"Host", c!"b"), (c!"User-Agent", c!"x")] c!"content-length").length ≠ 1; decide +kernel)
    (by show valuesOf [(c!"Host", c!"b"), (c!"User-Agent", c!"x")] c!"cookie" = []; decide +kernel)

/-- it comes in two pieces -/
def sock (m : Str) (pieces : List Str) : Sock := ⟨[(q m pieces).bytes.take 7, (q m pieces).bytes.drop 7], .eof⟩

/-- the request in it -/
def asked (m : Str) (pieces : List Str) : Asked :=
  ⟨m, [] :: pieces, c!"1.1", [(c!"Host", c!"b"), (c!"User-Agent", c!"x")], []⟩
theorem asked_in (m : Str) (pieces : List Str) (h1 : ' ' ∉ m ∧ '\r' ∉ m)
    (h2 : ∀ p ∈ pieces, (' ' ∉ p ∧ '/' ∉ p ∧ '\r' ∉ p) ∧ isUp p = false) :
    (asked m pieces).In true true (sock m pieces).bytes 0 := by
  have := C83_written true true (q m pieces) (q_good m pieces h1 h2) []
  have e : (sock m pieces).bytes = (q m pieces).bytes ++ [] := by
    simp [sock, Sock.bytes, List.take_append_drop]
  rw [e]
  exact this
theorem host (m : Str) (pieces : List Str) :
    (asked m pieces).version = c!"1.1" → ∃ h ∈ (asked m pieces).headers, lowered h.1 = c!"host" :=
  fun _ => ⟨(c!"Host", c!"b"), by simp [asked], by decide +kernel⟩

theorem made (calls : List (Call (Unit × Response))) (hf : FairL calls) (hn : (logOfL calls).length < 2 ^ 64) :
    ∃ r, execL Router.new calls = .ok r := by
  obtain ⟨r, h, -⟩ := C12_run_is_replay calls hf hn
  exact ⟨r, h⟩
theorem clock : ∀ w, 0 ≤ empty.clock w ∧ empty.clock w ≤ i64Max := fun _ =>
  ⟨Int.le_refl 0, show (0 : Int) ≤ i64Max by decide⟩

/-- a middleware that sets a header and a route that sends its variable and stops -/
def scripts : List Script :=
  [⟨.everywhere, fun _ _ => [.set c!"X" c!"1"], .next⟩,
   ⟨.on .get [c!":a"], fun mr now => [.status (.named 25), .send now (utf8 ((HMap.get mr.vars c!"a").getD []))], .stop⟩,
   ⟨.everywhere, fun _ now => [.send now []], .next⟩]
/-- the program that registers them -/
def scriptCalls (xs : List Script) : List (Call (Unit × Response)) :=
  xs.filterMap fun x => match x.target with
    | .everywhere => some (.add (x.reg Unicode.asciiOnly (fun _ : Unit => 0)).handler)
    | .on .get p => some (.route .get (Path.display p) (x.reg Unicode.asciiOnly (fun _ : Unit => 0)).handler)
    | _ => none

end ProgramsExample

open ProgramsExample in
/-- C122 for them: the request in `sock` goes through the first two. -/
example : ∃ r r', execL Router.new (scriptCalls scripts) = .ok r ∧
    execL Router.new [.add (Script.whole empty.U empty.clock true scripts)] = .ok r' ∧
    ({ empty with router := r' } : Server Unit).serve () (sock c!"GET" [c!"hi"]) =
      ({ empty with router := r } : Server Unit).serve () (sock c!"GET" [c!"hi"]) ∧
    (Script.allOps true ⟨⟨.get, [c!"hi"], .http11⟩, ⟨[], []⟩, [], []⟩ 0 scripts).length = 3 := by
  have hl : logOfL (scriptCalls scripts) = scripts.map (Script.reg empty.U empty.clock) := by
    have : Path.parse (Path.display [c!":a"]) = some [c!":a"] := by decide +kernel
    simp [scriptCalls, scripts, logOfL, logOf, this, Verb.target, Verb.method, Script.reg, empty]
  have hf : FairL (scriptCalls scripts) := by simp [scriptCalls, scripts, FairL, Fair]
  obtain ⟨r, hr⟩ := made (scriptCalls scripts) hf (by rw [hl]; decide)
  obtain ⟨r', hr', h⟩ := C122_one_handler { empty with router := r } (scriptCalls scripts) hf (by rw [hl]; decide) hr
    scripts hl
  exact ⟨r, r', hr, hr', h () _, by decide +kernel⟩

open ProgramsExample in
/-- C122_split: status and text in one handler or in two. -/
example : ∃ r r',
    execL Router.new (scriptCalls [⟨.everywhere, fun _ now => [.status (.named 25)] ++ [.send now [120]], .stop⟩]) = .ok r ∧
    execL Router.new (scriptCalls [⟨.everywhere, fun _ _ => [.status (.named 25)], .next⟩,
      ⟨.everywhere, fun _ now => [.send now [120]], .stop⟩]) = .ok r' ∧
    ∀ s, ({ empty with router := r' } : Server Unit).serve () s = ({ empty with router := r } : Server Unit).serve () s := by
  obtain ⟨r, hr⟩ := made (scriptCalls [⟨.everywhere, fun _ now => [.status (.named 25)] ++ [.send now [120]], .stop⟩])
    (by simp [scriptCalls, FairL, Fair]) (by simp [scriptCalls, logOfL, logOf])
  obtain ⟨r', hr'⟩ := made (scriptCalls [⟨.everywhere, fun _ _ => [.status (.named 25)], .next⟩,
      ⟨.everywhere, fun _ now => [.send now [120]], .stop⟩])
    (by simp [scriptCalls, FairL, Fair]) (by simp [scriptCalls, logOfL, logOf])
  exact ⟨r, r', hr, hr', fun s => C122_split { empty with router := r } _ _ (by simp [scriptCalls, FairL, Fair])
    (by simp [scriptCalls, FairL, Fair]) (by simp [scriptCalls, logOfL, logOf]) (by simp [scriptCalls, logOfL, logOf])
    r' hr hr' [] [] .everywhere (fun _ _ => [.status (.named 25)]) (fun _ now => [.send now [120]]) .stop rfl rfl () s⟩

open ProgramsExample in
/-- C123: of two texts that both go on, the second is shown; with a first that stops, the first. -/
example : shown true .get [c!"a"] [⟨.everywhere, [1], .next⟩, ⟨.on .get [c!":x"], [2], .next⟩,
      ⟨.on .post [c!"a"], [3], .next⟩] = some [2] ∧
    shown true .get [c!"a"] [⟨.everywhere, [1], .stop⟩, ⟨.on .get [c!":x"], [2], .next⟩] = some [1] ∧
    shown true .get [c!"a"] [⟨.on .post [c!"a"], [3], .next⟩] = none := by decide +kernel

open ProgramsExample in
/-- C123_texts and C123_documented: `GET /` and `GET /./` are shown the text, `GET /x` and `HEAD /` the 404 page. -/
example : ∃ r, execL Router.new (documented empty.U empty.clock) = .ok r ∧
    Shows { empty with router := r } () (sock c!"GET" [[]]) (utf8 c!"Hello, World") ∧
    Shows { empty with router := r } () (sock c!"GET" [c!".", []]) (utf8 c!"Hello, World") ∧
    Page { empty with router := r } () (sock c!"GET" [c!"x"]) () c!"404" c!"NOT FOUND" ∧
    Page { empty with router := r } () (sock c!"HEAD" [[]]) () c!"404" c!"NOT FOUND" := by
  have hp : Path.parse c!"/" = some [] := by decide +kernel
  obtain ⟨r, hr⟩ := made (documented empty.U empty.clock) (by simp [documented, FairL, Fair])
    (by simp [documented, logOfL, logOf, hp])
  refine ⟨r, hr, ?_, ?_, ?_, ?_⟩
  · exact (C123_documented { empty with router := r } hr () _ rfl (by decide +kernel) (fun _ => rfl) clock _ 0
      (asked_in c!"GET" [[]] (by decide) (by decide)) (host _ _) (by decide)).1 ⟨rfl, by decide⟩
  · exact (C123_documented { empty with router := r } hr () _ rfl (by decide +kernel) (fun _ => rfl) clock _ 0
      (asked_in c!"GET" [c!".", []] (by decide) (by decide)) (host _ _) (by decide)).1 ⟨rfl, by decide⟩
  · exact (C123_documented { empty with router := r } hr () _ rfl (by decide +kernel) (fun _ => rfl) clock _ 0
      (asked_in c!"GET" [c!"x"] (by decide) (by decide)) (host _ _) (by decide)).2 (by rintro ⟨-, h⟩; revert h; decide)
  · exact (C123_documented { empty with router := r } hr () _ rfl (by decide +kernel) (fun _ => rfl) clock _ 0
      (asked_in c!"HEAD" [[]] (by decide) (by decide)) (host _ _) (by decide)).2 (by rintro ⟨h, -⟩; revert h; decide)

open ProgramsExample in
/-- C124_server: DELETE is among the methods, OPTIONS is not. -/
example : ∃ r, execL Router.new (serverTest empty.U empty.clock [1, 2]) = .ok r ∧
    Shows { empty with router := r } () (sock c!"DELETE" [[]]) [1, 2] ∧
    Page { empty with router := r } () (sock c!"OPTIONS" [[]]) () c!"404" c!"NOT FOUND" := by
  obtain ⟨r, hr⟩ := made (serverTest empty.U empty.clock [1, 2]) (fair_forMethods ..) (by
    unfold serverTest
    rw [log_forMethods _ _ _ _ [] _ (by decide +kernel)]
    simp [textsFor])
  exact ⟨r, hr,
    (C124_server { empty with router := r } _ hr () _ rfl (by decide +kernel) (fun _ => rfl) clock _ 0
      (asked_in c!"DELETE" [[]] (by decide) (by decide)) (host _ _) (by decide)).1 ⟨by decide, by decide⟩,
    (C124_server { empty with router := r } _ hr () _ rfl (by decide +kernel) (fun _ => rfl) clock _ 0
      (asked_in c!"OPTIONS" [[]] (by decide) (by decide)) (host _ _) (by decide)).2 (by rintro ⟨h, -⟩; revert h; decide)⟩

open ProgramsExample in
/-- C124_router: the mounted path. -/
example : ∃ r, execL Router.new (routerTest empty.U empty.clock ⟨id, fun _ _ m => m⟩ [1, 2]) = .ok r ∧
    Shows { empty with router := r } () (sock c!"PATCH" [c!"route1"]) [1, 2] ∧
    Page { empty with router := r } () (sock c!"PATCH" [c!"route3"]) () c!"404" c!"NOT FOUND" := by
  have hf : FairL (routerTest empty.U empty.clock ⟨id, fun _ _ m => m⟩ [1, 2]) :=
    ⟨trivial, trivial, trivial, trivial, trivial, trivial, ⟨fair_forMethods .., fun _ => .refl _, fun _ _ _ => .refl _⟩,
      trivial⟩
  obtain ⟨r, hr⟩ := made (routerTest empty.U empty.clock ⟨id, fun _ _ m => m⟩ [1, 2]) hf (by
    unfold routerTest
    rw [logOfL_append, log_forMethods _ _ _ _ [c!"route2"] _ (by decide +kernel)]
    simp only [logOfL, logOf, List.append_nil]
    rw [log_forMethods _ _ _ _ [c!"route1"] _ (by decide +kernel)]
    simp [textsFor])
  exact ⟨r, hr,
    (C124_router { empty with router := r } _ _ ⟨fun _ => .refl _, fun _ _ _ => .refl _⟩ hr () _ rfl (by decide +kernel)
      (fun _ => rfl) clock _ 0 (asked_in c!"PATCH" [c!"route1"] (by decide) (by decide)) (host _ _) (by decide)).1
      ⟨by decide, by decide⟩,
    (C124_router { empty with router := r } _ _ ⟨fun _ => .refl _, fun _ _ _ => .refl _⟩ hr () _ rfl (by decide +kernel)
      (fun _ => rfl) clock _ 0 (asked_in c!"PATCH" [c!"route3"] (by decide) (by decide)) (host _ _) (by decide)).2
      (by rintro ⟨-, h⟩; revert h; decide)⟩

open ProgramsExample in
/-- C124_variable: `/foo/bar` and `/foo/baz`. -/
example : ∃ r, execL Router.new (variableTest empty.U empty.clock c!"bar") = .ok r ∧
    Shows { empty with router := r } () (sock c!"GET" [c!"foo", c!"bar"]) (utf8 c!"test") ∧
    ({ empty with router := r } : Server Unit).serve () (sock c!"GET" [c!"foo", c!"baz"]) = .panic ∧
    Page { empty with router := r } () (sock c!"GET" [c!"foo"]) () c!"404" c!"NOT FOUND" := by
  have hp : Path.parse c!"/foo/:var" = some [c!"foo", c!":var"] := by decide +kernel
  obtain ⟨r, hr⟩ := made (variableTest empty.U empty.clock c!"bar") (by simp [variableTest, FairL, Fair])
    (by simp [variableTest, logOfL, logOf, hp])
  exact ⟨r, hr,
    (C124_variable { empty with router := r } _ hr rfl () _ rfl (by decide +kernel) (fun _ => rfl) clock _ 0
      (asked_in c!"GET" [c!"foo", c!"bar"] (by decide) (by decide)) (host _ _) (by decide)).1 ⟨rfl, by decide⟩,
    (C124_variable { empty with router := r } _ hr rfl () _ rfl (by decide +kernel) (fun _ => rfl) clock _ 0
      (asked_in c!"GET" [c!"foo", c!"baz"] (by decide) (by decide)) (host _ _) (by decide)).2.1 c!"baz" rfl (by decide)
      (by decide),
    (C124_variable { empty with router := r } _ hr rfl () _ rfl (by decide +kernel) (fun _ => rfl) clock _ 0
      (asked_in c!"GET" [c!"foo"] (by decide) (by decide)) (host _ _) (by decide)).2.2
      (by
        rintro ⟨-, x, h⟩
        have : (resolve (asked c!"GET" [c!"foo"]).pieces).length = 1 := by decide
        rw [h] at this
        simp at this)⟩

open ProgramsExample in
/-- C124_header: the client is called `x`. -/
example : (∃ r, execL Router.new (headerTest c!"x") = .ok r ∧
      Page { empty with router := r } () (sock c!"GET" [[]]) () c!"404" c!"NOT FOUND") ∧
    ∃ r, execL Router.new (headerTest c!"y") = .ok r ∧
      ({ empty with router := r } : Server Unit).serve () (sock c!"GET" [[]]) = .panic := by
  have hp : Path.parse c!"/" = some [] := by decide +kernel
  obtain ⟨r, hr⟩ := made (headerTest c!"x") (by simp [headerTest, FairL, Fair]) (by simp [headerTest, logOfL, logOf, hp])
  obtain ⟨r', hr'⟩ := made (headerTest c!"y") (by simp [headerTest, FairL, Fair]) (by simp [headerTest, logOfL, logOf, hp])
  have hj : joined (asked c!"GET" [[]]).headers c!"user-agent" = some c!"x" := by decide +kernel
  exact ⟨⟨r, hr, (C124_header { empty with router := r } _ hr () _ rfl (by decide +kernel) (fun _ => rfl)
      (fun w => (clock w).1) _ 0 (asked_in c!"GET" [[]] (by decide) (by decide)) (host _ _) (by decide)).2
        (by rintro ⟨-, -, h⟩; exact h hj)⟩,
    r', hr', (C124_header { empty with router := r' } _ hr' () _ rfl (by decide +kernel) (fun _ => rfl)
      (fun w => (clock w).1) _ 0 (asked_in c!"GET" [[]] (by decide) (by decide)) (host _ _) (by decide)).1
        ⟨rfl, by decide, by rw [hj]; decide⟩⟩

end Octane
