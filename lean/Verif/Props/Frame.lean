import Verif.Proof.ProcessRead
import Verif.Props.Router
/-
C108: registrations that do not apply to a request do not matter to it.
-/
namespace Octane
open Spec
universe u
variable {W : Type u}

/-- those of the registrations that apply to a method and a path -/
def Spec.applying {S : Type u} (uv : Bool) (m : RequestMethod) (path : PathBuf) (log : List (Reg S)) : List (Reg S) :=
  log.filter fun e => e.target.applies uv m path

/-- `a` and `b` never apply to the same request -/
def Spec.Target.Apart (uv : Bool) (a b : Target) : Prop :=
  ∀ m path, ¬ (a.applies uv m path = true ∧ b.applies uv m path = true)

theorem replay_applying {S : Type u} (uv : Bool) (req : Request) (log : List (Reg S)) (s : S) :
    replay uv req log s = replay uv req (applying uv req.requestLine.method req.requestLine.path log) s := by
  induction log generalizing s with
  | nil => rfl
  | cons e log ih =>
    unfold applying
    rw [List.filter_cons]
    by_cases h : e.target.applies uv req.requestLine.method req.requestLine.path = true
    · rw [if_pos h]
      simp only [replay, if_pos h]
      split
      · rfl
      · rfl
      · exact ih _
    · rw [if_neg h]
      simp only [replay, if_neg h]
      exact ih s

theorem serve_readRest (sv : Server W) (w : W) (s : Sock) :
    sv.serve w s = (readRest sv.feat sv.allocOk s (.head [])).bind fun
      | some request => Io.ofRes (sv.handle w request)
      | none => Io.ofRes (sv.declareError w .badRequest) := by
  unfold Server.serve
  show _ = ((readHead s).bind (headRest sv.feat sv.allocOk)).bind _
  cases readHead s with
  | ok o =>
    cases o with
    | badRequest => rfl
    | head a b c d =>
      simp only [Io.bind_ok, headRest]
      cases (Headers.parse sv.feat.faithful a).bind Res.unwrap with
      | panic => rfl
      | ok hs =>
        cases (RequestLine.parse sv.feat.faithful b).bind Res.unwrap with
        | panic => rfl
        | ok l => rfl
  | panic => rfl
  | pending => rfl
  | abort => rfl

/-- C108: two servers that differ in what is registered do the same with a connection if the registrations
that apply to the request in its bytes are the same in the same order. -/
theorem C108_same (sv : Server W) (calls calls' : List (Call (W × Response))) (hf : FairL calls) (hf' : FairL calls')
    (hn : (logOfL calls).length < 2 ^ 64) (hn' : (logOfL calls').length < 2 ^ 64) (r' : Router (W × Response))
    (hr : execL Router.new calls = .ok sv.router) (hr' : execL Router.new calls' = .ok r') (w : W) (s : Sock)
    (h : ∀ q n m, Asked.In sv.feat.faithful sv.feat.cookies s.bytes q n → (q.method, m) ∈ methodTable →
      applying sv.feat.urlVariables m (resolve q.pieces) (logOfL calls) =
        applying sv.feat.urlVariables m (resolve q.pieces) (logOfL calls')) :
    { sv with router := r' }.serve w s = sv.serve w s := by
  rw [serve_readRest, serve_readRest]
  show (readRest sv.feat sv.allocOk s (.head [])).bind _ = _
  cases hread : readRest sv.feat sv.allocOk s (.head []) with
  | panic => rfl
  | pending => rfl
  | abort => rfl
  | ok o =>
    cases o with
    | none => rfl
    | some req =>
      simp only [Io.bind_ok]
      congr 1
      rw [handle_spec, handle_spec]
      obtain ⟨q, n, hq, hw, -⟩ := readRest_received hread
      rcases hw.method with hm | ⟨-, hm⟩
      · have hall : req.requestLine.method ≠ .all := by
          intro e
          rw [e] at hm
          simp [methodTable] at hm
        obtain ⟨a, ha, hra⟩ := C12_run_is_replay calls hf hn
        obtain ⟨b, hb, hrb⟩ := C12_run_is_replay calls' hf' hn'
        rw [hr] at ha
        rw [hr'] at hb
        injection ha with ha
        injection hb with hb
        subst ha
        subst hb
        have := h q n _ hq hm
        rw [← hw.path] at this
        have hrun : Router.run sv.feat.urlVariables r' req (w, Response.newEmpty) =
            Router.run sv.feat.urlVariables sv.router req (w, Response.newEmpty) := by
          rw [hra _ _ _ hall, hrb _ _ _ hall, replay_applying, ← this, ← replay_applying]
        show (if _ then _ else if _ then _ else (Router.run sv.feat.urlVariables r' req (w, Response.newEmpty)).bind _) = _
        rw [hrun]
        rfl
      · rw [if_pos hm, if_pos hm]
        rfl

/-- Anything may be registered anywhere in between that does not apply to the request, also by mounting routers:
the answer stays. -/
theorem C108_added (sv : Server W) (pre more post : List (Call (W × Response))) (hf : FairL (pre ++ more ++ post))
    (hn : (logOfL (pre ++ more ++ post)).length < 2 ^ 64) (hr : execL Router.new (pre ++ post) = .ok sv.router)
    (w : W) (s : Sock)
    (h : ∀ q n m, Asked.In sv.feat.faithful sv.feat.cookies s.bytes q n → (q.method, m) ∈ methodTable →
      ∀ e ∈ logOfL more, e.target.applies sv.feat.urlVariables m (resolve q.pieces) = false) :
    ∃ r', execL Router.new (pre ++ more ++ post) = .ok r' ∧ { sv with router := r' }.serve w s = sv.serve w s := by
  obtain ⟨r', hr', -⟩ := C12_run_is_replay _ hf hn
  refine ⟨r', hr', ?_⟩
  have hlog : ∀ a b : List (Call (W × Response)), logOfL (a ++ b) = logOfL a ++ logOfL b := by
    intro a b
    induction a with
    | nil => rfl
    | cons x a ih => simp [logOfL, ih]
  have hfair : ∀ a b : List (Call (W × Response)), FairL (a ++ b) ↔ FairL a ∧ FairL b := by
    intro a b
    induction a with
    | nil => simp [FairL]
    | cons x a ih => simp [FairL, ih, and_assoc]
  rw [hfair, hfair] at hf
  rw [hlog, hlog, List.length_append, List.length_append] at hn
  refine C108_same sv _ _ ((hfair _ _).2 ⟨hf.1.1, hf.2⟩) ((hfair _ _).2 ⟨(hfair _ _).2 hf.1, hf.2⟩)
    (by rw [hlog, List.length_append]; omega) (by rw [hlog, hlog, List.length_append, List.length_append]; exact hn)
    r' hr hr' w s ?_
  intro q n m hq hm
  have := h q n m hq hm
  have hno : applying sv.feat.urlVariables m (resolve q.pieces) (logOfL more) = [] := by
    unfold applying
    rw [List.filter_eq_nil_iff]
    intro e he
    rw [this e he]
    simp
  simp only [hlog]
  unfold applying at hno ⊢
  simp only [List.filter_append, hno, List.append_nil]

/-- Two registrations that never apply to the same request may change places: every connection is answered as
before. -/
theorem C108_swapped (sv : Server W) (pre post : List (Call (W × Response))) (a b : Call (W × Response))
    (hf : FairL (pre ++ [a, b] ++ post)) (hn : (logOfL (pre ++ [a, b] ++ post)).length < 2 ^ 64)
    (hr : execL Router.new (pre ++ [a, b] ++ post) = .ok sv.router)
    (h : ∀ x ∈ logOf a, ∀ y ∈ logOf b, x.target.Apart sv.feat.urlVariables y.target) :
    ∃ r', execL Router.new (pre ++ [b, a] ++ post) = .ok r' ∧
      ∀ w s, { sv with router := r' }.serve w s = sv.serve w s := by
  have hlog : ∀ a b : List (Call (W × Response)), logOfL (a ++ b) = logOfL a ++ logOfL b := by
    intro a b
    induction a with
    | nil => rfl
    | cons x a ih => simp [logOfL, ih]
  have hfair : ∀ a b : List (Call (W × Response)), FairL (a ++ b) ↔ FairL a ∧ FairL b := by
    intro a b
    induction a with
    | nil => simp [FairL]
    | cons x a ih => simp [FairL, ih, and_assoc]
  have hf' : FairL (pre ++ [b, a] ++ post) := by
    rw [hfair, hfair] at hf ⊢
    simp only [FairL] at hf ⊢
    exact ⟨⟨hf.1.1, hf.1.2.2.1, hf.1.2.1, trivial⟩, hf.2⟩
  have hn' : (logOfL (pre ++ [b, a] ++ post)).length < 2 ^ 64 := by
    simp only [hlog, logOfL, List.length_append, List.length_nil] at hn ⊢
    omega
  obtain ⟨r', hr', -⟩ := C12_run_is_replay _ hf' hn'
  refine ⟨r', hr', fun w s => C108_same sv _ _ hf hf' hn hn' r' hr hr' w s ?_⟩
  intro q n m _ _
  simp only [hlog, logOfL]
  unfold applying
  simp only [List.filter_append, List.filter_nil, List.append_nil]
  congr 2
  by_cases hb : ((logOf b).filter fun e => e.target.applies sv.feat.urlVariables m (resolve q.pieces)) = []
  · rw [hb]; simp
  · have ha : ((logOf a).filter fun e => e.target.applies sv.feat.urlVariables m (resolve q.pieces)) = [] := by
      rw [List.filter_eq_nil_iff]
      intro x hx happ
      obtain ⟨y, hy⟩ := List.exists_mem_of_ne_nil _ hb
      rw [List.mem_filter] at hy
      exact h x hx y hy.1 m _ ⟨happ, hy.2⟩
    rw [ha]; simp

namespace FrameExample

def hi : Closure (Unit × Response) := fun _ s => .ok ((s.1, { s.2 with body := .sized 1 (.cursor [104]) }), .stop)

def pre : List (Call (Unit × Response)) := [.route .get c!"/a/:x" hi]
def more : List (Call (Unit × Response)) := [.mount [.route .addRoute c!"/b/c" hi, .route .post c!"/a/:x" hi] ⟨fun m => m, fun _ _ m => m⟩]

/-- `/a/:x` and `/b/c` never match the same path -/
theorem apart : Target.Apart true (.on .get [c!"a", c!":x"]) (.anyMethod [c!"b", c!"c"]) := by
  intro m path ⟨h1, h2⟩
  simp only [Target.applies, Bool.and_eq_true, decide_eq_true_eq] at h1 h2
  obtain ⟨-, h1⟩ := h1
  simp only [PatMatch, if_true] at h1 h2
  match path with
  | [] => simp [Matches] at h1
  | x :: z =>
    rcases h1.2 0 _ _ rfl rfl with e | e
    · exact absurd e (by decide)
    · rcases h2.2 0 _ _ rfl rfl with e' | e'
      · exact absurd e' (by decide)
      · rw [← e] at e'
        exact absurd e' (by decide)

/-- the hypotheses of `C108_swapped` -/
example : ∀ x ∈ logOf (.route .get c!"/a/:x" hi), ∀ y ∈ logOf (.route .addRoute c!"/b/c" hi), x.target.Apart true y.target := by
  intro x hx y hy
  have h1 : Path.parse c!"/a/:x" = some [c!"a", c!":x"] := by decide
  have h2 : Path.parse c!"/b/c" = some [c!"b", c!"c"] := by decide
  simp only [logOf, h1, h2, List.mem_singleton] at hx hy
  subst hx
  subst hy
  exact apart

/-- the hypotheses of `C108_added`: a program that mounts a router -/
example : FairL (pre ++ more ++ []) ∧ (logOfL (pre ++ more ++ [])).length < 2 ^ 64 ∧ (logOfL more).length = 2 ∧
    ∀ e ∈ logOfL more, e.target.applies true .get [c!"a", c!"k"] = false := by
  have h1 : Path.parse c!"/a/:x" = some [c!"a", c!":x"] := by decide
  have h2 : Path.parse c!"/b/c" = some [c!"b", c!"c"] := by decide
  refine ⟨?_, ?_, ?_, ?_⟩
  · simp [pre, more, FairL, Fair]
  · simp [pre, more, logOfL, logOf, h1, h2]
  · simp [more, logOfL, logOf, h1, h2]
  · intro e he
    simp only [more, logOfL, logOf, h1, h2, List.append_nil, List.mem_append, List.mem_singleton] at he
    rcases he with rfl | rfl
    · simp only [Verb.target, Target.applies, decide_eq_false_iff_not]
      intro h
      simp only [PatMatch, if_true] at h
      rcases h.2 0 _ _ rfl rfl with e | e <;> exact absurd e (by decide)
    · rfl

end FrameExample

end Octane
