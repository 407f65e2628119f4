import Verif.Props.Field
import Verif.Props.TargetExact
/-
C102: exactly what becomes of a HEAD request.
-/
namespace Octane
open Spec
variable {W : Type u}

/-- A registration as a HEAD request sees it, put in terms of GET: what is registered for GET is not there, and what
is registered for HEAD is what GET would find. -/
def Spec.seenByHead {S : Type u} (e : Reg S) : Option (Reg S) :=
  match e.target with
  | .on .get _ => none
  | .on .head p => some ⟨.on .get p, e.handler⟩
  | _ => some e

theorem seenByHead_applies {S : Type u} (uv : Bool) (path : PathBuf) (e : Reg S) :
    match seenByHead e with
    | none => e.target.applies uv .head path = false
    | some e' => e'.handler = e.handler ∧ e'.target.applies uv .get path = e.target.applies uv .head path := by
  obtain ⟨t, h⟩ := e
  cases t with
  | everywhere => simp [seenByHead, Target.applies]
  | anyMethod p => simp [seenByHead, Target.applies]
  | on m p => cases m <;> simp [seenByHead, Target.applies]

theorem replay_seenByHead {S : Type u} (uv : Bool) (req req' : Request) (log : List (Reg S)) (s : S)
    (hm : req.requestLine.method = .get) (hm' : req'.requestLine.method = .head)
    (hp : req'.requestLine.path = req.requestLine.path) (hb : ∀ e ∈ log, Blind e.handler) :
    replay uv req' log s = replay uv req (log.filterMap seenByHead) s := by
  induction log generalizing s with
  | nil => rfl
  | cons e log ih =>
    have ih' := fun s => ih s fun x hx => hb x (List.mem_cons_of_mem _ hx)
    have h := seenByHead_applies uv req.requestLine.path e
    cases he : seenByHead e with
    | none =>
      rw [he] at h
      rw [List.filterMap_cons_none he, replay, hm', hp, if_neg (by simp [h])]
      exact ih' s
    | some e' =>
      rw [he] at h
      rw [List.filterMap_cons_some he, replay, replay, hm, hm', hp, ← h.2, h.1,
        hb e (by simp) _ ⟨req, e'.target.vars uv req.requestLine.path⟩]
      simp only [ih']

/-- C102, exactly: a HEAD is answered, body included, as the GET is by the application that has what is registered for
HEAD registered for GET instead, and nothing of what is registered for GET. -/
theorem C102_exact (sv : Server W) (calls calls' : List (Call (W × Response))) (hf : FairL calls) (hf' : FairL calls')
    (hn : (logOfL calls).length < 2 ^ 64) (hsetup : execL Router.new calls = .ok sv.router)
    (r' : Router (W × Response)) (hsetup' : execL Router.new calls' = .ok r')
    (hblind : ∀ e ∈ logOfL calls, Blind e.handler) (hlog : logOfL calls' = (logOfL calls).filterMap seenByHead)
    (q : WireReq) (hq : q.Good) (s s' : Sock)
    (hb : s.bytes = { q with method := c!"GET" }.bytes) (hb' : s'.bytes = { q with method := c!"HEAD" }.bytes)
    (halloc : ∀ k ≤ q.body.length, sv.allocOk k = true) (hmax : q.body.length ≤ i64Max) (w : W) :
    sv.serve w s' = { sv with router := r' }.serve w s := by
  obtain ⟨req, h1, h2, h3, h4, h5, h6, h7, h7b, -⟩ := reads_wire sv.feat sv.allocOk _
    (with_method hq c!"GET" (by decide)) s [] (by simpa using hb) (.inl rfl) halloc hmax
  obtain ⟨req', h1', h2', h3', h4', h5', h6', h7', h7b', -⟩ := reads_wire sv.feat sv.allocOk _
    (with_method hq c!"HEAD" (by decide)) s' [] (by simpa using hb') (.inl rfl) halloc hmax
  obtain ⟨r, g1, g2⟩ := C12_run_is_replay calls hf hn
  rw [hsetup] at g1
  simp only [Res.ok.injEq] at g1
  subst g1
  obtain ⟨r, g1', g2'⟩ := C12_run_is_replay calls' hf' (Nat.lt_of_le_of_lt (hlog ▸ List.length_filterMap_le _ _) hn)
  rw [hsetup'] at g1'
  simp only [Res.ok.injEq] at g1'
  subst g1'
  have m1 : req.requestLine.method = .get := h2 .get (by simp only; decide)
  have m2 : req'.requestLine.method = .head := h2' .head (by simp only; decide)
  have hver : req'.requestLine.version = req.requestLine.version := by
    by_cases hk : ∃ x, (q.version, x) ∈ versionTable
    · obtain ⟨x, hx⟩ := hk
      rw [h5 x hx, h5' x hx]
    · rw [h6 fun x hx => hk ⟨x, hx⟩, h6' fun x hx => hk ⟨x, hx⟩]
  have hrun : Router.run sv.feat.urlVariables sv.router req' (w, Response.newEmpty) =
      Router.run sv.feat.urlVariables r' req (w, Response.newEmpty) := by
    rw [g2 _ _ _ h1'.facts.2, g2' _ _ _ h1.facts.2, hlog]
    exact replay_seenByHead _ _ _ _ _ m1 m2 (h4'.trans h4.symm) hblind
  have h1k : Reads ({ sv with router := r' } : Server W).feat ({ sv with router := r' } : Server W).allocOk s req := h1
  rw [serve_reads h1', serve_reads h1k, handle_spec, handle_spec, hver, h7b, h7b', hrun, m1, m2]
  simp
  rfl

namespace HeadExample
open StrictExample FieldExample

/-- another handler -/
def bye : Closure (Unit × Response) := fun _ st =>
  .ok ((st.1, { st.2 with body := .sized 3 (.cursor (utf8 c!"bye")) }), .next)

/-- `app.get("/a", hello); app.head("/a", bye)` -/
def both : List (Call (Unit × Response)) := [.route .get c!"/a" hello, .route .head c!"/a" bye]

/-- `app.get("/a", bye)` -/
def only : List (Call (Unit × Response)) := [.route .get c!"/a" bye]

theorem log_both : logOfL both = [⟨.on .get [c!"a"], hello⟩, ⟨.on .head [c!"a"], bye⟩] := by
  rfl

/-- the hypotheses of `C102_exact` are met: with `hello` for GET and `bye` for HEAD, a HEAD is answered as a GET is
where `bye` is for GET -/
example : ∃ r r', execL Router.new both = .ok r ∧ execL Router.new only = .ok r' ∧
    { StrictExample.sv with router := r }.serve () ⟨[{ qa with method := c!"HEAD" }.bytes], .eof⟩ =
      { StrictExample.sv with router := r' }.serve () ⟨[{ qa with method := c!"GET" }.bytes], .eof⟩ := by
  obtain ⟨r, hr, -⟩ := C12_run_is_replay both (by simp [both, FairL, Fair]) (by decide +kernel)
  obtain ⟨r', hr', -⟩ := C12_run_is_replay only (by simp [only, FairL, Fair]) (by decide +kernel)
  refine ⟨r, r', hr, hr', ?_⟩
  exact C102_exact { StrictExample.sv with router := r } both only (by simp [both, FairL, Fair])
    (by simp [only, FairL, Fair]) (by decide +kernel) hr r' hr'
    (by rw [log_both]; simpa using ⟨hello_blind, fun _ _ => rfl⟩) (by rw [log_both]; rfl) qa qa_good _ _
    (by simp [Sock.bytes]) (by simp [Sock.bytes]) (fun _ _ => rfl) (by decide) ()

end HeadExample
end Octane
