import Verif.Proof.Behind
import Verif.Props.Meet
/-
C159 behind registrations that stop: exactly when two neighbouring registrations can be exchanged.
-/
namespace Octane
open Spec Query
universe u
variable {W : Type u} {S : Type u}

/-- C159, exactly, behind registrations that each either always stop or always hand on: two neighbouring registrations
can be exchanged, whatever their handlers, if and only if they do not meet or a registration for what both are for would
be dead where they stand. -/
theorem C159_behind (sv : Server W) (calls : List (Call (W × Response)))
    (pre post : List (Reg (W × Response))) (a b : Reg (W × Response)) (hlog : logOfL calls = pre ++ a :: b :: post)
    (hn : (logOfL calls).length < 2 ^ 64) (hdec : ∀ e ∈ pre, Stops e.handler ∨ Goes e.handler) (w0 : W) :
    (a.target.Meets sv.feat.urlVariables b.target → Dead sv.feat.urlVariables pre (a.target.common b.target)) ↔
      ∀ (h h' : Closure (W × Response)) (c c' : List (Call (W × Response))) (r r' : Router (W × Response)),
        FairL c → FairL c' → logOfL c = pre ++ ⟨a.target, h⟩ :: ⟨b.target, h'⟩ :: post →
        logOfL c' = pre ++ ⟨b.target, h'⟩ :: ⟨a.target, h⟩ :: post →
        execL Router.new c = .ok r → execL Router.new c' = .ok r' →
        ∀ w s, { sv with router := r' }.serve w s = { sv with router := r }.serve w s := by
  have hlen : pre.length + 2 + post.length < 2 ^ 64 := by
    rw [hlog] at hn
    simp only [List.length_append, List.length_cons] at hn
    omega
  have hlen' : ∀ x y : Reg (W × Response), (pre ++ x :: y :: post).length < 2 ^ 64 := by
    intro x y
    simp only [List.length_append, List.length_cons]
    omega
  constructor
  · intro hno h h' c c' r r' fc fc' lc lc' hr hr' w s
    refine serve_congr_known { sv with router := r } r' w s fun req q n hq hw hm => ?_
    have hall := (known_not_all hm).1
    have hs : ∀ x ∈ req.requestLine.path, ' ' ∉ x ∧ ¬ Occurs x crlf := by rw [hw.path]; exact asked_segments hq
    show Router.run sv.feat.urlVariables r' req _ = Router.run sv.feat.urlVariables r req _
    rw [run_replays (sv := sv) fc lc (hlen' _ _) hr req hall, run_replays (sv := sv) fc' lc' (hlen' _ _) hr' req hall]
    have swap : ∀ (h1 : a.target.applies sv.feat.urlVariables req.requestLine.method req.requestLine.path = false ∨
        b.target.applies sv.feat.urlVariables req.requestLine.method req.requestLine.path = false),
        applying sv.feat.urlVariables req.requestLine.method req.requestLine.path
          (pre ++ ⟨b.target, h'⟩ :: ⟨a.target, h⟩ :: post) =
        applying sv.feat.urlVariables req.requestLine.method req.requestLine.path
          (pre ++ ⟨a.target, h⟩ :: ⟨b.target, h'⟩ :: post) := by
      intro h1
      simp only [applying, List.filter_append]
      congr 1
      rcases h1 with h1 | h1
      · cases h2 : b.target.applies sv.feat.urlVariables req.requestLine.method req.requestLine.path <;> simp [h1, h2]
      · cases h2 : a.target.applies sv.feat.urlVariables req.requestLine.method req.requestLine.path <;> simp [h1, h2]
    cases h1 : a.target.applies sv.feat.urlVariables req.requestLine.method req.requestLine.path with
    | false =>
      rw [replay_applying, replay_applying sv.feat.urlVariables req (pre ++ ⟨a.target, h⟩ :: ⟨b.target, h'⟩ :: post),
        swap (.inl h1)]
    | true =>
      cases h2 : b.target.applies sv.feat.urlVariables req.requestLine.method req.requestLine.path with
      | false =>
        rw [replay_applying, replay_applying sv.feat.urlVariables req (pre ++ ⟨a.target, h⟩ :: ⟨b.target, h'⟩ :: post),
          swap (.inr h2)]
      | true =>
        have hc := Target.common_applies h1 h2
        rcases hno ⟨Target.applies_askable hs h1, Target.applies_askable hs h2,
            ⟨_, _, hm, Target.applies_for h1, Target.applies_for h2⟩, overlaps_of_applies h1 h2⟩ _ _ hm
            (Target.applies_for hc) with h3 | ⟨x, hx, g1, g2, g3⟩
        · exact absurd (Target.applies_askable hs hc) h3
        · exact replay_stopped _ req pre _ _ _ ⟨x, hx, Target.general_covers g2 g1 hc, g3⟩
  · intro hall hmeet
    apply Classical.byContradiction
    intro halive
    obtain ⟨hask, ga, gb, hboth⟩ := Target.common_of_meets hmeet
    have halive : ∃ name m, (name, m) ∈ methodTable ∧ (a.target.common b.target).IsFor m ∧
        ∀ e ∈ pre, e.target.IsFor m → e.target.General sv.feat.urlVariables (a.target.common b.target) →
          ¬ Stops e.handler := by
      apply Classical.byContradiction
      intro hno
      apply halive
      intro name m h1 h2
      refine .inr (Classical.byContradiction fun h4 => hno ⟨name, m, h1, h2, fun e he g1 g2 g3 => ?_⟩)
      exact h4 ⟨e, he, g1, g2, g3⟩
    obtain ⟨name, m, hm, hfor, hpre⟩ := halive
    obtain ⟨f1, f2⟩ := hboth m hfor
    obtain ⟨n, hn0, hlong⟩ := exists_longer pre
    -- a handler that panics and one that answers
    let bad : Closure (W × Response) := fun _ _ => .panic
    let good : Closure (W × Response) := fun _ st => .ok ((st.1, { st.2 with body := .sized 0 (.cursor []) }), .stop)
    have hpat := Target.common_patOk (log_patOkL calls a (by rw [hlog]; simp)) (log_patOkL calls b (by rw [hlog]; simp))
    obtain ⟨req, e1, e2, e3⟩ := serve_to sv hm (askFor_segOk n hn0 hask hpat)
    have hc := Target.ask_applies n hfor hask
    have g1 := Target.general_covers ga f1 hc
    have g2 := Target.general_covers gb f2 hc
    have hgo : ∀ e ∈ pre, e.target.applies sv.feat.urlVariables req.requestLine.method req.requestLine.path = true →
        Goes e.handler := by
      intro e he hap
      rw [e1, e2] at hap
      rcases hdec e he with h | h
      · exact absurd h (hpre e he (Target.applies_for hap) (Target.general_of_ask (hlong e he) hask hap))
      · exact h
    have use : ∀ x y : Reg (W × Response), (x.target = a.target ∧ y.target = b.target) ∨
        (x.target = b.target ∧ y.target = a.target) →
        ∃ c r, FairL c ∧ logOfL c = pre ++ x :: y :: post ∧ execL Router.new c = .ok r := by
      intro x y h
      obtain ⟨c, g1, g2⟩ := program_of calls (pre ++ x :: y :: post) (by
        intro e he
        rw [hlog]
        simp only [List.mem_append, List.mem_cons] at he
        rcases he with he | rfl | rfl | he
        · exact ⟨e, by simp [he], rfl⟩
        · rcases h with h | h
          · exact ⟨a, by simp, h.1.symm⟩
          · exact ⟨b, by simp, h.1.symm⟩
        · rcases h with h | h
          · exact ⟨b, by simp, h.2.symm⟩
          · exact ⟨a, by simp, h.2.symm⟩
        · exact ⟨e, by simp [he], rfl⟩)
      obtain ⟨r, g3, -⟩ := C12_run_is_replay c g1 (by rw [g2]; exact hlen' _ _)
      exact ⟨c, r, g1, g2, g3⟩
    obtain ⟨c, r, c1, c2, c3⟩ := use ⟨a.target, bad⟩ ⟨b.target, good⟩ (.inl ⟨rfl, rfl⟩)
    obtain ⟨c', r', c1', c2', c3'⟩ := use ⟨b.target, good⟩ ⟨a.target, bad⟩ (.inr ⟨rfl, rfl⟩)
    have e := hall bad good c c' r r' c1 c1' c2 c2' c3 c3' w0
      ⟨[bytesTo name ([] :: askFor n (a.target.common b.target))], .eof⟩
    have k := e3 c r c1 (by rw [c2]; exact hlen' _ _) c3 w0
    have k' := e3 c' r' c1' (by rw [c2']; exact hlen' _ _) c3' w0
    rw [c2] at k
    rw [c2'] at k'
    obtain ⟨st, hst⟩ := replay_goes sv.feat.urlVariables req pre (⟨a.target, bad⟩ :: ⟨b.target, good⟩ :: post)
      (w0, Response.newEmpty) hgo
    obtain ⟨st', hst'⟩ := replay_goes sv.feat.urlVariables req pre (⟨b.target, good⟩ :: ⟨a.target, bad⟩ :: post)
      (w0, Response.newEmpty) hgo
    rw [hst, replay, if_pos (by rw [e1, e2]; exact g1)] at k
    rw [hst', replay, if_pos (by rw [e1, e2]; exact g2)] at k'
    rw [e, k] at k'
    simp only [bad, good, Res.bind_ok', Response.hasBody, ResBody.isSome] at k'
    cases k'

namespace BehindExample
open DeadExample StrictExample MeetExample

/-- `GET /a/:x` and `/:y/b` behind a handler for `/a/b` -/
def calls (v : Verb) : List (Call (Unit × Response)) :=
  [.add pass, .route v c!"/a/b" hello, .route .get c!"/a/:x" hello, .route .addRoute c!"/:y/b" pass]

theorem log_get : logOfL (calls .get) = [⟨.everywhere, pass⟩, ⟨.on .get [c!"a", c!"b"], hello⟩] ++
    ⟨.on .get [c!"a", c!":x"], hello⟩ :: ⟨.anyMethod [c!":y", c!"b"], pass⟩ :: [] := by
  simp only [calls, logOfL, logOf, parse_ax, parse_ab, parse_yb, Verb.target, Verb.method, List.append_nil]
  rfl

theorem log_post : logOfL (calls .post) = [⟨.everywhere, pass⟩, ⟨.on .post [c!"a", c!"b"], hello⟩] ++
    ⟨.on .get [c!"a", c!":x"], hello⟩ :: ⟨.anyMethod [c!":y", c!"b"], pass⟩ :: [] := by
  simp only [calls, logOfL, logOf, parse_ax, parse_ab, parse_yb, Verb.target, Verb.method, List.append_nil]
  rfl

/-- what both are for is `GET /a/b` -/
theorem common_is : (Target.on .get [c!"a", c!":x"]).common (.anyMethod [c!":y", c!"b"]) = .on .get [c!"a", c!"b"] := by
  have : Spec.common [c!"a", c!":x"] [c!":y", c!"b"] = [c!"a", c!"b"] := by decide
  simp only [Target.common, this]

theorem taken : Dead (S := Unit × Response) true [⟨.everywhere, pass⟩, ⟨.on .get [c!"a", c!"b"], hello⟩]
    (.on .get [c!"a", c!"b"]) := by
  intro name m _ hm
  refine .inr ⟨⟨.on .get [c!"a", c!"b"], hello⟩, by simp, hm, ⟨rfl, fun i a b h1 h2 => ?_⟩, hello_stops⟩
  rw [h1] at h2
  injection h2 with h2
  refine .inr ⟨?_, h2⟩
  have := List.mem_of_getElem? h1
  simp only [List.mem_cons, List.not_mem_nil, or_false] at this
  rcases this with rfl | rfl <;> decide

theorem free : ¬ Dead (S := Unit × Response) true [⟨.everywhere, pass⟩, ⟨.on .post [c!"a", c!"b"], hello⟩]
    (.on .get [c!"a", c!"b"]) := by
  intro h
  rcases h c!"GET" .get (by decide) rfl with h | ⟨e, he, h1, -, h3⟩
  · apply h
    intro seg hs
    simp only [List.mem_cons, List.not_mem_nil, or_false] at hs
    rcases hs with rfl | rfl <;> exact .inr ⟨by decide, by decide, no_crlf_of_no_cr (by decide)⟩
  · simp only [List.mem_cons, List.not_mem_nil, or_false] at he
    rcases he with rfl | rfl
    · have := h3 ⟨⟨⟨.get, [], .http11⟩, ⟨[], []⟩, [], []⟩, []⟩ ((), Response.newEmpty) _ _ rfl
      cases this
    · cases h1

theorem decided (m : RequestMethod) : ∀ e ∈ ([⟨.everywhere, pass⟩, ⟨.on m [c!"a", c!"b"], hello⟩] :
    List (Reg (Unit × Response))), Stops e.handler ∨ Goes e.handler := by
  intro e he
  simp only [List.mem_cons, List.not_mem_nil, or_false] at he
  rcases he with rfl | rfl
  · exact .inr pass_goes
  · exact .inl hello_stops

/-- they meet only in `GET /a/b`, which the handler before them answers: they can be exchanged whatever they do -/
example (sv : Server Unit) (huv : sv.feat.urlVariables = true) :=
  (C159_behind sv (calls .get) _ _ _ _ log_get (by rw [log_get]; decide) (decided .get) ()).1 fun _ => by
    rw [huv, common_is]; exact taken

/-- behind a handler for `POST /a/b` they cannot -/
example (sv : Server Unit) (huv : sv.feat.urlVariables = true) :
    ¬ ∀ (h h' : Closure (Unit × Response)) (c c' : List (Call (Unit × Response))) (r r' : Router (Unit × Response)),
        FairL c → FairL c' →
        logOfL c = [⟨.everywhere, pass⟩, ⟨.on .post [c!"a", c!"b"], hello⟩] ++
          ⟨.on .get [c!"a", c!":x"], h⟩ :: ⟨.anyMethod [c!":y", c!"b"], h'⟩ :: [] →
        logOfL c' = [⟨.everywhere, pass⟩, ⟨.on .post [c!"a", c!"b"], hello⟩] ++
          ⟨.anyMethod [c!":y", c!"b"], h'⟩ :: ⟨.on .get [c!"a", c!":x"], h⟩ :: [] →
        execL Router.new c = .ok r → execL Router.new c' = .ok r' →
        ∀ w s, { sv with router := r' }.serve w s = { sv with router := r }.serve w s := by
  intro h
  have := (C159_behind sv (calls .post) _ _ _ _ log_post (by rw [log_post]; decide) (decided .post) ()).2 h (huv ▸ meet)
  rw [huv, common_is] at this
  exact free this

end BehindExample

end Octane
