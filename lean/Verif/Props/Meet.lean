import Verif.Proof.Meet
/-
C159: the order of two registrations matters exactly if some request reaches both.
-/
namespace Octane
open Spec Query
universe u
variable {W : Type u} {S : Type u}

/-- Two registrations of a program meet exactly if the bytes of some connection ask for both. -/
theorem C159_asked (faithful cookies uv : Bool) (calls : List (Call S)) (a b : Reg S) (ha : a ∈ logOfL calls)
    (hb : b ∈ logOfL calls) :
    a.target.Meets uv b.target ↔ ∃ bytes q n m, Asked.In faithful cookies bytes q n ∧ (q.method, m) ∈ methodTable ∧
      a.target.applies uv m (resolve q.pieces) = true ∧ b.target.applies uv m (resolve q.pieces) = true := by
  constructor
  · rintro ⟨h1, h2, ⟨name, m, hm, f1, f2⟩, h3⟩
    have hseg := meetingOf_segs h1 h2 (log_patOkL calls a ha) (log_patOkL calls b hb)
    obtain ⟨-, k1, k2⟩ := known_method hm
    refine ⟨_, _, 0, m, asked_bytesTo faithful cookies name _ ⟨k1, k2⟩ hseg, hm, ?_⟩
    have : resolve ([] :: meetingOf a.target b.target) = meetingOf a.target b.target := by
      refine resolve_names _ fun x hx => ?_
      obtain ⟨g1, g2, g3, -⟩ := hseg x hx
      simp [isName, g1, g2, g3]
    show a.target.applies uv m (resolve ([] :: meetingOf a.target b.target)) = true ∧
      b.target.applies uv m (resolve ([] :: meetingOf a.target b.target)) = true
    rw [this]
    exact meetingOf_applies h1 h2 f1 f2 h3
  · rintro ⟨bytes, q, n, m, hq, hm, h1, h2⟩
    have hs := asked_segments hq
    exact ⟨Target.applies_askable hs h1, Target.applies_askable hs h2,
      ⟨_, m, hm, Target.applies_for h1, Target.applies_for h2⟩, overlaps_of_applies h1 h2⟩

/-- C159: registrations can be put in any other order that keeps the order of those that meet: every connection is
answered as before, whatever the handlers do. -/
theorem C159_rearranged (sv : Server W) (calls calls' : List (Call (W × Response))) (hf : FairL calls)
    (hf' : FairL calls') (order : List Nat) (hk : KeepsOrder sv.feat.urlVariables (logOfL calls) order)
    (hlog : logOfL calls' = order.filterMap ((logOfL calls)[·]?)) (hn : (logOfL calls).length < 2 ^ 64)
    (r' : Router (W × Response)) (hr : execL Router.new calls = .ok sv.router) (hr' : execL Router.new calls' = .ok r')
    (w : W) (s : Sock) : { sv with router := r' }.serve w s = sv.serve w s := by
  have hn' : (logOfL calls').length < 2 ^ 64 := by
    rw [hlog]
    refine Nat.lt_of_le_of_lt (List.length_filterMap_le _ _) ?_
    rw [hk.1.length_eq, List.length_range]
    exact hn
  refine C108_same sv calls calls' hf hf' hn hn' r' hr hr' w s fun q n m hq hm => ?_
  rw [hlog]
  unfold applying
  refine (keeps_filter hk _ fun a _ b _ h1 h2 => ?_).symm
  have hs := asked_segments hq
  exact ⟨Target.applies_askable hs h1, Target.applies_askable hs h2,
    ⟨_, m, hm, Target.applies_for h1, Target.applies_for h2⟩, overlaps_of_applies h1 h2⟩

/-- C159, exactly: behind registrations that hand on, two neighbouring registrations can be exchanged, whatever their
handlers, if and only if they do not meet. -/
theorem C159_iff (sv : Server W) (calls : List (Call (W × Response))) (hf : FairL calls)
    (pre post : List (Reg (W × Response))) (a b : Reg (W × Response)) (hlog : logOfL calls = pre ++ a :: b :: post)
    (hn : (logOfL calls).length < 2 ^ 64) (hgo : ∀ e ∈ pre, Goes e.handler) (w0 : W) :
    ¬ a.target.Meets sv.feat.urlVariables b.target ↔
      ∀ (h h' : Closure (W × Response)) (c c' : List (Call (W × Response))) (r r' : Router (W × Response)),
        FairL c → FairL c' → logOfL c = pre ++ ⟨a.target, h⟩ :: ⟨b.target, h'⟩ :: post →
        logOfL c' = pre ++ ⟨b.target, h'⟩ :: ⟨a.target, h⟩ :: post →
        execL Router.new c = .ok r → execL Router.new c' = .ok r' →
        ∀ w s, { sv with router := r' }.serve w s = { sv with router := r }.serve w s := by
  have hlen : pre.length + 2 + post.length < 2 ^ 64 := by
    rw [hlog] at hn
    simp only [List.length_append, List.length_cons] at hn
    omega
  constructor
  · intro hno h h' c c' r r' fc fc' lc lc' hr hr' w s
    refine C108_same { sv with router := r } c c' fc fc' (by rw [lc]; simp only [List.length_append, List.length_cons]; omega)
      (by rw [lc']; simp only [List.length_append, List.length_cons]; omega) r' hr hr' w s fun q n m hq hm => ?_
    have hs := asked_segments hq
    rw [lc, lc']
    simp only [applying, List.filter_append]
    congr 1
    cases h1 : a.target.applies sv.feat.urlVariables m (resolve q.pieces) with
    | false =>
      cases h2 : b.target.applies sv.feat.urlVariables m (resolve q.pieces) <;> simp [h1, h2]
    | true =>
      cases h2 : b.target.applies sv.feat.urlVariables m (resolve q.pieces) with
      | false => simp [h1, h2]
      | true =>
        exact absurd ⟨Target.applies_askable hs h1, Target.applies_askable hs h2,
          ⟨_, m, hm, Target.applies_for h1, Target.applies_for h2⟩, overlaps_of_applies h1 h2⟩ hno
  · rintro hall ⟨h1, h2, ⟨name, m, hm, f1, f2⟩, h3⟩
    -- a handler that panics and one that answers
    let bad : Closure (W × Response) := fun _ _ => .panic
    let good : Closure (W × Response) := fun _ st => .ok ((st.1, { st.2 with body := .sized 0 (.cursor []) }), .stop)
    have hseg := meetingOf_segs h1 h2 (log_patOkL calls a (by rw [hlog]; simp)) (log_patOkL calls b (by rw [hlog]; simp))
    obtain ⟨req, e1, e2, e3⟩ := serve_to sv hm hseg
    obtain ⟨g1, g2⟩ := meetingOf_applies h1 h2 f1 f2 h3
    have use : ∀ x y : Reg (W × Response), (x.target = a.target ∧ y.target = b.target) ∨
        (x.target = b.target ∧ y.target = a.target) →
        ∃ c r, FairL c ∧ logOfL c = pre ++ x :: y :: post ∧ execL Router.new c = .ok r := by
      intro x y h
      obtain ⟨c, g1, g2⟩ := program_of calls (pre ++ x :: y :: post) (by
        intro e he
        rw [hlog]
        simp only [List.mem_append, List.mem_cons] at he
        rcases he with he | rfl | rfl | he
        · exact ⟨e, by simp [he], rfl⟩
        · rcases h with h | h
          · exact ⟨a, by simp, h.1.symm⟩
          · exact ⟨b, by simp, h.1.symm⟩
        · rcases h with h | h
          · exact ⟨b, by simp, h.2.symm⟩
          · exact ⟨a, by simp, h.2.symm⟩
        · exact ⟨e, by simp [he], rfl⟩)
      obtain ⟨r, g3, -⟩ := C12_run_is_replay c g1
        (by rw [g2]; simp only [List.length_append, List.length_cons]; omega)
      exact ⟨c, r, g1, g2, g3⟩
    obtain ⟨c, r, c1, c2, c3⟩ := use ⟨a.target, bad⟩ ⟨b.target, good⟩ (.inl ⟨rfl, rfl⟩)
    obtain ⟨c', r', c1', c2', c3'⟩ := use ⟨b.target, good⟩ ⟨a.target, bad⟩ (.inr ⟨rfl, rfl⟩)
    have e := hall bad good c c' r r' c1 c1' c2 c2' c3 c3' w0 ⟨[bytesTo name ([] :: meetingOf a.target b.target)], .eof⟩
    have k := e3 c r c1 (by rw [c2]; simp only [List.length_append, List.length_cons]; omega) c3 w0
    have k' := e3 c' r' c1' (by rw [c2']; simp only [List.length_append, List.length_cons]; omega) c3' w0
    rw [c2] at k
    rw [c2'] at k'
    obtain ⟨st, hst⟩ := replay_goes sv.feat.urlVariables req pre (⟨a.target, bad⟩ :: ⟨b.target, good⟩ :: post)
      (w0, Response.newEmpty) fun e he _ => hgo e he
    obtain ⟨st', hst'⟩ := replay_goes sv.feat.urlVariables req pre (⟨b.target, good⟩ :: ⟨a.target, bad⟩ :: post)
      (w0, Response.newEmpty) fun e he _ => hgo e he
    rw [hst, replay, if_pos (by rw [e1, e2]; exact g1)] at k
    rw [hst', replay, if_pos (by rw [e1, e2]; exact g2)] at k'
    rw [e, k] at k'
    simp only [bad, good, Res.bind_ok', Response.hasBody, ResBody.isSome] at k'
    cases k'

namespace MeetExample
open DeadExample StrictExample

/-- `/a/:x` and `/:y/b` are met by `/a/b`, `/a/:x` and `/b` by nothing -/
theorem meet : (Target.on .get [c!"a", c!":x"]).Meets true (.anyMethod [c!":y", c!"b"]) := by
  refine ⟨?_, ?_, ⟨c!"GET", .get, by decide, rfl, trivial⟩, rfl, fun i a b h1 h2 => ?_⟩
  · intro seg hs
    simp only [List.mem_cons, List.not_mem_nil, or_false] at hs
    rcases hs with rfl | rfl
    · exact .inr ⟨by decide, by decide, no_crlf_of_no_cr (by decide)⟩
    · exact .inl ⟨rfl, by decide⟩
  · intro seg hs
    simp only [List.mem_cons, List.not_mem_nil, or_false] at hs
    rcases hs with rfl | rfl
    · exact .inl ⟨rfl, by decide⟩
    · exact .inr ⟨by decide, by decide, no_crlf_of_no_cr (by decide)⟩
  · match i, h1, h2 with
    | 0, h1, h2 =>
      simp only [List.getElem?_cons_zero, Option.some.injEq] at h2
      subst h2
      exact .inl ⟨rfl, .inr (by decide)⟩
    | 1, h1, h2 =>
      simp only [List.getElem?_cons_succ, List.getElem?_cons_zero, Option.some.injEq] at h1
      subst h1
      exact .inl ⟨rfl, .inl (by decide)⟩
    | (n + 2), h1, h2 => simp at h1

theorem noMeet (m : RequestMethod) : ¬ (Target.on m [c!"a", c!":x"]).Meets true (.anyMethod [c!"b"]) :=
  fun h => absurd h.2.2.2.1 (by decide)

theorem noMeet' : ¬ (Target.anyMethod [c!"b"]).Meets true (.on .get [c!"a", c!":x"]) :=
  fun h => absurd h.2.2.2.1 (by decide)

theorem parse_yb : Path.parse c!"/:y/b" = some [c!":y", c!"b"] := by decide
theorem parse_b : Path.parse c!"/b" = some [c!"b"] := by decide

def calls : List (Call (Unit × Response)) :=
  [.route .get c!"/a/:x" hello, .route .addRoute c!"/:y/b" pass, .route .addRoute c!"/b" pass]
/-- the last one first -/
def calls' : List (Call (Unit × Response)) :=
  [.route .addRoute c!"/b" pass, .route .get c!"/a/:x" hello, .route .addRoute c!"/:y/b" pass]

theorem log_calls : logOfL calls =
    [⟨.on .get [c!"a", c!":x"], hello⟩, ⟨.anyMethod [c!":y", c!"b"], pass⟩, ⟨.anyMethod [c!"b"], pass⟩] := by
  simp only [calls, logOfL, logOf, parse_ax, parse_yb, parse_b, Verb.target, Verb.method, List.append_nil]
  rfl
theorem log_calls' : logOfL calls' =
    [⟨.anyMethod [c!"b"], pass⟩, ⟨.on .get [c!"a", c!":x"], hello⟩, ⟨.anyMethod [c!":y", c!"b"], pass⟩] := by
  simp only [calls', logOfL, logOf, parse_ax, parse_yb, parse_b, Verb.target, Verb.method, List.append_nil]
  rfl

theorem keeps : KeepsOrder true (logOfL calls) [2, 0, 1] := by
  rw [log_calls]
  refine ⟨by decide, ?_⟩
  simp only [List.pairwise_cons, List.mem_cons, List.not_mem_nil, or_false]
  refine ⟨?_, ?_, by simp⟩
  · rintro j (rfl | rfl) _ a b ha hb
    · cases ha; cases hb; exact noMeet'
    · cases ha; cases hb; exact fun h => absurd h.2.2.2.1 (by decide)
  · rintro j rfl h; omega

/-- moving `/b` to the front changes nothing -/
example (r r' : Router (Unit × Response)) (hr : execL Router.new calls = .ok r) (hr' : execL Router.new calls' = .ok r')
    (s : Sock) : (⟨.default, fun _ => true, .asciiOnly, .id, fun _ => 0, r'⟩ : Server Unit).serve () s =
      (⟨.default, fun _ => true, .asciiOnly, .id, fun _ => 0, r⟩ : Server Unit).serve () s :=
  C159_rearranged ⟨.default, fun _ => true, .asciiOnly, .id, fun _ => 0, r⟩ calls calls'
    (by simp [calls, FairL, Fair]) (by simp [calls', FairL, Fair]) [2, 0, 1] keeps (by rw [log_calls', log_calls]; rfl)
    (by rw [log_calls]; simp) r' hr hr' () s

/-- the first two cannot be exchanged whatever their handlers -/
example (sv : Server Unit) (huv : sv.feat.urlVariables = true) :
    ¬ ∀ (h h' : Closure (Unit × Response)) (c c' : List (Call (Unit × Response))) (r r' : Router (Unit × Response)),
        FairL c → FairL c' →
        logOfL c = [] ++ ⟨.on .get [c!"a", c!":x"], h⟩ :: ⟨.anyMethod [c!":y", c!"b"], h'⟩ :: [⟨.anyMethod [c!"b"], pass⟩] →
        logOfL c' = [] ++ ⟨.anyMethod [c!":y", c!"b"], h'⟩ :: ⟨.on .get [c!"a", c!":x"], h⟩ :: [⟨.anyMethod [c!"b"], pass⟩] →
        execL Router.new c = .ok r → execL Router.new c' = .ok r' →
        ∀ w s, { sv with router := r' }.serve w s = { sv with router := r }.serve w s := by
  intro h
  exact (C159_iff sv calls (by simp [calls, FairL, Fair]) [] [⟨.anyMethod [c!"b"], pass⟩]
    ⟨.on .get [c!"a", c!":x"], hello⟩ ⟨.anyMethod [c!":y", c!"b"], pass⟩ (by rw [log_calls]; rfl)
    (by rw [log_calls]; simp) (by simp) ()).2 h (huv ▸ meet)

/-- there are bytes that ask for both -/
example := (C159_asked true false true calls ⟨.on .get [c!"a", c!":x"], hello⟩ ⟨.anyMethod [c!":y", c!"b"], pass⟩
  (by rw [log_calls]; simp) (by rw [log_calls]; simp)).1 meet

end MeetExample

end Octane
