import Verif.Proof.RouterTrace
import Verif.Props.Path
/-
Properties C11 – C17: routing.
-/
namespace Octane
open Spec
variable {S : Type u}

/-! ## C12 -/

/-- Any router set up by a program behaves as the log of its registrations. -/
theorem C12_run_is_replay (calls : List (Call S)) (hf : FairL calls)
    (hn : (logOfL calls).length < 2 ^ 64) :
    ∃ r, execL Router.new calls = .ok r ∧
      ∀ (uv : Bool) (req : Request) (s : S), req.requestLine.method ≠ .all →
        Router.run uv r req s = replay uv req (logOfL calls) s :=
  Router.run_is_replay calls hf hn

/-- A request that came out of the parser never has the pseudo-method `All`. -/
theorem C12_parsed_method (faithful : Bool) (s : Str) (rl : RequestLine)
    (h : RequestLine.parse faithful s = .ok (some rl)) :
    rl.method ≠ .all := by
  have hm : ∀ m, methodOf m ≠ .all := by
    intro m; unfold methodOf; repeat' split
    all_goals simp
  unfold RequestLine.parse at h
  repeat' split at h
  all_goals first | (simp at h; done) | skip
  rename_i version rest hp
  cases hs : splitAtByte 5 version with
  | panic => simp [hs] at h
  | ok x =>
    obtain ⟨first, ver⟩ := x
    simp only [hs, Res.bind_ok'] at h
    split at h
    · simp at h
    · simp only [Res.ok.injEq, Option.some.injEq] at h
      subst h
      exact hm _

/-- C12: the handlers that ran are, in this order, an initial part of the applicable handlers in
registration order, whichever of the three kinds they are; in particular nothing runs twice and
nothing is skipped. -/
theorem C12_registration_order {uv : Bool} {calls : List (Call (S × List Event))} {req : Request}
    {T : List Event} (h : Dispatched uv calls req T) (hf : FairL calls)
    (hn : (logOfL calls).length < 2 ^ 64) (ht : TracedLog 0 (logOfL calls))
    (hm : req.requestLine.method ≠ .all) :
    T.map (·.1) <+: applicable uv req.requestLine.method req.requestLine.path 0 (logOfL calls) := by
  obtain ⟨⟨rest, h1, -⟩, -⟩ := dispatched_trace h hf hn ht hm
  exact ⟨rest, h1⟩

/-! ## C13 -/

/-- C13: a handler runs if and only if it applies to the request and every applicable handler
registered before it ran and returned `Next`. -/
theorem C13_flow {uv : Bool} {calls : List (Call (S × List Event))} {req : Request}
    {T : List Event} (h : Dispatched uv calls req T) (hf : FairL calls)
    (hn : (logOfL calls).length < 2 ^ 64) (ht : TracedLog 0 (logOfL calls))
    (hm : req.requestLine.method ≠ .all) (k : Nat) :
    (∃ v fl, (k, v, fl) ∈ T) ↔
      k ∈ applicable uv req.requestLine.method req.requestLine.path 0 (logOfL calls) ∧
      ∀ j ∈ applicable uv req.requestLine.method req.requestLine.path 0 (logOfL calls), j < k →
        ∃ v, (j, v, .next) ∈ T := by
  obtain ⟨⟨rest, h1, hstop⟩, hnext, -⟩ := dispatched_trace h hf hn ht hm
  have hs := applicable_sorted uv req.requestLine.method req.requestLine.path 0 (logOfL calls)
  rw [← h1] at hs ⊢
  constructor
  · rintro ⟨v, fl, hk⟩
    refine ⟨List.mem_append_left _ (List.mem_map.2 ⟨_, hk, rfl⟩), fun j hj hjk => ?_⟩
    obtain ⟨A, B, rfl⟩ := List.append_of_mem hk
    simp only [List.map_append, List.map_cons, List.append_assoc, List.cons_append] at hs hj
    rw [List.pairwise_append, List.pairwise_cons] at hs
    rcases List.mem_append.1 hj with hj | hj
    · obtain ⟨a, ha, rfl⟩ := List.mem_map.1 hj
      obtain ⟨A1, A2, rfl⟩ := List.append_of_mem ha
      have hn : a.2.2 = .next := by
        cases A2 with
        | nil => exact hnext A1 a (k, v, fl) B (by simp)
        | cons b A2 => exact hnext A1 a b (A2 ++ (k, v, fl) :: B) (by simp)
      obtain ⟨a1, a2, a3⟩ := a
      simp only at hn; subst hn
      exact ⟨a2, by simp⟩
    · rcases List.mem_cons.1 hj with rfl | hj
      · omega
      · have := hs.2.1.1 j hj; omega
  · rintro ⟨hk, hall⟩
    rcases List.mem_append.1 hk with hk1 | hk1
    · obtain ⟨⟨a1, a2, a3⟩, ha, rfl⟩ := List.mem_map.1 hk1
      exact ⟨a2, a3, ha⟩
    · exfalso
      obtain ⟨T0, j, v, rfl⟩ := hstop (List.ne_nil_of_mem hk1)
      rw [List.pairwise_append] at hs
      have hjk : j < k := hs.2.2 j (by simp) k hk1
      obtain ⟨w, hw⟩ := hall j (by simp) hjk
      -- `j` occurs only once
      rcases List.mem_append.1 hw with hw | hw
      · have h2 := hs.1
        simp only [List.map_append, List.map_cons, List.map_nil] at h2
        rw [List.pairwise_append] at h2
        have := h2.2.2 j (List.mem_map.2 ⟨_, hw, rfl⟩) j (by simp)
        omega
      · simp at hw

/-- C13: nothing runs after `Stop`. -/
theorem C13_stop_is_last {uv : Bool} {calls : List (Call (S × List Event))} {req : Request}
    {T : List Event} (h : Dispatched uv calls req T) (hf : FairL calls)
    (hn : (logOfL calls).length < 2 ^ 64) (ht : TracedLog 0 (logOfL calls))
    (hm : req.requestLine.method ≠ .all) (T0 T1 : List Event) (k : Nat) (v : HMap Str Str)
    (hT : T = T0 ++ (k, v, .stop) :: T1) : T1 = [] := by
  obtain ⟨-, hnext, -⟩ := dispatched_trace h hf hn ht hm
  cases T1 with
  | nil => rfl
  | cons b T1 => have := hnext T0 _ b T1 hT; simp at this

/-! ## C11 -/

/-- C11: each handler that runs sees the variables of its own pattern: with feature
`url_variables`, name `n` has value `v` exactly when `v` is the path segment at the last position
of `:n` in the handler's own pattern. Path-less handlers see no variables, nor does any handler
without the feature. -/
theorem C11_own_variables {uv : Bool} {calls : List (Call (S × List Event))} {req : Request}
    {T : List Event} (h : Dispatched uv calls req T) (hf : FairL calls)
    (hn : (logOfL calls).length < 2 ^ 64) (ht : TracedLog 0 (logOfL calls))
    (hm : req.requestLine.method ≠ .all) (a : Event) (ha : a ∈ T) :
    ∃ e, (logOfL calls)[a.1]? = some e ∧
      match e.target with
      | .everywhere => a.2.1 = []
      | .on _ p | .anyMethod p =>
        if uv then ∀ n v, a.2.1.get n = some v ↔ Binds p req.requestLine.path n v else a.2.1 = [] := by
  obtain ⟨-, -, hmem⟩ := dispatched_trace h hf hn ht hm
  obtain ⟨e, h1, h2, h3⟩ := hmem a ha
  refine ⟨e, h1, ?_⟩
  have key : ∀ p, (∃ s, Path.parse s = some p) → PatMatch uv p req.requestLine.path →
      a.2.1 = (if uv then bindings p req.requestLine.path else []) →
      if uv then ∀ n v, a.2.1.get n = some v ↔ Binds p req.requestLine.path n v else a.2.1 = [] := by
    rintro p ⟨s, hs⟩ hp hv
    cases uv with
    | false => simpa using hv
    | true =>
      simp only [if_true] at hv ⊢
      simp only [PatMatch, if_true] at hp
      have hne : ∀ a ∈ p, a ≠ [] := fun a ha => (Path.parse_normal hs a ha).1
      rw [hv]
      intro n v
      exact (C05_bindings s p hs req.requestLine.path _ (checkMatches_bindings hne hp) n v).1
  have hparse : ∀ p, (e.target = .anyMethod p ∨ ∃ m, e.target = .on m p) → ∃ s, Path.parse s = some p :=
    fun p hp => logOfL_parsed calls e (List.mem_of_getElem? h1) p hp
  cases he : e.target with
  | everywhere => rw [he] at h3; exact h3
  | on m p =>
    rw [he] at h2 h3
    simp only [Target.applies, Bool.and_eq_true, decide_eq_true_eq] at h2
    exact key p (hparse p (.inr ⟨m, he⟩)) h2.2 h3
  | anyMethod p =>
    rw [he] at h2 h3
    simp only [Target.applies, decide_eq_true_eq] at h2
    exact key p (hparse p (.inl he)) h2 h3

/-! ## C14 -/

/-- C14: a handler that ran was registered for the request's method with an applicable pattern, or
for any method with an applicable pattern, or for everything. -/
theorem C14_method_isolation {uv : Bool} {calls : List (Call (S × List Event))} {req : Request}
    {T : List Event} (h : Dispatched uv calls req T) (hf : FairL calls)
    (hn : (logOfL calls).length < 2 ^ 64) (ht : TracedLog 0 (logOfL calls))
    (hm : req.requestLine.method ≠ .all) (a : Event) (ha : a ∈ T) :
    ∃ e, (logOfL calls)[a.1]? = some e ∧
      ((∃ p, e.target = .on req.requestLine.method p ∧ PatMatch uv p req.requestLine.path) ∨
       (∃ p, e.target = .anyMethod p ∧ PatMatch uv p req.requestLine.path) ∨
       e.target = .everywhere) := by
  obtain ⟨-, -, hmem⟩ := dispatched_trace h hf hn ht hm
  obtain ⟨e, h1, h2, -⟩ := hmem a ha
  refine ⟨e, h1, ?_⟩
  cases he : e.target with
  | everywhere => exact .inr (.inr rfl)
  | on m p =>
    simp only [he, Target.applies, Bool.and_eq_true, decide_eq_true_eq] at h2
    exact .inl ⟨p, by rw [h2.1], h2.2⟩
  | anyMethod p =>
    simp only [he, Target.applies, decide_eq_true_eq] at h2
    exact .inr (.inl ⟨p, rfl, h2⟩)

/-- C14: conversely, unless an earlier applicable handler stopped the chain, every handler registered
with `add` runs, and every handler registered with `add_route` for an applicable pattern, whatever
the method. -/
theorem C14_any_method_runs {uv : Bool} {calls : List (Call (S × List Event))} {req : Request}
    {T : List Event} (h : Dispatched uv calls req T) (hf : FairL calls)
    (hn : (logOfL calls).length < 2 ^ 64) (ht : TracedLog 0 (logOfL calls))
    (hm : req.requestLine.method ≠ .all) (hnostop : ∀ k v, (k, v, Flow.stop) ∉ T)
    (k : Nat) (e : Reg (S × List Event)) (he : (logOfL calls)[k]? = some e)
    (ht' : e.target = .everywhere ∨ ∃ p, e.target = .anyMethod p ∧ PatMatch uv p req.requestLine.path) :
    ∃ v, (k, v, Flow.next) ∈ T := by
  obtain ⟨⟨rest, h1, hstop⟩, -, -⟩ := dispatched_trace h hf hn ht hm
  have hr : rest = [] := by
    by_cases hr : rest = []
    · exact hr
    · obtain ⟨T0, j, v, rfl⟩ := hstop hr
      exact absurd (by simp) (hnostop j v)
  rw [hr, List.append_nil] at h1
  have hk : k ∈ T.map (·.1) := by
    rw [h1, mem_applicable]
    refine ⟨e, he, ?_⟩
    rcases ht' with h | ⟨p, h, hp⟩ <;> simp [h, Target.applies]
    exact hp
  obtain ⟨⟨k', v, fl⟩, ha, rfl⟩ := List.mem_map.1 hk
  cases fl with
  | stop => exact absurd ha (hnostop _ _)
  | next => exact ⟨v, ha⟩

/-! ## C15 -/

/-- C15: mounting a router set up by `sub` is the same as performing `sub` on the spot: both
succeed, and the results treat every request alike, for every enumeration order of the hash maps
involved in this mount or any other. -/
theorem C15_mount_is_inline (pre sub post : List (Call S)) (ord : Router.AppendOrder S)
    (hf : FairL (pre ++ .mount sub ord :: post)) (hf' : FairL (pre ++ (sub ++ post)))
    (hn : (logOfL (pre ++ (sub ++ post))).length < 2 ^ 64) :
    ∃ r r', execL Router.new (pre ++ .mount sub ord :: post) = .ok r ∧
      execL Router.new (pre ++ (sub ++ post)) = .ok r' ∧
      ∀ (uv : Bool) (req : Request) (s : S), req.requestLine.method ≠ .all →
        Router.run uv r req s = Router.run uv r' req s := by
  have hlog : logOfL (pre ++ .mount sub ord :: post) = logOfL (pre ++ (sub ++ post)) := by
    simp [logOfL_append, logOfL, logOf]
  obtain ⟨r, h1, h2⟩ := C12_run_is_replay _ hf (by rw [hlog]; exact hn)
  obtain ⟨r', h3, h4⟩ := C12_run_is_replay _ hf' hn
  exact ⟨r, r', h1, h3, fun uv req s hm => by rw [h2 uv req s hm, h4 uv req s hm, hlog]⟩

/-! ## C16 -/

/-- C16: if a registration reports an error, every later request (also after any further
registrations and mounts) is handled as if the call had not been made. -/
theorem C16_rejected_no_effect (pre post : List (Call S)) (hf : FairL (pre ++ post))
    (hn : (logOfL (pre ++ post)).length < 2 ^ 64) (r r1 : Router S)
    (hpre : execL Router.new pre = .ok r) (v : Verb) (path : Str) (h : Closure S)
    (herr : Router.injectMethod r path h v.method = .ok (r1, false)) :
    ∃ ra rb, execL r1 post = .ok ra ∧ execL r post = .ok rb ∧
      ∀ (uv : Bool) (req : Request) (s : S), req.requestLine.method ≠ .all →
        Router.run uv ra req s = Router.run uv rb req s := by
  obtain ⟨f1, f2⟩ := (FairL_append pre post).1 hf
  obtain ⟨r', e1, inv⟩ := Router.execL_inv pre f1 Router.new [] Router.Inv.new
  rw [hpre] at e1; cases e1
  rw [List.nil_append] at inv
  have hp : Path.parse path = none := by
    cases hp : Path.parse path with
    | none => rfl
    | some p =>
      obtain ⟨r2, h2, -⟩ := inv.route v h hp
      rw [herr] at h2; simp at h2
  obtain ⟨r1', e2, inv1⟩ := inv.reject v h hp
  rw [herr] at e2
  simp only [Res.ok.injEq, Prod.mk.injEq, and_true] at e2; subst e2
  obtain ⟨ra, e3, inva⟩ := Router.execL_inv post f2 _ _ inv1
  obtain ⟨rb, e4, invb⟩ := Router.execL_inv post f2 _ _ inv
  rw [← logOfL_append] at inva invb
  exact ⟨ra, rb, e3, e4, fun uv req s hm => by
    rw [Router.run_eq inva hn uv req hm s, Router.run_eq invb hn uv req hm s]⟩

/-- C16: a registration reports an error exactly when its path is not accepted by the path parser;
it never panics. -/
theorem C16_error_iff (pre : List (Call S)) (hf : FairL pre) (r : Router S)
    (hpre : execL Router.new pre = .ok r) (v : Verb) (path : Str) (h : Closure S) :
    ∃ r1, Router.injectMethod r path h v.method = .ok (r1, (Path.parse path).isSome) := by
  obtain ⟨r', e1, inv⟩ := Router.execL_inv pre hf Router.new [] Router.Inv.new
  rw [hpre] at e1; cases e1
  cases hp : Path.parse path with
  | none => obtain ⟨r1, h1, -⟩ := inv.reject v h hp; exact ⟨r1, h1⟩
  | some p => obtain ⟨r1, h1, -⟩ := inv.route v h hp; exact ⟨r1, h1⟩

/-! ## C17 -/

/-- C17: setting up a router never panics, and dispatching panics only if one of the registered
handlers does. (`Router.run` is a total function, so dispatch terminates.) -/
theorem C17_no_panic (calls : List (Call S)) (hf : FairL calls)
    (hn : (logOfL calls).length < 2 ^ 64)
    (hh : ∀ e ∈ logOfL calls, ∀ mr s, e.handler mr s ≠ .panic) :
    ∃ r, execL Router.new calls = .ok r ∧
      ∀ (uv : Bool) (req : Request) (s : S), req.requestLine.method ≠ .all →
        ∃ s', Router.run uv r req s = .ok s' := by
  obtain ⟨r, h1, h2⟩ := C12_run_is_replay calls hf hn
  exact ⟨r, h1, fun uv req s hm => by rw [h2 uv req s hm]; exact replay_ok uv req _ hh s⟩

/-- C17: at most as many handlers run as were registered. -/
theorem C17_bounded {uv : Bool} {calls : List (Call (S × List Event))} {req : Request}
    {T : List Event} (h : Dispatched uv calls req T) (hf : FairL calls)
    (hn : (logOfL calls).length < 2 ^ 64) (ht : TracedLog 0 (logOfL calls))
    (hm : req.requestLine.method ≠ .all) : T.length ≤ (logOfL calls).length := by
  have h1 := (C12_registration_order h hf hn ht hm).length_le
  have h2 : (applicable uv req.requestLine.method req.requestLine.path 0 (logOfL calls)).length
      ≤ (logOfL calls).length := by
    unfold applicable
    rw [List.length_map]
    exact Nat.le_trans (List.length_filter_le _ _) (by simp)
  simpa using Nat.le_trans h1 h2

/-! ### a concrete program meeting all the hypotheses -/

namespace RouterExample

/-- an instrumented handler that returns `fl` -/
def tr (k : Nat) (fl : Flow) : Closure (Unit × List Event) :=
  fun mr (s, t) => .ok ((s, t ++ [(k, mr.vars, fl)]), fl)

def keep : Router.AppendOrder (Unit × List Event) := ⟨id, fun _ _ m => m⟩

def program : List (Call (Unit × List Event)) :=
  [.route .get c!"/a/:x" (tr 0 .next), .add (tr 1 .next), .route .get c!"/../bad" (tr 9 .stop),
   .mount [.route .addRoute c!"/a/b" (tr 2 .next), .route .post c!"/a/b" (tr 3 .stop),
           .add (tr 4 .next)] keep,
   .route .get c!"a/b/" (tr 5 .stop), .add (tr 6 .next)]

def getAB : Request :=
  { requestLine := { method := .get, path := [c!"a", c!"b"], version := .http11 },
    headers := ⟨[], []⟩, body := [], cookies := [] }

theorem fair : FairL program := by
  simp [program, FairL, Fair, keep]

theorem traced : TracedLog 0 (logOfL program) := by
  have h : ∀ k fl, Traced k (tr k fl) := by
    intro k fl mr s t s' t' fl' h
    simp only [tr, Res.ok.injEq, Prod.mk.injEq] at h
    obtain ⟨⟨-, rfl⟩, rfl⟩ := h
    rfl
  have hl : (logOfL program).map (·.handler) =
      [tr 0 .next, tr 1 .next, tr 2 .next, tr 3 .stop, tr 4 .next, tr 5 .stop, tr 6 .next] := rfl
  intro k e hk
  have hk' : ((logOfL program).map (·.handler))[k]? = some e.handler := by simp [hk]
  rw [hl] at hk'
  match k, hk' with
  | 0, hk' => simp at hk'; rw [← hk']; exact h 0 _
  | 1, hk' => simp at hk'; rw [← hk']; exact h 1 _
  | 2, hk' => simp at hk'; rw [← hk']; exact h 2 _
  | 3, hk' => simp at hk'; rw [← hk']; exact h 3 _
  | 4, hk' => simp at hk'; rw [← hk']; exact h 4 _
  | 5, hk' => simp at hk'; rw [← hk']; exact h 5 _
  | 6, hk' => simp at hk'; rw [← hk']; exact h 6 _
  | k + 7, hk' => simp at hk'

/-- the events of `GET /a/b`: handler 3 (another method) does not run, handler 5 stops the chain -/
def events : List Event :=
  [(0, [(c!"x", c!"b")], .next), (1, [], .next), (2, [], .next), (4, [], .next), (5, [], .stop)]

theorem dispatched : Dispatched true program getAB events := by
  obtain ⟨r, h1, h2⟩ := C12_run_is_replay program fair (by decide)
  refine ⟨r, (), (), h1, ?_⟩
  rw [h2 true getAB ((), []) (by decide)]
  rfl

example := C11_own_variables dispatched fair (by decide) traced (by decide)
example := C12_registration_order dispatched fair (by decide) traced (by decide)
example := C13_flow dispatched fair (by decide) traced (by decide) 5
example := C14_method_isolation dispatched fair (by decide) traced (by decide)
example := C17_bounded dispatched fair (by decide) traced (by decide)

end RouterExample

open RouterExample in
/-- nothing after handler 5 -/
example := C13_stop_is_last dispatched fair (by decide) traced (by decide)
  [(0, [(c!"x", c!"b")], .next), (1, [], .next), (2, [], .next), (4, [], .next)] [] 5 [] rfl

open RouterExample in
/-- the mounted router of `program`, mounted or inline -/
example := C15_mount_is_inline (program.take 3)
  [.route .addRoute c!"/a/b" (tr 2 .next), .route .post c!"/a/b" (tr 3 .stop), .add (tr 4 .next)] (program.drop 4) keep
  fair (by simp [program, FairL, Fair, keep]) (by decide)

open RouterExample in
/-- the registration of `program` that is refused -/
example : ∃ r r1, execL Router.new (program.take 2) = .ok r ∧
    Router.injectMethod r c!"/../bad" (tr 9 .stop) Verb.get.method = .ok (r1, false) ∧
    ∃ ra rb, execL r1 (program.drop 3) = .ok ra ∧ execL r (program.drop 3) = .ok rb ∧
      ∀ (uv : Bool) (req : Request) s, req.requestLine.method ≠ .all →
        Router.run uv ra req s = Router.run uv rb req s := by
  have hf : FairL (program.take 2) := by simp [program, FairL, Fair]
  obtain ⟨r, hr, -⟩ := C12_run_is_replay (program.take 2) hf (by decide)
  obtain ⟨r1, h1⟩ := C16_error_iff (program.take 2) hf r hr .get c!"/../bad" (tr 9 .stop)
  rw [show Path.parse c!"/../bad" = none by decide] at h1
  exact ⟨r, r1, hr, h1, C16_rejected_no_effect (program.take 2) (program.drop 3)
    (by simp [program, FairL, Fair, keep]) (by decide) r r1 hr .get _ _ h1⟩

end Octane
