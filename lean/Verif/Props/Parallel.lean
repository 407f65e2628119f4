import Verif.Proof.Parallel
import Verif.Props.Response
/-
C84: requests whose handlers run at the same time. C85: handlers that do not return.
-/
namespace Octane
open Spec

section
variable {W : Type u}

/-! ### C84 -/

/-- Whatever the order of the accesses of different requests: every request is exactly one program, the
handlers that apply to it in the order of registration up to one that stops, each given the response
of the one before; and the programs take turns on the shared state. (The requests are any that the
parser can produce: it never produces the pseudo-method `All`, see `C12_parsed_method`.) -/
theorem C84_interleaving (sv : PServer W) (log : List (PReg W)) (hs : SetUp sv log) (w0 : W) (workers : Nat)
    (evs : List (PEvent W)) (he : ∀ req, .arrive req ∈ evs → req.requestLine.method ≠ .all) :
    let y := (PSys.start w0 workers).run sv evs
    let z := SSys.run (requestProg sv.feat.urlVariables log) sv.write ⟨w0, workers, []⟩ evs
    y.world = z.world ∧ y.jobs.length = z.jobs.length ∧
      ∀ (i : Nat) j k, y.jobs[i]? = some j → z.jobs[i]? = some k → SameJob sv j k := by
  obtain ⟨h1, -, h3⟩ := SysRel.run hs evs (y := PSys.start w0 workers) (z := ⟨w0, workers, []⟩) ⟨rfl, rfl, trivial⟩ he
  refine ⟨h1, h3.length, ?_⟩
  intro i j k hj hk
  rcases h3.get i with ⟨e1, -⟩ | ⟨j', k', e1, e2, hr⟩
  · rw [e1] at hj; simp at hj
  · rw [e1] at hj; rw [e2] at hk
    injection hj with hj; injection hk with hk
    subst hj hk
    exact hr.same hs

/-- A request that is not interrupted is handled as by `Server.handle` on handlers that are one step
each: the model of one connection and of all connections is the special case of this one in which the
handlers of different requests do not run at the same time. -/
theorem C84_uninterrupted (sv : PServer W) (log : List (PReg W)) (hs : SetUp sv log) (sv' : Server W)
    (hfeat : sv'.feat = sv.feat) (hU : sv'.U = sv.U) (hord : sv'.ord = sv.ord) (hclock : sv'.clock = sv.clock)
    (calls : List (Call (W × Response))) (hf : FairL calls) (hn : (logOfL calls).length < 2 ^ 64)
    (hlog : logOfL calls = log.map PReg.whole) (hr : execL Router.new calls = .ok sv'.router)
    (y : PSys W) (i : Nat) (req : Request) (hm : req.requestLine.method ≠ .all)
    (hi : y.jobs[i]? = some (.ready req)) (hfree : y.jobs.countP Job.busy < y.workers)
    (hh : (requestProg sv.feat.urlVariables log req).Ends) :
    ∃ n, let y' := y.run sv (.start i :: List.replicate n (.access i) ++ [.finish i])
      match sv'.handle y.world req with
      | .ok (w, bytes) => y'.world = w ∧ ∃ r, y'.jobs = y.jobs.set i (.done r bytes)
      | .panic => y'.jobs = y.jobs.set i .dead := by
  have hrun : ∀ s, Router.run sv.feat.urlVariables sv'.router req s =
      replay sv.feat.urlVariables req (log.map PReg.whole) s := by
    obtain ⟨r, e1, e2⟩ := Router.run_is_replay calls hf hn
    rw [hr] at e1
    injection e1 with e1
    intro s
    rw [e1, e2 _ req s hm, hlog]
  rw [handle_whole sv log sv' req y.world hfeat hU hord hclock hrun]
  obtain ⟨n, hn⟩ := run_job hs req hm i y hi hfree hh
  exact ⟨n, hn⟩

/-- The full claim of C84: requests handled at the same time have the effect of being handled one after
the other. -/
def C84_statement : Prop :=
  ∀ (W : Type) (sv : PServer W) (log : List (PReg W)), SetUp sv log → ∀ (w0 : W) (workers : Nat)
    (evs : List (PEvent W)), (∀ req, .arrive req ∈ evs → req.requestLine.method ≠ .all) →
    let y := (PSys.start w0 workers).run sv evs
    ∃ items : List (Item W),
      items.filterMap Item.env? = evs.filterMap PEvent.env? ∧
      (items.filterMap Item.job?).Nodup ∧
      (∀ i p, .job i p ∈ items → ∃ req, (evs.filterMap PEvent.arrive?)[i]? = some req ∧
        p = requestProg sv.feat.urlVariables log req) ∧
      y.world = (serially w0 items).1 ∧
      ∀ i r bytes, y.jobs[i]? = some (.done r bytes) → (i, .ret r) ∈ (serially w0 items).2

/-- It holds when the handlers of every request together make at most one access to the shared state: the
order is that of the accesses. What is missing: requests that make more than one access. -/
theorem C84_one_access_partial (sv : PServer W) (log : List (PReg W)) (hs : SetUp sv log) (w0 : W) (workers : Nat)
    (evs : List (PEvent W)) (he : ∀ req, .arrive req ∈ evs → req.requestLine.method ≠ .all)
    (hone : ∀ req, .arrive req ∈ evs → (requestProg sv.feat.urlVariables log req).AtMostOne) :
    let y := (PSys.start w0 workers).run sv evs
    ∃ items : List (Item W),
      items.filterMap Item.env? = evs.filterMap PEvent.env? ∧
      (items.filterMap Item.job?).Nodup ∧
      (∀ i p, .job i p ∈ items → ∃ req, (evs.filterMap PEvent.arrive?)[i]? = some req ∧
        p = requestProg sv.feat.urlVariables log req) ∧
      y.world = (serially w0 items).1 ∧
      (∀ i r bytes, y.jobs[i]? = some (.done r bytes) → (i, .ret r) ∈ (serially w0 items).2) ∧
      (∀ i, y.jobs[i]? = some .dead →
        (i, .panic) ∈ (serially w0 items).2 ∨
          ∃ r w, (i, .ret r) ∈ (serially w0 items).2 ∧ sv.write w r = .panic) := by
  obtain ⟨h1, -, h3⟩ := SysRel.run hs evs (y := PSys.start w0 workers) (z := ⟨w0, workers, []⟩) ⟨rfl, rfl, trivial⟩ he
  have h0 : OneInv (requestProg sv.feat.urlVariables log) sv.write w0 [] [] ⟨w0, workers, []⟩ :=
    ⟨rfl, List.nodup_nil, by simp, rfl, by simp⟩
  obtain ⟨items, i1, i2⟩ := h0.run evs (by
    intro req hreq
    simp only [List.nil_append, List.mem_filterMap] at hreq
    obtain ⟨e, e1, e2⟩ := hreq
    cases e <;> simp only [PEvent.arrive?, Option.some.injEq, reduceCtorEq] at e2
    subst e2
    exact hone _ e1)
  simp only [List.nil_append] at i1
  refine ⟨items, i2, i1.nodup, i1.progs, h1.trans i1.world, ?_, ?_⟩
  · intro i r bytes hj
    rcases h3.get i with ⟨e1, -⟩ | ⟨j', k', e1, e2, hr⟩
    · rw [e1] at hj; simp at hj
    · rw [e1] at hj
      injection hj with hj
      subst hj
      cases k' <;> try exact hr.elim
      obtain ⟨rfl, rfl⟩ := hr
      exact i1.jobs i _ e2
  · intro i hj
    rcases h3.get i with ⟨e1, -⟩ | ⟨j', k', e1, e2, hr⟩
    · rw [e1] at hj; simp at hj
    · rw [e1] at hj
      injection hj with hj
      subst hj
      cases k' <;> try exact hr.elim
      exact i1.jobs i _ e2

end

namespace ParallelExample

/-- a GET request with version 1.0 -/
def req : Request :=
  { requestLine := { method := .get, path := [c!"p"], version := .http10 },
    headers := ⟨[], []⟩, body := [], cookies := [] }

/-- the response `n` -/
def said (n : Nat) : Response := { Response.newEmpty with body := .sized 1 (.cursor [n.toUInt8]) }

/-- a counter that is read and written separately -/
def readWrite : PClosure Nat := fun _ _ =>
  .act id fun n => .act (fun _ => n + 1) fun _ => .ret (said n, .stop)

/-- a counter that is read and written in one access -/
def fetchAdd : PClosure Nat := fun _ _ => .act (· + 1) fun n => .ret (said n, .stop)

/-- a handler that does not return -/
def forever : PClosure Nat := fun _ _ => .hang

def server (h : PClosure Nat) : PServer Nat :=
  { feat := .default, U := .asciiOnly, ord := MapOrder.id, clock := fun _ => 0, router := Router.add Router.new h.closure }

theorem setUp (h : PClosure Nat) : SetUp (server h) [⟨.everywhere, h⟩] :=
  ⟨[.add h.closure], by simp [FairL, Fair], by simp [logOfL, logOf], rfl, rfl⟩

theorem validate : Http.validate req = .ok ⟨none, .close⟩ := by decide

theorem prog_readWrite (uv : Bool) : requestProg uv [⟨.everywhere, readWrite⟩] req =
    .act id fun n => .act (fun _ => n + 1) fun _ => .ret (.sent (said n)) := by
  rfl

theorem prog_fetchAdd (uv : Bool) : requestProg uv [⟨.everywhere, fetchAdd⟩] req =
    .act (· + 1) fun n => .ret (.sent (said n)) := by
  rfl

/-- two requests that read before either writes -/
def lost : List (PEvent Nat) :=
  [.arrive req, .arrive req, .start 0, .start 1, .access 0, .access 1, .access 0, .access 1, .finish 0, .finish 1]

end ParallelExample

open ParallelExample in
/-- C84 is false: nothing keeps the handlers of two requests apart. Two requests that each add one to a
counter, reading and then writing it, leave it at one. -/
theorem C84_counterexample : ¬ C84_statement := by
  intro h
  have hlost : ∀ e ∈ lost, ∀ q, e = PEvent.arrive q → q = req := by
    intro e he q hq
    subst hq
    simpa [lost] using he
  obtain ⟨items, h1, h2, h3, h4, h5⟩ := h Nat (server readWrite) _ (setUp readWrite) 0 2 lost (by
    intro q hq
    rw [hlost _ hq q rfl]
    decide)
  have hworld : ((PSys.start 0 2).run (server readWrite) lost).world = 1 := by rfl
  have hd0 : ∃ r b, ((PSys.start 0 2).run (server readWrite) lost).jobs[0]? = some (.done r b) := ⟨_, _, rfl⟩
  have hd1 : ∃ r b, ((PSys.start 0 2).run (server readWrite) lost).jobs[1]? = some (.done r b) := ⟨_, _, rfl⟩
  rw [hworld] at h4
  obtain ⟨r0, b0, hd0⟩ := hd0
  obtain ⟨r1, b1, hd1⟩ := hd1
  have m0 := h5 0 r0 b0 hd0
  have m1 := h5 1 r1 b1 hd1
  -- every request served as a whole adds one
  have count : ∀ (l : List (Item Nat)) (w : Nat), (∀ x ∈ l, ∃ i, x = .job i (requestProg true [⟨.everywhere, readWrite⟩] req)) →
      (serially w l).1 = w + l.length ∧ (serially w l).2.length = l.length := by
    intro l
    induction l with
    | nil => intro w _; exact ⟨rfl, rfl⟩
    | cons x l ih =>
      intro w hx
      obtain ⟨i, rfl⟩ := hx x (by simp)
      obtain ⟨a, b⟩ := ih (w + 1) (fun x hx' => hx x (by simp [hx']))
      rw [prog_readWrite]
      simp only [serially, Prog.atomically]
      exact ⟨by rw [a]; simp; omega, by simp [b]⟩
  obtain ⟨c1, c2⟩ := count items 0 (by
    intro x hx
    cases x with
    | env f =>
      have : f ∈ items.filterMap Item.env? := List.mem_filterMap.2 ⟨_, hx, rfl⟩
      rw [h1] at this
      simp [lost, PEvent.env?] at this
    | job i p =>
      obtain ⟨q, q1, q2⟩ := h3 i p hx
      obtain ⟨e, e1, e2⟩ := List.mem_filterMap.1 (List.mem_of_getElem? q1)
      cases e <;> simp only [PEvent.arrive?, Option.some.injEq, reduceCtorEq] at e2
      subst e2
      rw [hlost _ e1 _ rfl] at q2
      exact ⟨i, by rw [q2]; rfl⟩)
  have hlen : items.length = 1 := by omega
  rw [hlen] at c2
  match hos : (serially 0 items).2, c2 with
  | [x], _ =>
    rw [hos] at m0 m1
    simp only [List.mem_singleton] at m0 m1
    rw [← m0] at m1
    simp at m1

open ParallelExample in
/-- the same two requests with the counter read and written in one access -/
example : ((PSys.start 0 2).run (server fetchAdd)
    [.arrive req, .arrive req, .start 0, .start 1, .access 1, .access 0, .finish 0, .finish 1]).world = 2 := by rfl

open ParallelExample in
/-- the hypothesis of `C84_one_access_partial` for it -/
example : (requestProg true [⟨.everywhere, fetchAdd⟩] req).AtMostOne := by
  rw [prog_fetchAdd]
  intro w u n
  simp

/-! ### C85 -/

/-- the request has been answered, or its handlers have panicked -/
def Spec.Settled {W : Type u} : Option (Job W) → Prop
  | some (.done _ _) => True
  | some .dead => True
  | _ => False

/-- The full claim of C85: a handler that does not return holds up only its own request. From every state
the server can be in, the requests whose handlers return can be answered. -/
def C85_statement : Prop :=
  ∀ (W : Type) (sv : PServer W) (log : List (PReg W)), SetUp sv log → ∀ (w0 : W) (workers : Nat), 1 ≤ workers →
    ∀ (evs : List (PEvent W)), (∀ req, .arrive req ∈ evs → req.requestLine.method ≠ .all) →
    let y := (PSys.start w0 workers).run sv evs
    ∀ (i : Nat) (req : Request), y.jobs[i]? = some (.ready req) → (requestProg sv.feat.urlVariables log req).Ends →
    ∃ more : List (PEvent W), (∀ e ∈ more, e.arrive? = none ∧ e.env? = none) ∧ Settled (y.run sv more).jobs[i]?

section
variable {W : Type u}

/-- It holds as long as fewer requests with handlers that might not return are being handled than the
runtime has threads. What is missing: as many such requests as threads, see `C85_stalled`. -/
theorem C85_others_partial (sv : PServer W) (log : List (PReg W)) (hs : SetUp sv log) (w0 : W) (workers : Nat)
    (evs : List (PEvent W)) (he : ∀ req, .arrive req ∈ evs → req.requestLine.method ≠ .all) :
    let y := (PSys.start w0 workers).run sv evs
    y.jobs.countP (MayHang sv log) < y.workers →
    ∀ (i : Nat) (req : Request), y.jobs[i]? = some (.ready req) → (requestProg sv.feat.urlVariables log req).Ends →
    ∃ more : List (PEvent W), (∀ e ∈ more, e.arrive? = none ∧ e.env? = none) ∧ Settled (y.run sv more).jobs[i]? := by
  intro y hcount i req hi hends
  have hrel := SysRel.run hs evs (y := PSys.start w0 workers) (z := ⟨w0, workers, []⟩) ⟨rfl, rfl, trivial⟩ he
  obtain ⟨more, m1, m2, m3⟩ := free_thread hs _ y rfl hrel.sound hcount
  obtain ⟨n, hn⟩ := run_job hs req (hrel.ready hi) i (y.run sv more) (m3 i req hi) m2 hends
  refine ⟨more ++ (.start i :: List.replicate n (.access i) ++ [.finish i]), ?_, ?_⟩
  · intro e he
    simp only [List.cons_append, List.mem_append, List.mem_cons, List.mem_replicate, List.not_mem_nil, or_false] at he
    rcases he with he | rfl | ⟨-, rfl⟩ | rfl
    · exact m1 e he
    all_goals exact ⟨rfl, rfl⟩
  · rw [PSys.run_append]
    have hl := (List.getElem?_eq_some_iff.1 (m3 i req hi)).1
    revert hn
    generalize (y.run sv more).run sv (.start i :: List.replicate n (.access i) ++ [.finish i]) = y'
    intro hn
    simp only at hn
    split at hn
    · obtain ⟨-, r, hr⟩ := hn
      rw [hr, List.getElem?_set_self hl]
      trivial
    · rw [hn, List.getElem?_set_self hl]
      trivial

/-- When as many requests with handlers that do not return are being handled as there are threads,
nothing is ever done again for any request that waits, whatever it is and whatever happens. -/
theorem C85_stalled (sv : PServer W) (y : PSys W) (h : y.workers ≤ y.jobs.countP (Hung sv)) (i : Nat)
    (req : Request) (hi : y.jobs[i]? = some (.ready req)) (evs : List (PEvent W)) :
    (y.run sv evs).jobs[i]? = some (.ready req) := stalled_run evs h i req hi

end

namespace ParallelExample

/-- a request for `/h` -/
def bad : Request := { req with requestLine := { req.requestLine with path := [c!"h"] } }

/-- a handler that does not return for `/h` -/
def sometimes : PClosure Nat := fun mr _ =>
  if mr.request.requestLine.path = [c!"h"] then .hang else .ret (said 0, .stop)

/-- as many requests for `/h` as threads, each begun -/
def fill : Nat → List (PEvent Nat)
  | 0 => []
  | n + 1 => fill n ++ [.arrive bad, .start n]

theorem stage_bad : (server sometimes).stage bad [] = .hangs := by rfl

theorem fill_run (workers n : Nat) (h : n ≤ workers) :
    (PSys.start 0 workers).run (server sometimes) (fill n) = ⟨0, workers, List.replicate n (.running bad [])⟩ := by
  induction n with
  | zero => rfl
  | succ n ih =>
    rw [fill, PSys.run_append, ih (by omega)]
    simp only [PSys.run, List.foldl_cons, List.foldl_nil, PSys.step]
    rw [List.getElem?_append_right (by simp)]
    simp only [List.length_replicate, Nat.sub_self, List.getElem?_cons_zero, List.countP_append, List.countP_replicate,
      Job.busy, if_true, List.countP_cons, List.countP_nil, Bool.false_eq_true, if_false, Nat.add_zero]
    rw [if_pos (by omega), List.set_append_right _ _ (by simp)]
    simp [List.replicate_succ']

end ParallelExample

open ParallelExample in
/-- For every number of threads, that many requests to a handler that does not return stop the server:
the next request is never begun, whatever happens afterwards. -/
theorem C85_stops (workers : Nat) :
    let y := (PSys.start 0 workers).run (server sometimes) (fill workers ++ [.arrive req])
    SetUp (server sometimes) [⟨.everywhere, sometimes⟩] ∧
    (requestProg true [⟨.everywhere, sometimes⟩] req).Ends ∧
    ∀ evs, (y.run (server sometimes) evs).jobs[workers]? = some (.ready req) := by
  have hy : (PSys.start 0 workers).run (server sometimes) (fill workers ++ [.arrive req]) =
      ⟨0, workers, List.replicate workers (.running bad []) ++ [.ready req]⟩ := by
    rw [PSys.run_append, fill_run workers workers (Nat.le_refl _)]
    rfl
  refine ⟨setUp _, trivial, fun evs => ?_⟩
  rw [hy]
  refine C85_stalled _ _ ?_ workers req ?_ evs
  · simp [List.countP_append, List.countP_replicate, Hung, stage_bad]
  · rw [List.getElem?_append_right (by simp)]; simp

open ParallelExample in
/-- So C85 is false. -/
theorem C85_counterexample : ¬ C85_statement := by
  intro h
  obtain ⟨h1, h2, h3⟩ := C85_stops 1
  obtain ⟨more, -, m2⟩ := h Nat (server sometimes) _ h1 0 1 (by decide) (fill 1 ++ [.arrive req]) (by
    intro q hq
    simp only [fill, List.nil_append, List.cons_append, List.mem_cons, PEvent.arrive.injEq, reduceCtorEq, false_or,
      List.not_mem_nil, or_false] at hq
    rcases hq with rfl | rfl <;> decide) 1 req (by exact h3 []) h2
  rw [h3 more] at m2
  exact m2

open ParallelExample in
/-- with one thread more the request after them is answered -/
example (workers : Nat) :
    ((PSys.start 0 (workers + 1)).run (server sometimes) (fill workers ++ [.arrive req])).jobs.countP
      (MayHang (server sometimes) [⟨.everywhere, sometimes⟩]) < workers + 1 := by
  rw [PSys.run_append, fill_run _ workers (by omega)]
  have : (List.replicate workers (Job.running bad [])).countP (MayHang (server sometimes) [⟨.everywhere, sometimes⟩]) ≤ workers := by
    simpa using List.countP_le_length (p := MayHang (server sometimes) [⟨.everywhere, sometimes⟩])
      (l := List.replicate workers (Job.running bad []))
  simp only [PSys.run, List.foldl_cons, List.foldl_nil, PSys.step, List.countP_append, List.countP_cons, List.countP_nil]
  simp only [MayHang, Bool.false_eq_true, if_false] at this ⊢
  omega

open ParallelExample in
/-- the two requests of `C84_counterexample`, each half done when the other begins -/
example := C84_interleaving (server readWrite) _ (setUp readWrite) 0 2 lost (by
  intro q hq
  simp only [lost, List.mem_cons, PEvent.arrive.injEq, reduceCtorEq, or_false, List.not_mem_nil, or_self] at hq
  subst hq
  decide)

open ParallelExample in
/-- a request that waits beside one whose handler does not return -/
example := C85_others_partial (server sometimes) _ (setUp sometimes) 0 2 (fill 1 ++ [.arrive req]) (by
  intro q hq
  simp only [fill, List.nil_append, List.cons_append, List.mem_cons, PEvent.arrive.injEq, reduceCtorEq, false_or,
    List.not_mem_nil, or_false] at hq
  rcases hq with rfl | rfl <;> decide)

open ParallelExample in
/-- the counter as a server whose handlers are one step each -/
def ParallelExample.whole : Server Nat :=
  { feat := .default, allocOk := fun _ => true, U := .asciiOnly, ord := MapOrder.id, clock := fun _ => 0,
    router := Router.add Router.new (PReg.whole ⟨.everywhere, readWrite⟩).handler }

open ParallelExample in
/-- a request to the counter, uninterrupted -/
example := C84_uninterrupted (server readWrite) _ (setUp readWrite) whole rfl rfl rfl rfl
    [.add (PReg.whole ⟨.everywhere, readWrite⟩).handler] (by simp [FairL, Fair]) (by simp [logOfL, logOf])
    rfl rfl ⟨5, 1, [.ready req]⟩ 0 req (by decide) rfl (by decide)
    (by rw [prog_readWrite]; exact fun _ _ => trivial)

end Octane
