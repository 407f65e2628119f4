import Verif.Proof.Stall
import Verif.Props.Parallel
/-
C85, exactly: when a request that waits can still be answered.
-/
namespace Octane
open Spec
universe u

/-- C85, exactly: in every state the server can be in, a request that waits can still be answered (by some events,
other changes of the shared state among them) if and only if its own handlers can come to an end, and fewer requests
than there are threads are held by handlers that cannot come to an end any more whatever happens. -/
theorem C85_iff {W : Type u} (sv : PServer W) (log : List (PReg W)) (hs : SetUp sv log) (w0 : W) (workers : Nat)
    (evs : List (PEvent W)) (he : ∀ req, .arrive req ∈ evs → req.requestLine.method ≠ .all) (i : Nat) (req : Request)
    (hi : ((PSys.start w0 workers).run sv evs).jobs[i]? = some (.ready req)) :
    (∃ more : List (PEvent W), Settled (((PSys.start w0 workers).run sv evs).run sv more).jobs[i]?) ↔
      ((PSys.start w0 workers).run sv evs).jobs.countP (Lost sv log) < workers ∧
        (requestProg sv.feat.urlVariables log req).MayEnd := by
  have hrel := SysRel.run hs evs (y := PSys.start w0 workers) (z := ⟨w0, workers, []⟩) ⟨rfl, rfl, trivial⟩ he
  have hw : ((PSys.start w0 workers).run sv evs).workers = workers := run_workers sv evs _
  generalize (PSys.start w0 workers).run sv evs = y at hi hrel hw
  have hm := hrel.ready hi
  rw [lost_count hrel.sound]
  subst hw
  constructor
  · rintro ⟨more, hmore⟩
    constructor
    · apply Classical.byContradiction
      intro hcon
      rw [lost_run hs more (by omega) i req hi] at hmore
      exact hmore
    · apply Classical.byContradiction
      intro hcon
      have := doomed_run hs more (y := y) (i := i) (by rw [hi]; exact ⟨hm, hcon⟩)
      revert this hmore
      generalize (y.run sv more).jobs[i]? = o
      intro h1 h2
      rcases o with _ | j
      · exact h2
      · cases j <;> first | exact h1 | exact h2
  · rintro ⟨h1, h2⟩
    obtain ⟨more, -, m2, m3⟩ := free_lost hs _ y rfl hrel.sound h1
    have hr := m3 i req hi
    have hl := (List.getElem?_eq_some_iff.1 hr).1
    generalize hY : y.run sv more = Y at m2 hr hl
    have hstart : Y.step sv (.start i) = { Y with jobs := Y.jobs.set i (.running req []) } := by
      simp only [PSys.step, hr, m2, if_true]
    obtain ⟨m, j, -, -, e2, e3⟩ := run_mayEnd hs req hm i (requestProg sv.feat.urlVariables log req)
      (Y.step sv (.start i)) [] (by rw [hstart]; simp [hl]) (Prog.after_nil _) h2
    refine ⟨more ++ (.start i :: m), ?_⟩
    rw [PSys.run_append, hY]
    have : Y.run sv (.start i :: m) = (Y.step sv (.start i)).run sv m := rfl
    rw [this, e2, hstart]
    simp only [List.set_set]
    rw [List.getElem?_set_self hl]
    rcases e3 with ⟨_, _, rfl⟩ | rfl <;> trivial

namespace StallExample
open ParallelExample

/-- a handler that reads the shared state and returns only if it is 1 -/
def waits : PClosure Nat := fun _ _ => .act id fun n => if n = 1 then .ret (said 0, .stop) else .hang

theorem prog (uv : Bool) : requestProg uv [⟨.everywhere, waits⟩] req =
    .act id fun n => if n = 1 then .ret (.sent (said 0)) else .hang := by
  unfold requestProg
  rw [validate]
  simp only [chain, Target.applies, waits, Prog.bind]
  refine congrArg (Prog.act id) (funext fun n => ?_)
  by_cases h : n = 1
  · subst h; rfl
  · simp only [if_neg h]; rfl

/-- One thread, held by a request that has not yet read the state: the second request can still be answered, although
the first one might not return. -/
example : ∃ more, Settled (((PSys.start 0 1).run (server waits) [.arrive req, .arrive req, .start 0]).run
    (server waits) more).jobs[1]? := by
  refine (C85_iff (server waits) _ (setUp waits) 0 1 [.arrive req, .arrive req, .start 0] (by
    intro r hr; simp at hr; subst hr; decide) 1 req rfl).2 ⟨?_, ?_⟩
  · have : ((PSys.start 0 1).run (server waits) [.arrive req, .arrive req, .start 0]).jobs =
        [.running req [], .ready req] := rfl
    rw [this]
    have h : Lost (server waits) [⟨.everywhere, waits⟩] (.running req []) = false := by
      simp only [Lost, decide_eq_false_iff_not, Classical.not_not]
      rw [prog]
      exact ⟨1, trivial⟩
    have h' : Lost (server waits) [⟨.everywhere, waits⟩] (.ready req) = false := rfl
    simp [List.countP_cons, h, h']
  · rw [prog]
    exact ⟨1, trivial⟩

/-- Once the first request has read 0 it cannot. -/
example : ¬ ∃ more, Settled (((PSys.start 0 1).run (server waits) [.arrive req, .arrive req, .start 0, .access 0]).run
    (server waits) more).jobs[1]? := by
  rw [C85_iff (server waits) _ (setUp waits) 0 1 [.arrive req, .arrive req, .start 0, .access 0] (by
    intro r hr; simp at hr; subst hr; decide) 1 req rfl]
  rintro ⟨h, -⟩
  have e : ((PSys.start 0 1).run (server waits) [.arrive req, .arrive req, .start 0, .access 0]).jobs =
      [.running req [0], .ready req] := rfl
  rw [e] at h
  have hl : Lost (server waits) [⟨.everywhere, waits⟩] (.running req [0]) = true := by
    simp only [Lost, decide_eq_true_eq]
    rw [prog]
    exact fun h => h
  simp [List.countP_cons, hl] at h

end StallExample
end Octane
