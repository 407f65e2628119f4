import Verif.Proof.StallProcess
import Verif.Props.Stall
import Verif.Props.Process
import Verif.Props.Files
import Verif.Props.InProcess
/-
C105, exactly: when a connection that waits for a thread can still come to its end.
-/
namespace Octane
open Spec
universe u

/-- C105, exactly: in every state the process can be in, a connection that waits for a thread, and whose client does
not keep the server waiting, can still come to its end (by some events, new connections and other changes of the
shared state among them) if and only if fewer connections than there are threads are held by handlers that cannot
come to an end any more whatever happens and, if its request has not been handled yet, its own handlers can come to
an end. -/
theorem C105_iff {W : Type u} (sv : PServer W) (log : List (PReg W)) (hs : SetUp sv log) (w0 : W) (workers : Nat)
    (tlsFeature tlsOk plainOk : Bool) (evs : List (Happening W)) :
    let y := (Process.start w0 workers tlsFeature tlsOk plainOk).run sv (fun _ => true) evs
    y.dead = false →
    ∀ (i : Nat) (tls : Bool) (s : Sock) (c : PConn W),
      (taken plainOk (tlsFeature && tlsOk) evs)[i]? = some (tls, s) → y.conns[i]? = some c → Awaits c.task →
      Sent sv.feat.faithful sv.feat.cookies s →
      ((∃ (more : List (Happening W)) (c' : PConn W),
          (y.run sv (fun _ => true) more).conns[i]? = some c' ∧ EndedTask c'.task) ↔
        y.conns.countP (LostConn sv log) < workers ∧
          ∀ r req, c.task = .reading r → Reads sv.feat (fun _ => true) s req →
            (requestProg sv.feat.urlVariables log req).MayEnd) := by
  intro y hd i tls s c hi hc hb hsent
  obtain ⟨pevs, order, h1, -, h3⟩ := process_run hs w0 workers tlsFeature tlsOk plainOk evs hd
  have hy : SoundP sv log y := h1.sound h3
  have hw : y.workers = workers := Process.run_workers evs _
  obtain ⟨s0, g1, g2⟩ := h1.conns i c hc
  rw [hi] at g1
  simp only [Option.some.injEq, Prod.mk.injEq] at g1
  obtain ⟨-, rfl⟩ := g1
  rw [lostC_count hy, ← hw]
  constructor
  · rintro ⟨more, c', hc', hend⟩
    constructor
    · apply Classical.byContradiction
      intro hcon
      have hbusy : c.task.busy = false := by
        cases ht : c.task <;> rw [ht] at hb <;> first | rfl | exact hb.elim
      rw [lostC_run hs more (by omega) i c hc hbusy] at hc'
      injection hc' with hc'
      subst hc'
      cases ht : c.task <;> rw [ht] at hb hend <;> first | exact hb.elim | exact hend.elim
    · intro r req ht hr
      apply Classical.byContradiction
      intro hcon
      rw [ht] at g2
      obtain ⟨-, hok, hrest⟩ := g2
      have hread := readRest_of_reads hr
      obtain ⟨c2, e1, e2⟩ := doomedConn_run (allocOk := fun _ => true) hs more (y := y) (i := i) ⟨c, hc, by
        simp only [DoomedConn, ht]
        exact ⟨hok, req, hrest.trans hread, Received.method (readRest_received hread), hcon⟩⟩
      rw [hc'] at e1
      injection e1 with e1
      subst e1
      unfold DoomedConn at e2
      cases ht : c'.task <;> rw [ht] at hend e2 <;> first | exact hend.elim | exact e2.elim
  · rintro ⟨hh, hends⟩
    cases ht : c.task with
    | reading r =>
      rw [ht] at g2
      obtain ⟨-, hok, hrest⟩ := g2
      refine reading_mayEnd hs _ y i c r hd hy hh hc ht hok rfl ?_ ?_ ?_
      · rw [hrest]
        rcases hsent with hf | ⟨q, n, hq, hn⟩
        · exact readRest_closed hf
        · rcases readRest_asked (allocOk := fun _ => true) hq (by simp only [i64Max]; omega) with e | ⟨req, e⟩ <;> rw [e] <;>
            exact fun h => by cases h
      · rw [hrest]; exact readRest_abort fun _ => rfl
      · intro req hreq
        rw [hrest] at hreq
        exact ⟨Received.method (readRest_received hreq), hends r req ht (readRest_reads hreq)⟩
    | writing sent rest => exact writing_mayEnd hs y hd hy hh hc ht
    | _ => rw [ht] at hb; exact hb.elim

namespace StallExample
open ParallelExample ProcessExample

theorem validateP : Http.validate reqP = .ok ⟨none, .close⟩ := by decide

/-- the same for the request of a client -/
theorem progP (uv : Bool) : requestProg uv [⟨.everywhere, waits⟩] reqP =
    .act id fun n => if n = 1 then .ret (.sent (said 0)) else .hang := by
  unfold requestProg
  rw [validateP]
  simp only [chain, Target.applies, waits, Prog.bind]
  refine congrArg (Prog.act id) (funext fun n => ?_)
  by_cases h : n = 1
  · subst h; rfl
  · simp only [if_neg h]; rfl

theorem readsP : Reads .default (fun _ => true) asksP reqP := readRest_reads readP

/-- two clients on one thread; the first one is being handled -/
def begun : List (Happening Nat) := [.connect false asksP, .connect false asksP, .poll 0]

theorem begun_run : (Process.start 0 1 false false true).run (server waits) (fun _ => true) begun =
    ⟨0, 1, .listening, .off, [⟨false, .handling reqP [], ⟨[], .eof⟩⟩, ⟨false, .reading (.head []), asksP⟩], false⟩ := by
  have hfeat : (server waits).feat = .default := rfl
  simp [begun, Process.run, Process.step, Process.start, Process.listener, Process.free, PTask.busy, hfeat, turnP, Process.put]

/-- The first client's handler has not yet read the state: the second client can still be answered. -/
example : ∃ (more : List (Happening Nat)) (c' : PConn Nat),
    (((Process.start 0 1 false false true).run (server waits) (fun _ => true) begun).run (server waits)
      (fun _ => true) more).conns[1]? = some c' ∧ EndedTask c'.task := by
  refine (C105_iff (server waits) _ (setUp waits) 0 1 false false true begun (by rw [begun_run]) 1 false asksP
    ⟨false, .reading (.head []), asksP⟩ rfl (by rw [begun_run]; rfl) trivial (.inl (by simp [asksP]))).2 ⟨?_, ?_⟩
  · rw [begun_run]
    have h : LostConn (server waits) [⟨.everywhere, waits⟩] ⟨false, .handling reqP [], ⟨[], .eof⟩⟩ = false := by
      simp only [LostConn, decide_eq_false_iff_not, Classical.not_not]
      rw [progP]
      exact ⟨1, trivial⟩
    have h' : LostConn (server waits) [⟨.everywhere, waits⟩] ⟨false, .reading (.head []), asksP⟩ = false := rfl
    simp [h, h']
  · intro r q _ hq
    rw [hq.unique readsP, progP]
    exact ⟨1, trivial⟩

/-- Once it has read 0, the second client is never answered. -/
example : ¬ ∃ (more : List (Happening Nat)) (c' : PConn Nat),
    (((Process.start 0 1 false false true).run (server waits) (fun _ => true) (begun ++ [.access 0])).run (server waits)
      (fun _ => true) more).conns[1]? = some c' ∧ EndedTask c'.task := by
  have hrun : (Process.start 0 1 false false true).run (server waits) (fun _ => true) (begun ++ [.access 0]) =
      ⟨0, 1, .listening, .off, [⟨false, .handling reqP [0], ⟨[], .eof⟩⟩, ⟨false, .reading (.head []), asksP⟩], false⟩ := by
    rw [Process.run_append, begun_run]
    rfl
  intro hex
  obtain ⟨h, -⟩ := (C105_iff (server waits) _ (setUp waits) 0 1 false false true (begun ++ [.access 0]) (by rw [hrun]) 1
    false asksP ⟨false, .reading (.head []), asksP⟩ rfl (by rw [hrun]; rfl) trivial (.inl (by simp [asksP]))).1 hex
  rw [hrun] at h
  have hl : LostConn (server waits) [⟨.everywhere, waits⟩] ⟨false, .handling reqP [0], ⟨[], .eof⟩⟩ = true := by
    simp only [LostConn, decide_eq_true_eq]
    rw [progP]
    exact fun h => h
  simp [List.countP_cons, hl] at h

end StallExample
end Octane
