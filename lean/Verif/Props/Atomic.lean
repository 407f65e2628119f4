import Verif.Proof.Atomic
import Verif.Props.Process
/-
C104: the model of all connections in which the handlers of a request are one step is a special case of the model
of the whole process.
-/
namespace Octane
open Spec
universe u
variable {W : Type u}

/-- Every execution of `Model/Listen.lean` is one of `Model/Process.lean` in which the handlers are not
interrupted: the same connections are accepted and stand at the same place, the shared state and the listeners
are the same. The handlers registered are the same, as programs or as one step each, and return. (Where handlers
panic, `Model/Listen.lean` leaves what they did to the shared state to other events; so it is taken back by
one.) -/
theorem C104_atomic (sv : PServer W) (log : List (PReg W)) (hs : SetUp sv log) (sv' : Server W)
    (hfeat : sv'.feat = sv.feat) (hU : sv'.U = sv.U) (hord : sv'.ord = sv.ord) (hclock : sv'.clock = sv.clock)
    (calls : List (Call (W × Response))) (hf : FairL calls) (hn : (logOfL calls).length < 2 ^ 64)
    (hlog : logOfL calls = log.map PReg.whole) (hr : execL Router.new calls = .ok sv'.router)
    (hends : ∀ req, (requestProg sv.feat.urlVariables log req).Ends) (w0 : W) (workers : Nat) (hw : 1 ≤ workers)
    (tlsFeature tlsOk plainOk : Bool) (evs : List (Octane.Event W)) :
    ∃ evs' : List (Happening W),
      (Process.start w0 workers tlsFeature tlsOk plainOk).run sv sv'.allocOk evs' =
        Sys.inProcess workers ((Sys.start w0 tlsFeature tlsOk plainOk).run sv' evs) ∧
      taken plainOk (tlsFeature && tlsOk) evs' = accepted plainOk (tlsFeature && tlsOk) evs := by
  have key : ∀ l : List (Octane.Event W), ∃ evs' : List (Happening W),
      (Process.start w0 workers tlsFeature tlsOk plainOk).run sv sv'.allocOk evs' =
        Sys.inProcess workers ((Sys.start w0 tlsFeature tlsOk plainOk).run sv' l.reverse) ∧
      evs'.filterMap Happening.arrival? = l.reverse.filterMap arrivalOf := by
    intro l
    induction l with
    | nil => exact ⟨[], rfl, rfl⟩
    | cons e l ih =>
      obtain ⟨evs', h1, h2⟩ := ih
      rw [List.reverse_cons, List.filterMap_append]
      have hrun : (Sys.start w0 tlsFeature tlsOk plainOk).run sv' (l.reverse ++ [e]) =
          ((Sys.start w0 tlsFeature tlsOk plainOk).run sv' l.reverse).step sv' e := by
        simp [Sys.run]
      rw [hrun]
      generalize hy : (Sys.start w0 tlsFeature tlsOk plainOk).run sv' l.reverse = y at h1 ⊢
      -- enough: events that lead on
      suffices hsuf : ∃ more : List (Happening W), (Sys.inProcess workers y).run sv sv'.allocOk more =
          Sys.inProcess workers (y.step sv' e) ∧ more.filterMap Happening.arrival? = [e].filterMap arrivalOf by
        obtain ⟨more, m1, m2⟩ := hsuf
        exact ⟨evs' ++ more, by rw [Process.run_append, h1, m1], by rw [List.filterMap_append, h2, m2]⟩
      cases hd : y.dead with
      | true =>
        have hy' : y.step sv' e = y := by simp [Sys.step, hd]
        rw [hy']
        refine ⟨[eventInProcess e], ?_, by cases e <;> rfl⟩
        exact Process.run_dead _ hd _
      | false =>
        have hget : ∀ i : Nat, (Sys.inProcess workers y).conns[i]? = (y.conns[i]?).map Conn.inProcess := by
          intro i; simp [Sys.inProcess]
        have hidle : (Sys.inProcess workers y).conns.countP (·.task.busy) = 0 := by
          rw [List.countP_eq_zero]
          intro c hc
          simp only [Sys.inProcess, List.mem_map] at hc
          obtain ⟨c0, -, rfl⟩ := hc
          obtain ⟨a, t, s⟩ := c0
          cases t <;> simp [Conn.inProcess, Task.inProcess, PTask.busy]
        have hfree : (Sys.inProcess workers y).free = true := by
          unfold Process.free
          rw [hidle]
          exact decide_eq_true hw
        have hdead : (Sys.inProcess workers y).dead = false := hd
        have hput : ∀ (w : W) (i : Nat) (c : Conn) (t : Task) (s : Sock),
            (Sys.inProcess workers y).put w i (Conn.inProcess c) (Task.inProcess t) s =
              Sys.inProcess workers { y with world := w, conns := y.conns.set i { c with task := t, sock := s } } := by
          intro w i c t s
          simp [Process.put, Sys.inProcess, List.map_set, Conn.inProcess]
        cases e with
        | connect tls s =>
          refine ⟨[.connect tls s], ?_, rfl⟩
          simp only [Process.run, List.foldl_cons, List.foldl_nil, Process.step, Sys.step, hdead, hd, Bool.false_eq_true, if_false]
          have hl : (Sys.inProcess workers y).listener tls = y.listener tls := rfl
          rw [hl]
          split
          · cases tls <;> simp [Sys.inProcess, Conn.inProcess, Task.inProcess]
          · rfl
        | acceptErr tls =>
          refine ⟨[.acceptErr tls], ?_, rfl⟩
          simp only [Process.run, List.foldl_cons, List.foldl_nil, Process.step, Sys.step, hdead, hd, Bool.false_eq_true, if_false]
          have hl : (Sys.inProcess workers y).listener tls = y.listener tls := rfl
          rw [hl]
          split
          · cases tls <;> simp [Sys.inProcess]
          · rfl
        | env f =>
          refine ⟨[.env f], ?_, rfl⟩
          simp only [Process.run, List.foldl_cons, List.foldl_nil, Process.step, Sys.step, hdead, hd, Bool.false_eq_true, if_false]
          rfl
        | exit =>
          refine ⟨[.exit], ?_, rfl⟩
          simp only [Process.run, List.foldl_cons, List.foldl_nil, Process.step, Sys.step, hdead, hd, Bool.false_eq_true, if_false]
          have hl : (Sys.inProcess workers y).plain = y.plain := rfl
          rw [hl]
          split <;> rfl
        | handshake i ok =>
          refine ⟨[.handshake i ok], ?_, rfl⟩
          simp only [Process.run, List.foldl_cons, List.foldl_nil, Process.step, Sys.step, hdead, hd, Bool.false_eq_true, if_false,
            hget, hfree, if_true]
          cases y.conns[i]? with
          | none => rfl
          | some c =>
            have ht : (Conn.inProcess c : PConn W).task.handshakeStep ok = Task.inProcess (Sys.handshakeStep ok c.task) := by
              obtain ⟨a, t, s⟩ := c
              cases t <;> cases ok <;> rfl
            simp only [Option.map_some, ht]
            exact hput y.world i c _ c.sock
        | write i n =>
          refine ⟨[.write i n], ?_, rfl⟩
          simp only [Process.run, List.foldl_cons, List.foldl_nil, Process.step, Sys.step, hdead, hd, Bool.false_eq_true, if_false,
            hget, hfree, if_true]
          cases y.conns[i]? with
          | none => rfl
          | some c =>
            have ht : (Conn.inProcess c : PConn W).task.writeStep n = Task.inProcess (Sys.writeStep n c.task) := by
              obtain ⟨a, t, s⟩ := c
              cases t <;> simp only [Conn.inProcess, Task.inProcess, PTask.writeStep, Sys.writeStep]
              split <;> rfl
            simp only [Option.map_some, ht]
            exact hput y.world i c _ c.sock
        | writeErr i =>
          refine ⟨[.writeErr i], ?_, rfl⟩
          simp only [Process.run, List.foldl_cons, List.foldl_nil, Process.step, Sys.step, hdead, hd, Bool.false_eq_true, if_false,
            hget, hfree, if_true]
          cases y.conns[i]? with
          | none => rfl
          | some c =>
            have ht : (Conn.inProcess c : PConn W).task.writeFail = Task.inProcess (Sys.writeFail c.task) := by
              obtain ⟨a, t, s⟩ := c
              cases t <;> rfl
            simp only [Option.map_some, ht]
            exact hput y.world i c _ c.sock
        | poll i =>
          cases hc : y.conns[i]? with
          | none => exact ⟨[], by simp [Process.run, Sys.step, hd, hc], rfl⟩
          | some c =>
            have hsame : ∀ (h : sv'.poll y.world c.task c.sock = some (y.world, c.task, c.sock)),
                y.step sv' (.poll i) = y := by
              intro h
              simp only [Sys.step]
              rw [if_neg (by rw [hd]; exact Bool.false_ne_true), hc]
              simp only [h]
              rw [set_same hc]
            have hpc : (Sys.inProcess workers y).conns[i]? = some (Conn.inProcess c) := by rw [hget, hc]; rfl
            -- a task that reads
            have hreading : ∀ r, c.task = Reading.task r → ∃ more : List (Happening W),
                (Sys.inProcess workers y).run sv sv'.allocOk more = Sys.inProcess workers (y.step sv' (.poll i)) ∧
                more.filterMap Happening.arrival? = [] := by
              intro r hr'
              have hct : (Conn.inProcess c : PConn W).task = .reading r := by
                simp only [Conn.inProcess, hr']
                cases r <;> rfl
              have hcs : (Conn.inProcess c : PConn W).sock = c.sock := rfl
              have hstep : y.step sv' (.poll i) = match settle sv' y.world (r.turn sv.feat sv'.allocOk c.sock) with
                  | some (w', t', s') => { y with world := w', conns := y.conns.set i ⟨c.tls, t', s'⟩ }
                  | none => { y with dead := true } := by
                simp only [Sys.step]
                rw [if_neg (by rw [hd]; exact Bool.false_ne_true), hc]
                simp only
                rw [hr', poll_turn, hfeat]
                cases settle sv' y.world (r.turn sv.feat sv'.allocOk c.sock) <;> rfl
              have hone : (Sys.inProcess workers y).step sv sv'.allocOk (.poll i) =
                  match r.turn sv.feat sv'.allocOk c.sock with
                  | .waits r' s' => (Sys.inProcess workers y).put y.world i (Conn.inProcess c) (.reading r') s'
                  | .request req s' => (Sys.inProcess workers y).put y.world i (Conn.inProcess c) (.handling req []) s'
                  | .bad s' => (Sys.inProcess workers y).put y.world i (Conn.inProcess c)
                      (.respond (sv.write y.world (.page .badRequest))) s'
                  | .panicked s' => (Sys.inProcess workers y).put y.world i (Conn.inProcess c) .panicked s'
                  | .abort => { Sys.inProcess workers y with dead := true } := by
                simp only [Process.step, hdead, Bool.false_eq_true, if_false, hpc, hct, hfree, if_true, hcs]
                rfl
              have hrt : ∀ r : Reading, (Task.inProcess (Reading.task r) : PTask W) = .reading r := by
                intro r; cases r <;> rfl
              rw [hstep]
              have hbadpage : sv'.declareError y.world .badRequest =
                  (sv.write y.world (.page .badRequest)).bind fun bs => .ok (y.world, bs) := by
                simp only [Server.declareError, PServer.write, hfeat, hU, hord, hclock]
              cases hturn : r.turn sv.feat sv'.allocOk c.sock with
              | waits r' s' =>
                refine ⟨[.poll i], ?_, rfl⟩
                simp only [Process.run, List.foldl_cons, List.foldl_nil, hone, hturn, settle]
                rw [← hrt]
                exact hput _ _ _ _ _
              | panicked s' =>
                refine ⟨[.poll i], ?_, rfl⟩
                simp only [Process.run, List.foldl_cons, List.foldl_nil, hone, hturn, settle]
                exact hput _ _ _ .panicked _
              | abort =>
                refine ⟨[.poll i], ?_, rfl⟩
                simp only [Process.run, List.foldl_cons, List.foldl_nil, hone, hturn, settle]
                rfl
              | bad s' =>
                refine ⟨[.poll i], ?_, rfl⟩
                simp only [Process.run, List.foldl_cons, List.foldl_nil, hone, hturn, settle, hbadpage]
                cases sv.write y.world (.page .badRequest) with
                | ok bs => exact hput _ _ _ (.writing [] bs) _
                | panic => exact hput _ _ _ .panicked _
              | request req s' =>
                -- the method of a request that was read
                have hm : req.requestLine.method ≠ .all := by
                  obtain ⟨pevs, order, g1, -, -⟩ := process_run (allocOk := sv'.allocOk) hs w0 workers tlsFeature tlsOk
                    plainOk evs' (by rw [h1]; exact hd)
                  rw [h1] at g1
                  obtain ⟨s0, -, hat⟩ := g1.conns i _ hpc
                  rw [hct] at hat
                  have hspec := turn_spec sv.feat sv'.allocOk r c.sock hat.2.1
                  rw [hturn] at hspec
                  have hspec' : readRest sv.feat sv'.allocOk c.sock r = .ok (some req) := hspec
                  rw [← hcs, hat.2.2] at hspec'
                  exact Received.method (readRest_received hspec')
                have hx : ((Sys.inProcess workers y).put y.world i (Conn.inProcess c) (.handling req []) s').conns[i]? =
                    some ⟨c.tls, .handling req [], s'⟩ := Process.put_get hpc _ _ _
                obtain ⟨more, m1, m2⟩ := handling_whole (sv := sv) (allocOk := sv'.allocOk) hs i
                  (requestProg sv.feat.urlVariables log req)
                  ((Sys.inProcess workers y).put y.world i (Conn.inProcess c) (.handling req []) s')
                  ⟨c.tls, .handling req [], s'⟩ req [] hd hx rfl hm (Prog.after_nil _) (hends req)
                have hrunr : ∀ s, Router.run sv.feat.urlVariables sv'.router req s =
                    replay sv.feat.urlVariables req (log.map PReg.whole) s := by
                  obtain ⟨r, e1, e2⟩ := Router.run_is_replay calls hf hn
                  rw [hr] at e1
                  injection e1 with e1
                  intro s
                  rw [e1, e2 _ req s hm, hlog]
                have hhandle := handle_whole sv log sv' req y.world hfeat hU hord hclock hrunr
                have hrun1 : ∀ rest, (Sys.inProcess workers y).run sv sv'.allocOk (.poll i :: more ++ rest) =
                    ((((Sys.inProcess workers y).put y.world i (Conn.inProcess c) (.handling req []) s').run sv sv'.allocOk
                      more).run sv sv'.allocOk rest) := by
                  intro rest
                  rw [List.cons_append, Process.run_cons, hone, hturn, Process.run_append]
                have hmore : more.filterMap Happening.arrival? = [] := by
                  rw [List.filterMap_eq_nil_iff]
                  intro e he
                  rcases m1 e he with rfl | rfl <;> rfl
                have hworld : ((Sys.inProcess workers y).put y.world i (Conn.inProcess c) (.handling req []) s').world =
                    y.world := rfl
                rw [hworld] at m2
                have hpp : ∀ (w : W) (t : Task),
                    ((Sys.inProcess workers y).put y.world i (Conn.inProcess c) (.handling req []) s').put w i
                      ⟨c.tls, .handling req [], s'⟩ (Task.inProcess t) s' =
                    Sys.inProcess workers { y with world := w, conns := y.conns.set i ⟨c.tls, t, s'⟩ } := by
                  intro w t
                  rw [← hput]
                  simp [Process.put, Conn.inProcess]
                -- after a panic
                have hpanic : ∀ w t, ((Sys.inProcess workers y).put y.world i (Conn.inProcess c) (.handling req []) s').run sv
                      sv'.allocOk more = ((Sys.inProcess workers y).put y.world i (Conn.inProcess c) (.handling req []) s').put
                        w i ⟨c.tls, .handling req [], s'⟩ (Task.inProcess t) s' →
                    (Sys.inProcess workers y).run sv sv'.allocOk (.poll i :: more ++ [.env fun _ => y.world]) =
                      Sys.inProcess workers { y with conns := y.conns.set i ⟨c.tls, t, s'⟩ } := by
                  intro w t h
                  rw [hrun1, h, hpp]
                  simp only [Process.run, List.foldl_cons, List.foldl_nil, Process.step]
                  have : (Sys.inProcess workers { y with world := w, conns := y.conns.set i ⟨c.tls, t, s'⟩ }).dead = false := hd
                  rw [if_neg (by rw [this]; exact Bool.false_ne_true)]
                  rfl
                simp only [settle]
                rw [hhandle]
                cases hat : (requestProg sv.feat.urlVariables log req).atomically y.world with
                | mk w o =>
                  rw [hat] at m2
                  cases o with
                  | ret rep =>
                    simp only at m2 ⊢
                    cases hwr : sv.write w rep with
                    | ok bs =>
                      rw [hwr] at m2
                      refine ⟨.poll i :: more, ?_, by rw [List.filterMap_cons]; exact hmore⟩
                      have := hrun1 []
                      rw [List.append_nil] at this
                      rw [this, m2]
                      exact hpp w (.writing [] bs)
                    | panic =>
                      rw [hwr] at m2
                      refine ⟨.poll i :: more ++ [.env fun _ => y.world], ?_, by
                        rw [List.cons_append, List.filterMap_cons, List.filterMap_append, hmore]; rfl⟩
                      exact hpanic w .panicked m2
                  | panic =>
                    refine ⟨.poll i :: more ++ [.env fun _ => y.world], ?_, by
                        rw [List.cons_append, List.filterMap_cons, List.filterMap_append, hmore]; rfl⟩
                    exact hpanic w .panicked m2
                  | hang => exact absurd (by rw [hat]) ((hends req).atomically y.world)
            cases ht : c.task with
            | head data => exact hreading (.head data) ht
            | body a b d e => exact hreading (.body a b d e) ht
            | handshake => exact ⟨[], by rw [hsame (by rw [ht]; rfl)]; rfl, rfl⟩
            | writing a b => exact ⟨[], by rw [hsame (by rw [ht]; rfl)]; rfl, rfl⟩
            | finished a => exact ⟨[], by rw [hsame (by rw [ht]; rfl)]; rfl, rfl⟩
            | broken a => exact ⟨[], by rw [hsame (by rw [ht]; rfl)]; rfl, rfl⟩
            | panicked => exact ⟨[], by rw [hsame (by rw [ht]; rfl)]; rfl, rfl⟩
            | refused => exact ⟨[], by rw [hsame (by rw [ht]; rfl)]; rfl, rfl⟩
  obtain ⟨evs', h1, h2⟩ := key evs.reverse
  rw [List.reverse_reverse] at h1 h2
  exact ⟨evs', h1, taken_eq_accepted evs evs' h2 _ _⟩

namespace AtomicExample
open ParallelExample

/-- the counter as one step -/
def stepped : Closure (Nat × Response) := (PReg.whole ⟨.everywhere, fetchAdd⟩).handler

def server' : Server Nat :=
  { feat := .default, allocOk := fun _ => true, U := .asciiOnly, ord := MapOrder.id, clock := fun _ => 0,
    router := Router.add Router.new stepped }

/-- the hypotheses of `C104_atomic` -/
example : SetUp (server fetchAdd) [⟨.everywhere, fetchAdd⟩] ∧ FairL [Call.add stepped] ∧
    logOfL [Call.add stepped] = ([⟨.everywhere, fetchAdd⟩] : List (PReg Nat)).map PReg.whole ∧
    execL Router.new [Call.add stepped] = .ok server'.router ∧
    ∀ q : Request, (requestProg true [⟨.everywhere, fetchAdd⟩] q).Ends := by
  refine ⟨setUp fetchAdd, by simp [FairL, Fair], by simp [logOfL, logOf, stepped, PReg.whole], rfl, ?_⟩
  intro q
  unfold requestProg
  split
  · trivial
  · split
    · trivial
    · split
      · simp only [chain, Target.applies, if_true, fetchAdd]
        intro w
        trivial
      · trivial

end AtomicExample

end Octane
