import Verif.Proof.ProcessRun
import Verif.Props.Parallel
import Verif.Props.Whole
/-
C104: the whole process, from the bytes of all clients to all answers. C105: handlers that do not return and
the other connections.
-/
namespace Octane
open Spec
universe u

section
variable {W : Type u}

/-! ### C104 -/

/-- C104: whatever happens in whatever order, the process does to the shared state and answers its clients as
programs do that take turns: one program for every connection whose request has been read, none for the
others, and the program is the one of the request in the bytes of that connection. What a client is
sent is the outcome of its program, and the 400 page without a program if it sent no head. (`order` says which
connection the programs belong to; the process is taken before it ends or an allocation aborts it.) -/
theorem C104_process (sv : PServer W) (log : List (PReg W)) (hs : SetUp sv log) (allocOk : Nat → Bool) (w0 : W)
    (workers : Nat) (tlsFeature tlsOk plainOk : Bool) (evs : List (Happening W))
    (hd : ((Process.start w0 workers tlsFeature tlsOk plainOk).run sv allocOk evs).dead = false) :
    let y := (Process.start w0 workers tlsFeature tlsOk plainOk).run sv allocOk evs
    let clients := taken plainOk (tlsFeature && tlsOk) evs
    ∃ (pevs : List (PEvent W)) (order : List Nat),
      let z := SSys.run (requestProg sv.feat.urlVariables log) sv.write ⟨w0, workers, []⟩ pevs
      y.world = z.world ∧
      pevs.filterMap PEvent.env? = evs.filterMap Happening.env? ∧
      order.Nodup ∧ order.length = z.jobs.length ∧ order.length = (pevs.filterMap PEvent.arrive?).length ∧
      (∀ (j i : Nat), order[j]? = some i → ∃ tls s req, clients[i]? = some (tls, s) ∧
        (pevs.filterMap PEvent.arrive?)[j]? = some req ∧ Received sv.feat.faithful sv.feat.cookies s req) ∧
      y.conns.length = clients.length ∧
      ∀ (i : Nat) (c : PConn W), y.conns[i]? = some c → ∃ s, clients[i]? = some (c.tls, s) ∧
        StandsFor sv z order i s.bytes c.task := by
  intro y clients
  obtain ⟨pevs, order, h1, h2, h3⟩ := process_run hs w0 workers tlsFeature tlsOk plainOk evs hd
  refine ⟨pevs, order, h1.world.symm.trans h3.1, h2, h1.nodup, ?_, h1.arrived.symm, h1.reqs, h1.len.symm, ?_⟩
  · rw [← h1.jobs]; exact h3.2.2.length
  · intro i c hc
    obtain ⟨s, g1, g2⟩ := h1.conns i c hc
    exact ⟨s, g1, g2.stands hs h3⟩

/-- The request of a connection is determined by its bytes, but for what follows the declared length in the
body: one stream of bytes has one first request. When the bytes come in the same pieces, the whole body is
the same too. -/
theorem C104_one_request {faithful cookies : Bool} {s s' : Sock} {q : Asked} {n : Nat} {req req' : Request}
    (hs : s.bytes = s'.bytes) (hq : q.In faithful cookies s.bytes n)
    (h : Received faithful cookies s req) (h' : Received faithful cookies s' req') :
    req.requestLine = req'.requestLine ∧
    req.headers.raw.map (fun h => (h.name, h.value)) = req'.headers.raw.map (fun h => (h.name, h.value)) ∧
    (∀ k, req.headers.get k = req'.headers.get k) ∧
    req.body.take n = req'.body.take n ∧
    (s.segs = s'.segs → req.body = req'.body) := by
  obtain ⟨q1, n1, i1, w1, b1⟩ := h
  obtain ⟨q2, n2, i2, w2, b2⟩ := h'
  rw [← hs] at i2
  obtain ⟨rfl, rfl⟩ := C83_one_request hq i1
  obtain ⟨rfl, rfl⟩ := C83_one_request hq i2
  refine ⟨?_, w1.raw.trans w2.raw.symm, fun k => (w1.get k).trans (w2.get k).symm, ?_, ?_⟩
  · have e1 : req.requestLine.method = req'.requestLine.method := by
      rcases w1.method with a | ⟨a, a'⟩ <;> rcases w2.method with b | ⟨b, b'⟩
      · exact ((methodOf_spec _).1 _ a).symm.trans ((methodOf_spec _).1 _ b)
      · exact absurd a (b _)
      · exact absurd b (a _)
      · rw [a', b']
    have e2 : req.requestLine.version = req'.requestLine.version := by
      rcases w1.version with a | ⟨a, a'⟩ <;> rcases w2.version with b | ⟨b, b'⟩
      · exact ((versionOf_spec _).1 _ a).symm.trans ((versionOf_spec _).1 _ b)
      · exact absurd a (b _)
      · exact absurd b (a _)
      · rw [a', b']
    have e3 := w1.path.trans w2.path.symm
    cases hr : req.requestLine; cases hr' : req'.requestLine
    simp_all
  · have : ∀ r : Request, q.Was cookies n r → r.body.take n = q.after.take n := by
      intro r hr
      rcases hr.body with ⟨rfl, hb⟩ | ⟨-, k, hk, hb⟩
      · rw [hb]; simp
      · rw [hb, List.take_take, Nat.min_eq_left hk]
    rw [this _ w1, this _ w2]
  · intro he
    rw [← he] at b2
    exact b1.unique b2

/-- When the handlers of every request make at most one access to the shared state, there is an order of
the connections in which handling them one after the other, each as a whole, has the same effect: the
shared state is the same, and what every client is sent is what its request gave. -/
theorem C104_one_access (sv : PServer W) (log : List (PReg W)) (hs : SetUp sv log) (allocOk : Nat → Bool) (w0 : W)
    (workers : Nat) (tlsFeature tlsOk plainOk : Bool) (evs : List (Happening W))
    (hd : ((Process.start w0 workers tlsFeature tlsOk plainOk).run sv allocOk evs).dead = false)
    (hone : ∀ x ∈ taken plainOk (tlsFeature && tlsOk) evs, ∀ req,
      Received sv.feat.faithful sv.feat.cookies x.2 req → (requestProg sv.feat.urlVariables log req).AtMostOne) :
    let y := (Process.start w0 workers tlsFeature tlsOk plainOk).run sv allocOk evs
    let clients := taken plainOk (tlsFeature && tlsOk) evs
    ∃ items : List (Item W),
      items.filterMap Item.env? = evs.filterMap Happening.env? ∧
      (items.filterMap Item.job?).Nodup ∧
      (∀ i p, .job i p ∈ items → ∃ tls s req, clients[i]? = some (tls, s) ∧
        Received sv.feat.faithful sv.feat.cookies s req ∧ p = requestProg sv.feat.urlVariables log req) ∧
      y.world = (serially w0 items).1 ∧
      ∀ (i : Nat) (c : PConn W) (sent : Bytes), y.conns[i]? = some c → c.task = .finished sent →
        ∃ s, clients[i]? = some (c.tls, s) ∧
          ((∃ r w, (i, .ret r) ∈ (serially w0 items).2 ∧ sv.write w r = .ok sent) ∨
           (NoHead s.bytes ∧ ∃ w, sv.write w (.page .badRequest) = .ok sent)) := by
  intro y clients
  obtain ⟨pevs, order, h1, h2, h3⟩ := process_run hs w0 workers tlsFeature tlsOk plainOk evs hd
  have h0 : OneInv (requestProg sv.feat.urlVariables log) sv.write w0 [] [] ⟨w0, workers, []⟩ :=
    ⟨rfl, List.nodup_nil, by simp, rfl, by simp⟩
  obtain ⟨items, i1, i2⟩ := h0.run pevs (by
    intro req hreq
    rw [List.nil_append] at hreq
    obtain ⟨j, hj⟩ := List.getElem?_of_mem hreq
    have hjl := (List.getElem?_eq_some_iff.1 hj).1
    have hl := h1.arrived
    have ho : order[j]? = some (order[j]'(by omega)) := by simp
    obtain ⟨_, s, r, g1, g2, g3⟩ := h1.reqs j _ ho
    rw [hj] at g2
    injection g2 with g2
    rw [g2]
    exact hone _ (List.mem_of_getElem? g1) r g3)
  simp only [List.nil_append] at i1
  have hname : ∀ {j : Nat}, j ∈ items.filterMap Item.job? → ∃ i, order[j]? = some i := by
    intro j hj
    obtain ⟨x, x1, x2⟩ := List.mem_filterMap.1 hj
    cases x <;> simp only [Item.job?, Option.some.injEq, reduceCtorEq] at x2
    subst x2
    obtain ⟨req, q1, -⟩ := i1.progs _ _ x1
    have hjl := (List.getElem?_eq_some_iff.1 q1).1
    rw [h1.arrived] at hjl
    exact ⟨_, List.getElem?_eq_getElem hjl⟩
  refine ⟨items.map (Item.rename fun j => (order[j]?).getD 0), ?_, ?_, ?_, ?_, ?_⟩
  · rw [rename_env, i2, h2]
  · rw [rename_job]
    refine nodup_map_on i1.nodup ?_
    intro a ha b hb hab
    obtain ⟨x, hx⟩ := hname ha
    obtain ⟨x', hx'⟩ := hname hb
    simp only [hx, hx', Option.getD_some] at hab
    subst hab
    exact nodup_get h1.nodup hx hx'
  · intro i p hip
    obtain ⟨x, x1, x2⟩ := List.mem_map.1 hip
    cases x with
    | env f => cases x2
    | job j p' =>
      simp only [Item.rename, Item.job.injEq] at x2
      obtain ⟨x2, rfl⟩ := x2
      obtain ⟨k, hk⟩ := hname (List.mem_filterMap.2 ⟨_, x1, rfl⟩)
      obtain ⟨req, q1, q2⟩ := i1.progs _ _ x1
      rw [hk, Option.getD_some] at x2
      subst x2
      obtain ⟨tls, s, r, g1, g2, g3⟩ := h1.reqs j _ hk
      rw [q1] at g2
      injection g2 with g2
      subst g2
      exact ⟨tls, s, req, g1, g3, q2⟩
  · rw [serially_rename]
    exact h1.world.symm.trans (h3.1.trans i1.world)
  · intro i c sent hc ht
    obtain ⟨s, g1, g2⟩ := h1.conns i c hc
    have g3 := g2.stands hs h3
    rw [ht] at g3
    refine ⟨s, g1, ?_⟩
    rcases g3 with ⟨j, r, a, b⟩ | ⟨-, g4⟩
    · obtain ⟨w, hw⟩ := SSys.done_write _ _ pevs _ (by simp) j r sent b
      refine .inl ⟨r, w, ?_, hw⟩
      rw [serially_rename]
      refine List.mem_map.2 ⟨(j, .ret r), i1.jobs j _ b, ?_⟩
      simp [a]
    · exact .inr g4

end

/-! ### C105 -/

/-- The client of a connection does not keep the server waiting: it has closed its side, or a whole request has
come (of a length a vector can have). -/
def Spec.Sent (faithful cookies : Bool) (s : Sock) : Prop :=
  s.fin ≠ .silent ∨ ∃ q n, Asked.In faithful cookies s.bytes q n ∧ n ≤ 9223372036854775807

/-- The full claim of C105: a handler that does not return holds up only its own connection. From every state
the process can be in, every connection whose client has sent its request, and whose handlers return, can come
to its end by what the server does. -/
def C105_statement : Prop :=
  ∀ (W : Type) (sv : PServer W) (log : List (PReg W)), SetUp sv log → ∀ (w0 : W) (workers : Nat), 1 ≤ workers →
    ∀ (tlsFeature tlsOk plainOk : Bool) (evs : List (Happening W)),
    let y := (Process.start w0 workers tlsFeature tlsOk plainOk).run sv (fun _ => true) evs
    y.dead = false →
    ∀ (i : Nat) (tls : Bool) (s : Sock) (c : PConn W),
      (taken plainOk (tlsFeature && tlsOk) evs)[i]? = some (tls, s) → y.conns[i]? = some c → Begun c.task →
      Sent sv.feat.faithful sv.feat.cookies s →
      (∀ req, Received sv.feat.faithful sv.feat.cookies s req →
        (requestProg sv.feat.urlVariables log req).Ends) →
      ∃ more : List (Happening W), (∀ e ∈ more, Happening.Internal e) ∧
        ∃ c', (y.run sv (fun _ => true) more).conns[i]? = some c' ∧ EndedTask c'.task

section
variable {W : Type u}

/-- It holds as long as fewer connections are being handled whose handlers might not return than the runtime
has threads. What is missing: as many such connections as threads, see `C105_stalled`. -/
theorem C105_others_partial (sv : PServer W) (log : List (PReg W)) (hs : SetUp sv log) (w0 : W) (workers : Nat)
    (tlsFeature tlsOk plainOk : Bool) (evs : List (Happening W)) :
    let y := (Process.start w0 workers tlsFeature tlsOk plainOk).run sv (fun _ => true) evs
    y.dead = false → y.conns.countP (MayHangConn sv log) < y.workers →
    ∀ (i : Nat) (tls : Bool) (s : Sock) (c : PConn W),
      (taken plainOk (tlsFeature && tlsOk) evs)[i]? = some (tls, s) → y.conns[i]? = some c → Begun c.task →
      Sent sv.feat.faithful sv.feat.cookies s →
      (∀ req, Received sv.feat.faithful sv.feat.cookies s req →
        (requestProg sv.feat.urlVariables log req).Ends) →
      ∃ more : List (Happening W), (∀ e ∈ more, Happening.Internal e) ∧
        ∃ c', (y.run sv (fun _ => true) more).conns[i]? = some c' ∧ EndedTask c'.task := by
  intro y hd hh i tls s c hi hc hb hsent hends
  obtain ⟨pevs, order, h1, -, h3⟩ := process_run hs w0 workers tlsFeature tlsOk plainOk evs hd
  have hy : SoundP sv log y := h1.sound h3
  obtain ⟨s0, g1, g2⟩ := h1.conns i c hc
  rw [hi] at g1
  simp only [Option.some.injEq, Prod.mk.injEq] at g1
  obtain ⟨-, rfl⟩ := g1
  cases ht : c.task with
  | handshake => rw [ht] at hb; exact hb.elim
  | reading r =>
    rw [ht] at g2
    obtain ⟨-, hok, hrest⟩ := g2
    refine reading_done hs _ y i c r hd hy hh hc ht hok rfl ?_ ?_ ?_
    · rw [hrest]
      rcases hsent with hf | ⟨q, n, hq, hn⟩
      · exact readRest_closed hf
      · rcases readRest_asked (allocOk := fun _ => true) hq (by simp only [i64Max]; omega) with e | ⟨req, e⟩ <;> rw [e] <;>
          exact fun h => by cases h
    · rw [hrest]; exact readRest_abort fun _ => rfl
    · intro req hreq
      rw [hrest] at hreq
      exact ⟨Received.method (readRest_received hreq), hends req (readRest_received hreq)⟩
  | handling req reads =>
    rw [ht] at g2
    exact handling_done hs y hd hy hh hc ht (hends req g2.1)
  | writing sent rest => exact writing_ends hs y hd hy hh hc ht
  | finished sent => exact ⟨[], by simp, c, hc, by rw [ht]; trivial⟩
  | broken sent => exact ⟨[], by simp, c, hc, by rw [ht]; trivial⟩
  | panicked => exact ⟨[], by simp, c, hc, by rw [ht]; trivial⟩
  | refused => exact ⟨[], by simp, c, hc, by rw [ht]; trivial⟩

/-- When as many connections are handled by handlers that do not return as there are threads, nothing is ever
done again on any connection that is not being handled: no request is read, no handshake is completed, and
no answer that is being written is continued, whatever happens. -/
theorem C105_stalled (sv : PServer W) (allocOk : Nat → Bool) (y : Process W)
    (h : y.workers ≤ y.conns.countP (StuckConn sv)) (i : Nat) (c : PConn W) (hc : y.conns[i]? = some c)
    (ht : ∀ req reads, c.task ≠ .handling req reads) (evs : List (Happening W)) :
    (y.run sv allocOk evs).conns[i]? = some c := by
  refine stuck_run evs h i c hc ?_
  cases hx : c.task <;> first | rfl | exact absurd hx (ht _ _)

end

namespace ProcessExample
open ParallelExample

/-- a client that asks for `/h`, and one that asks for `/p` -/
def asksH : Sock := ⟨[utf8 c!"GET /h HTTP/1.0\r\nA: b\r\n\r\n"], .eof⟩
def asksP : Sock := ⟨[utf8 c!"GET /p HTTP/1.0\r\nA: b\r\n\r\n"], .eof⟩

/-- their requests -/
def reqP : Request := { req with headers := ⟨[(c!"a", c!"b")], [⟨c!"A", c!"b"⟩]⟩ }
def reqH : Request := { reqP with requestLine := { reqP.requestLine with path := [c!"h"] } }

theorem turnH : Reading.turn .default (fun _ => true) (.head []) asksH = .request reqH ⟨[], .eof⟩ := by decide +kernel

theorem turnP : Reading.turn .default (fun _ => true) (.head []) asksP = .request reqP ⟨[], .eof⟩ := by decide +kernel

theorem readP : readRest .default (fun _ => true) asksP (.head []) = .ok (some reqP) := by
  have := turn_spec .default (fun _ => true) (.head []) asksP trivial
  rw [turnP] at this
  exact this

theorem receivedP : Received true true asksP reqP := readRest_received readP

/-- every request that is made of the bytes is handled by a handler that returns -/
theorem endsP (uv : Bool) (q : Request) (h : q.requestLine = reqP.requestLine) :
    (requestProg uv [⟨.everywhere, sometimes⟩] q).Ends := by
  have hp : q.requestLine.path ≠ [c!"h"] := by rw [h]; decide
  unfold requestProg
  split
  · trivial
  · split
    · trivial
    · split
      · simp only [chain, Target.applies, if_true, sometimes, if_neg hp]
        trivial
      · trivial

theorem stageH : (server sometimes).stage reqH [] = .hangs := by rfl

/-- `n` clients that ask for `/h`, each until its handler has begun -/
def hold : Nat → List (Happening Nat)
  | 0 => []
  | n + 1 => hold n ++ [.connect false asksH, .poll n]

/-- their connection -/
def heldUp : PConn Nat := ⟨false, .handling reqH [], ⟨[], .eof⟩⟩

theorem hold_run (workers n : Nat) (h : n ≤ workers) :
    (Process.start 0 workers false false true).run (server sometimes) (fun _ => true) (hold n) =
      ⟨0, workers, .listening, .off, List.replicate n heldUp, false⟩ := by
  induction n with
  | zero => rfl
  | succ n ih =>
    rw [hold, Process.run_append, ih (by omega)]
    have hf : decide (n < workers) = true := decide_eq_true h
    have hc : (List.replicate n heldUp ++ [(⟨false, .reading (.head []), asksH⟩ : PConn Nat)]).countP (·.task.busy) = n := by
      simp [List.countP_append, List.countP_replicate, heldUp, PTask.busy]
    have hget : (List.replicate n heldUp ++ [(⟨false, .reading (.head []), asksH⟩ : PConn Nat)])[n]? =
        some ⟨false, .reading (.head []), asksH⟩ := by
      rw [List.getElem?_append_right (by simp)]; simp
    have hfeat : (server sometimes).feat = .default := rfl
    simp only [Process.run, List.foldl_cons, List.foldl_nil]
    have h1 : Process.step (server sometimes) (fun _ => true)
        ⟨0, workers, .listening, .off, List.replicate n heldUp, false⟩ (.connect false asksH) =
        ⟨0, workers, .listening, .off, List.replicate n heldUp ++ [⟨false, .reading (.head []), asksH⟩], false⟩ := by
      simp [Process.step, Process.listener]
    rw [h1]
    simp only [Process.step, Bool.false_eq_true, if_false, hget, Process.free, hc, hf, if_true, hfeat, turnH, Process.put]
    rw [List.set_append_right _ _ (by simp)]
    simp [List.replicate_succ', heldUp]

end ProcessExample

open ParallelExample ProcessExample in
/-- For every number of threads, that many requests to a handler that does not return stop the server: the
next client, whose request has come and whose handler would return, is never answered, whatever happens
afterwards. -/
theorem C105_stops (workers : Nat) :
    let y := (Process.start 0 workers false false true).run (server sometimes) (fun _ => true)
      (hold workers ++ [.connect false asksP])
    y.dead = false ∧ y.plain = .listening ∧
    SetUp (server sometimes) [⟨.everywhere, sometimes⟩] ∧
    (requestProg true [⟨.everywhere, sometimes⟩] reqP).Ends ∧
    ∀ evs, (y.run (server sometimes) (fun _ => true) evs).conns[workers]? =
      some ⟨false, .reading (.head []), asksP⟩ := by
  have hy : (Process.start 0 workers false false true).run (server sometimes) (fun _ => true)
      (hold workers ++ [.connect false asksP]) =
      ⟨0, workers, .listening, .off, List.replicate workers heldUp ++ [⟨false, .reading (.head []), asksP⟩], false⟩ := by
    rw [Process.run_append, hold_run workers workers (Nat.le_refl _)]
    simp [Process.run, Process.step, Process.listener]
  intro y
  have hy' : y = _ := hy
  rw [hy']
  refine ⟨rfl, rfl, setUp sometimes, trivial, ?_⟩
  intro evs
  refine C105_stalled _ _ _ ?_ workers _ ?_ ?_ evs
  · have : StuckConn (server sometimes) heldUp = true := by simp [StuckConn, heldUp, stageH]
    simp [List.countP_append, List.countP_replicate, this]
  · rw [List.getElem?_append_right (by simp)]; simp
  · intro q rs hq; cases hq

open ParallelExample ProcessExample in
/-- So C105 is false. -/
theorem C105_counterexample : ¬ C105_statement := by
  intro h
  obtain ⟨h1, -, h3, -, h5⟩ := C105_stops 1
  have hc : ((Process.start 0 1 false false true).run (server sometimes) (fun _ => true)
      (hold 1 ++ [.connect false asksP])).conns[1]? = some ⟨false, .reading (.head []), asksP⟩ := h5 []
  obtain ⟨more, -, c', e1, e2⟩ := h Nat (server sometimes) _ h3 0 1 (Nat.le_refl _) false false true
    (hold 1 ++ [.connect false asksP]) h1 1 false asksP ⟨false, .reading (.head []), asksP⟩ rfl hc trivial (.inl (by simp [asksP])) (by
      intro q hq
      exact endsP true q (by
        obtain ⟨q0, n0, h0, _⟩ := receivedP
        exact (C104_one_request rfl h0 hq receivedP).1))
  rw [h5 more] at e1
  injection e1 with e1
  subst e1
  exact e2

namespace ProcessExample
open ParallelExample

/-- two clients whose handlers run at the same time, the second one first -/
def both : List (Happening Nat) :=
  [.connect false asksH, .connect false asksP, .poll 1, .poll 0, .access 0, .env (· + 10), .access 1, .finish 0, .write 0 5]

/-- the hypotheses of `C104_process`: the process is alive, one client is being answered, the other handled -/
example : let y := (Process.start 0 2 false false true).run (server fetchAdd) (fun _ => true) both
    y.dead = false ∧ y.world = 12 ∧ y.conns.map (·.task.busy) = [false, true] := by
  refine ⟨rfl, rfl, rfl⟩

/-- the connections of it -/
example : taken true false both = [(false, asksH), (false, asksP)] := by rfl

/-- the hypothesis of `C104_one_access`, for every client and every request -/
example (q : Request) : (requestProg true [⟨.everywhere, fetchAdd⟩] q).AtMostOne := by
  unfold requestProg
  split
  · trivial
  · split
    · trivial
    · split
      · simp only [chain, Target.applies, if_true, fetchAdd]
        intro w u n
        simp [Prog.bind]
      · trivial

/-- the hypotheses of `C105_others_partial`: with two threads one is left -/
example :
    let y := (Process.start 0 2 false false true).run (server sometimes) (fun _ => true) (hold 1 ++ [.connect false asksP])
    y.dead = false ∧ y.conns.countP (MayHangConn (server sometimes) [⟨.everywhere, sometimes⟩]) < y.workers ∧
      Sent true true asksP ∧
      ∀ req, Received true true asksP req → (requestProg true [⟨.everywhere, sometimes⟩] req).Ends := by
  have hy : (Process.start 0 2 false false true).run (server sometimes) (fun _ => true) (hold 1 ++ [.connect false asksP]) =
      ⟨0, 2, .listening, .off, [heldUp, ⟨false, .reading (.head []), asksP⟩], false⟩ := by
    rw [Process.run_append, hold_run 2 1 (by omega)]
    simp [Process.run, Process.step, Process.listener]
  intro y
  have hy' : y = _ := hy
  rw [hy']
  refine ⟨rfl, ?_, .inl (by simp [asksP]), ?_⟩
  · have h1 : MayHangConn (server sometimes) [⟨.everywhere, sometimes⟩] (⟨false, .reading (.head []), asksP⟩ : PConn Nat) = false := rfl
    simp only [List.countP_cons, List.countP_nil, h1, Bool.false_eq_true, if_false]
    split <;> omega
  · intro q hq
    obtain ⟨q0, n0, h0, _⟩ := receivedP
    exact endsP true q (C104_one_request rfl h0 hq receivedP).1

end ProcessExample

end Octane
