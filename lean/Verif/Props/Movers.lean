import Verif.Proof.MoversProcess
import Verif.Props.Process
/-
C84, C104: requests that make several accesses, all but one of which can change places with what other requests do.
C157: requests whose accesses can all change places.
-/
namespace Octane
open Spec
universe u

section
variable {W : Type u}

/-! ### C84 -/

/-- C84 holds as well when of the accesses of every request all but one can change places with those of the others
and with the other changes of the shared state, at every moment at which no request is between two accesses.
(`C84_one_access_partial` is the case of one access, at any moment.) What is missing: requests with two accesses that
must not be moved, as in `C84_counterexample`; and the moments in between, see `C84_between`. -/
theorem C84_movers_partial (sv : PServer W) (log : List (PReg W)) (hs : SetUp sv log) (w0 : W) (workers : Nat)
    (evs : List (PEvent W)) (he : ∀ req, .arrive req ∈ evs → req.requestLine.method ≠ .all)
    (hfree : ∀ (i : Nat) req, (evs.filterMap PEvent.arrive?)[i]? = some req →
      (requestProg sv.feat.urlVariables log req).AllBut
        (Free (fun j p => ∃ r, (evs.filterMap PEvent.arrive?)[j]? = some r ∧ p = requestProg sv.feat.urlVariables log r)
          (evs.filterMap PEvent.env?) i) 1) :
    let y := (PSys.start w0 workers).run sv evs
    (∀ (i : Nat) req reads, y.jobs[i]? = some (.running req reads) → ∀ u, sv.stage req reads ≠ .wants u) →
    ∃ items : List (Item W),
      items.filterMap Item.env? = evs.filterMap PEvent.env? ∧
      (items.filterMap Item.job?).Nodup ∧
      (∀ i p, .job i p ∈ items → ∃ req, (evs.filterMap PEvent.arrive?)[i]? = some req ∧
        p = requestProg sv.feat.urlVariables log req) ∧
      y.world = (serially w0 items).1 ∧
      (∀ i r bytes, y.jobs[i]? = some (.done r bytes) → (i, .ret r) ∈ (serially w0 items).2) ∧
      (∀ i, y.jobs[i]? = some .dead →
        (i, .panic) ∈ (serially w0 items).2 ∨
          ∃ r w, (i, .ret r) ∈ (serially w0 items).2 ∧ sv.write w r = .panic) := by
  intro y hq
  obtain ⟨h1, -, h3⟩ := SysRel.run hs evs (y := PSys.start w0 workers) (z := ⟨w0, workers, []⟩) ⟨rfl, rfl, trivial⟩ he
  obtain ⟨items, i1, i2, i3, i4, i5⟩ := Movers.reduction (requestProg sv.feat.urlVariables log) sv.write w0 workers evs hfree (by
    intro i p hp u n hun
    rcases h3.get i with ⟨-, e1⟩ | ⟨j', k', e1, e2, hr⟩
    · rw [e1] at hp; cases hp
    · rw [e2] at hp
      injection hp with hp
      subst hp
      cases j' with
      | running req reads =>
        have hst : Stands (sv.stage req reads) p := hr.same hs
        rw [hun] at hst
        cases hsg : sv.stage req reads with
        | wants u' => exact hq i req reads e1 u' hsg
        | _ => rw [hsg] at hst; exact hst
      | _ => exact hr.elim)
  refine ⟨items, i1, i2, i3, h1.trans i4, ?_, ?_⟩
  · intro i r bytes hj
    rcases h3.get i with ⟨e1, -⟩ | ⟨j', k', e1, e2, hr⟩
    · exact absurd (e1.symm.trans hj) (by simp)
    · have := e1.symm.trans hj
      injection this with this
      subst this
      cases k' <;> try exact hr.elim
      obtain ⟨rfl, rfl⟩ := hr
      exact i5 i _ e2
  · intro i hj
    rcases h3.get i with ⟨e1, -⟩ | ⟨j', k', e1, e2, hr⟩
    · exact absurd (e1.symm.trans hj) (by simp)
    · have := e1.symm.trans hj
      injection this with this
      subst this
      cases k' <;> try exact hr.elim
      exact i5 i _ e2

/-! ### C157 -/

/-- C157: when all accesses of all requests can change places, the order does not matter. Once every request has been
handled, the shared state and every reply are those of handling the requests one after the other in any order whatever,
with the other changes of the shared state anywhere between them. -/
theorem C157_any_order (sv : PServer W) (log : List (PReg W)) (hs : SetUp sv log) (w0 : W) (workers : Nat)
    (evs : List (PEvent W)) (he : ∀ req, .arrive req ∈ evs → req.requestLine.method ≠ .all)
    (hfree : ∀ (i : Nat) req, (evs.filterMap PEvent.arrive?)[i]? = some req →
      (requestProg sv.feat.urlVariables log req).AllBut
        (Free (fun j p => ∃ r, (evs.filterMap PEvent.arrive?)[j]? = some r ∧ p = requestProg sv.feat.urlVariables log r)
          (evs.filterMap PEvent.env?) i) 0) :
    let y := (PSys.start w0 workers).run sv evs
    (∀ i < (evs.filterMap PEvent.arrive?).length, Settled y.jobs[i]?) →
    ∀ items : List (Item W),
      items.filterMap Item.env? = evs.filterMap PEvent.env? →
      (items.filterMap Item.job?).Perm (List.range (evs.filterMap PEvent.arrive?).length) →
      (∀ i p, .job i p ∈ items → ∃ req, (evs.filterMap PEvent.arrive?)[i]? = some req ∧
        p = requestProg sv.feat.urlVariables log req) →
      y.world = (serially w0 items).1 ∧
      (∀ i r bytes, y.jobs[i]? = some (.done r bytes) → (i, .ret r) ∈ (serially w0 items).2) ∧
      (∀ i, y.jobs[i]? = some .dead →
        (i, .panic) ∈ (serially w0 items).2 ∨
          ∃ r w, (i, .ret r) ∈ (serially w0 items).2 ∧ sv.write w r = .panic) := by
  intro y hq items hi1 hi2 hi4
  obtain ⟨h1, -, h3⟩ := SysRel.run hs evs (y := PSys.start w0 workers) (z := ⟨w0, workers, []⟩) ⟨rfl, rfl, trivial⟩ he
  obtain ⟨t, P, -, -, hlen⟩ := Movers.ticks (requestProg sv.feat.urlVariables log) sv.write w0 workers evs 0 hfree
  obtain ⟨i4, i5⟩ := Movers.all_orders (requestProg sv.feat.urlVariables log) sv.write w0 workers evs hfree (by
    intro i j hj
    have hset := hq i (by rw [← hlen]; exact (List.getElem?_eq_some_iff.1 hj).1)
    rcases h3.get i with ⟨-, e1⟩ | ⟨j', k', e1, e2, hr⟩
    · rw [e1] at hj; cases hj
    · rw [e2] at hj
      injection hj with hj
      subst hj
      have hset : Settled (some j') := by rw [← e1]; exact hset
      cases j' with
      | ready req => exact hset.elim
      | running req reads => exact hset.elim
      | done r b => cases k' <;> first | exact hr.elim | exact ⟨by simp, by simp⟩
      | dead => cases k' <;> first | exact hr.elim | exact ⟨by simp, by simp⟩) items hi1 (hi2.nodup_iff.2 List.nodup_range)
    (fun i => by rw [hi2.mem_iff, List.mem_range]) hi4
  refine ⟨h1.trans i4, ?_, ?_⟩
  · intro i r bytes hj
    rcases h3.get i with ⟨e1, -⟩ | ⟨j', k', e1, e2, hr⟩
    · exact absurd (e1.symm.trans hj) (by simp)
    · have := e1.symm.trans hj
      injection this with this
      subst this
      cases k' <;> try exact hr.elim
      obtain ⟨rfl, rfl⟩ := hr
      exact i5 i _ e2
  · intro i hj
    rcases h3.get i with ⟨e1, -⟩ | ⟨j', k', e1, e2, hr⟩
    · exact absurd (e1.symm.trans hj) (by simp)
    · have := e1.symm.trans hj
      injection this with this
      subst this
      cases k' <;> try exact hr.elim
      exact i5 i _ e2

/-- So two executions with the same requests and the same other changes, whatever the number of threads and the order
of everything, leave the same state and give the same replies. -/
theorem C157_same (sv : PServer W) (log : List (PReg W)) (hs : SetUp sv log) (w0 : W) (workers workers' : Nat)
    (evs evs' : List (PEvent W)) (he : ∀ req, .arrive req ∈ evs → req.requestLine.method ≠ .all)
    (hreqs : evs'.filterMap PEvent.arrive? = evs.filterMap PEvent.arrive?)
    (henvs : evs'.filterMap PEvent.env? = evs.filterMap PEvent.env?)
    (hfree : ∀ (i : Nat) req, (evs.filterMap PEvent.arrive?)[i]? = some req →
      (requestProg sv.feat.urlVariables log req).AllBut
        (Free (fun j p => ∃ r, (evs.filterMap PEvent.arrive?)[j]? = some r ∧ p = requestProg sv.feat.urlVariables log r)
          (evs.filterMap PEvent.env?) i) 0) :
    let y := (PSys.start w0 workers).run sv evs
    let y' := (PSys.start w0 workers').run sv evs'
    (∀ i < (evs.filterMap PEvent.arrive?).length, Settled y.jobs[i]? ∧ Settled y'.jobs[i]?) →
    y.world = y'.world ∧
    ∀ (i : Nat) r bytes r' bytes', y.jobs[i]? = some (.done r bytes) → y'.jobs[i]? = some (.done r' bytes') → r = r' := by
  intro y y' hq
  let prog := requestProg sv.feat.urlVariables log
  let arr := evs.filterMap PEvent.arrive?
  let items : List (Item W) := (evs.filterMap PEvent.env?).map .env ++
    (List.range arr.length).map fun i => .job i (Movers.progOf prog arr i)
  have e1 : items.filterMap Item.env? = evs.filterMap PEvent.env? := by
    simp only [items, List.filterMap_append, Movers.map_env, List.append_nil]
    induction evs.filterMap PEvent.env? with
    | nil => rfl
    | cons f l ih => rw [List.map_cons, List.filterMap_cons_some (show Item.env? (Item.env f) = some f from rfl), ih]
  have e2 : items.filterMap Item.job? = List.range arr.length := by
    simp only [items, List.filterMap_append, Movers.map_job]
    have : ((evs.filterMap PEvent.env?).map Item.env).filterMap Item.job? = [] := by
      induction evs.filterMap PEvent.env? with
      | nil => rfl
      | cons f l ih => rw [List.map_cons, List.filterMap_cons_none (show Item.job? (Item.env f) = none from rfl), ih]
    rw [this, List.nil_append]
  have e3 : ∀ i p, .job i p ∈ items → ∃ req, arr[i]? = some req ∧ p = prog req := by
    intro i p hip
    simp only [items, List.mem_append, List.mem_map, reduceCtorEq, and_false, exists_false, false_or, List.mem_range,
      Item.job.injEq] at hip
    obtain ⟨k, hk, rfl, rfl⟩ := hip
    exact ⟨arr[k], by simp [hk], by simp [Movers.progOf, hk]⟩
  obtain ⟨a1, a2, -⟩ := C157_any_order sv log hs w0 workers evs he hfree (fun i hi => (hq i hi).1) items e1
    (by rw [e2]) e3
  obtain ⟨b1, b2, -⟩ := C157_any_order sv log hs w0 workers' evs' (by
      intro req hr
      have : req ∈ evs'.filterMap PEvent.arrive? := List.mem_filterMap.2 ⟨_, hr, rfl⟩
      rw [hreqs] at this
      obtain ⟨e, x1, x2⟩ := List.mem_filterMap.1 this
      cases e <;> simp only [PEvent.arrive?, Option.some.injEq, reduceCtorEq] at x2
      subst x2
      exact he _ x1) (by rw [hreqs, henvs]; exact hfree) (by rw [hreqs]; exact fun i hi => (hq i hi).2) items
    (by rw [henvs]; exact e1) (by rw [hreqs, e2]) (by rw [hreqs]; exact e3)
  refine ⟨a1.trans b1.symm, ?_⟩
  intro i r bytes r' bytes' hr hr'
  have m1 := a2 i r bytes hr
  have m2 := b2 i r' bytes' hr'
  have := Movers.serially_once (w := w0) (items := items) (by rw [e2]; exact List.nodup_range) m1 m2
  injection this

/-! ### C104 -/

/-- The requests of the connections: connection `i` may run the program of a request in its bytes. -/
def Spec.clientRuns (sv : PServer W) (log : List (PReg W)) (clients : List (Bool × Sock)) (i : Nat) (p : Prog W Reply) : Prop :=
  ∃ tls s req, clients[i]? = some (tls, s) ∧ Received sv.feat.faithful sv.feat.cookies s req ∧
    p = requestProg sv.feat.urlVariables log req

/-- The same for the whole process: when of the accesses of every request all but one can change places with those of
the other connections, then at every moment at which no handler is between two accesses there is an order of the
connections in which handling them one after the other, each as a whole, has the same effect. -/
theorem C104_movers (sv : PServer W) (log : List (PReg W)) (hs : SetUp sv log) (allocOk : Nat → Bool) (w0 : W)
    (workers : Nat) (tlsFeature tlsOk plainOk : Bool) (evs : List (Happening W))
    (hd : ((Process.start w0 workers tlsFeature tlsOk plainOk).run sv allocOk evs).dead = false)
    (hfree : ∀ i p, clientRuns sv log (taken plainOk (tlsFeature && tlsOk) evs) i p →
      p.AllBut (Free (clientRuns sv log (taken plainOk (tlsFeature && tlsOk) evs)) (evs.filterMap Happening.env?) i) 1) :
    let y := (Process.start w0 workers tlsFeature tlsOk plainOk).run sv allocOk evs
    let clients := taken plainOk (tlsFeature && tlsOk) evs
    (∀ (i : Nat) (c : PConn W) req reads, y.conns[i]? = some c → c.task = .handling req reads →
      ∀ u, sv.stage req reads ≠ .wants u) →
    ∃ items : List (Item W),
      items.filterMap Item.env? = evs.filterMap Happening.env? ∧
      (items.filterMap Item.job?).Nodup ∧
      (∀ i p, .job i p ∈ items → clientRuns sv log clients i p) ∧
      y.world = (serially w0 items).1 ∧
      ∀ (i : Nat) (c : PConn W) (sent : Bytes), y.conns[i]? = some c → c.task = .finished sent →
        ∃ s, clients[i]? = some (c.tls, s) ∧
          ((∃ r w, (i, .ret r) ∈ (serially w0 items).2 ∧ sv.write w r = .ok sent) ∨
           (NoHead s.bytes ∧ ∃ w, sv.write w (.page .badRequest) = .ok sent)) := by
  intro y clients hq
  obtain ⟨pevs, order, w1, w2, w3, w4, w5, w6, w7, w8⟩ :=
    C104_process sv log hs allocOk w0 workers tlsFeature tlsOk plainOk evs hd
  have hord : ∀ {j : Nat}, j < order.length → order[j]? = some (order[j]?.getD 0) := by
    intro j hj
    simp [hj]
  have hruns : ∀ (j : Nat) req, (pevs.filterMap PEvent.arrive?)[j]? = some req →
      ∃ i, order[j]? = some i ∧ clientRuns sv log clients i (requestProg sv.feat.urlVariables log req) := by
    intro j req hj
    have hjl := (List.getElem?_eq_some_iff.1 hj).1
    obtain ⟨tls, s, r, g1, g2, g3⟩ := w6 j _ (hord (by omega))
    rw [hj] at g2
    injection g2 with g2
    subst g2
    exact ⟨_, hord (by omega), tls, s, req, g1, g3, rfl⟩
  have hin : ∀ i ∈ order, i < y.conns.length := by
    intro i hi
    obtain ⟨j, hj⟩ := List.getElem?_of_mem hi
    obtain ⟨_, _, _, g1, -, -⟩ := w6 j i hj
    rw [w7]
    exact (List.getElem?_eq_some_iff.1 g1).1
  obtain ⟨items, i1, i2, i3, i4, i5⟩ := Movers.reduction (requestProg sv.feat.urlVariables log) sv.write w0 workers pevs (by
      intro j req hj
      obtain ⟨i, hi, hr⟩ := hruns j req hj
      refine (hfree i _ hr).mono ?_
      rintro u n ⟨f1, f2⟩
      refine ⟨?_, by rw [w2]; exact f2⟩
      rintro j' p hne ⟨r, hr1, rfl⟩ u' n' hm
      obtain ⟨i', hi', hr'⟩ := hruns j' r hr1
      refine f1 i' _ (fun e => hne ?_) hr' u' n' hm
      subst e
      exact nodup_get w3 hi' hi) (by
      intro j p hp
      exact (standing_quiet w3 w4 hin (fun i c hc => by obtain ⟨s, -, h⟩ := w8 i c hc; exact ⟨_, h⟩) hq j _ hp).2 p rfl)
  have hname : ∀ {j : Nat}, j ∈ items.filterMap Item.job? → ∃ i, order[j]? = some i := by
    intro j hj
    obtain ⟨x, x1, x2⟩ := List.mem_filterMap.1 hj
    cases x <;> simp only [Item.job?, Option.some.injEq, reduceCtorEq] at x2
    subst x2
    obtain ⟨req, q1, -⟩ := i3 _ _ x1
    obtain ⟨i, hi, -⟩ := hruns _ _ q1
    exact ⟨i, hi⟩
  refine ⟨items.map (Item.rename fun j => (order[j]?).getD 0), ?_, ?_, ?_, ?_, ?_⟩
  · rw [rename_env, i1, w2]
  · rw [rename_job]
    refine nodup_map_on i2 ?_
    intro a ha b hb hab
    obtain ⟨x, hx⟩ := hname ha
    obtain ⟨x', hx'⟩ := hname hb
    simp only [hx, hx', Option.getD_some] at hab
    subst hab
    exact nodup_get w3 hx hx'
  · intro i p hip
    obtain ⟨x, x1, x2⟩ := List.mem_map.1 hip
    cases x with
    | env f => cases x2
    | job j p' =>
      simp only [Item.rename, Item.job.injEq] at x2
      obtain ⟨x2, rfl⟩ := x2
      obtain ⟨req, q1, rfl⟩ := i3 _ _ x1
      obtain ⟨k, hk, hr⟩ := hruns _ _ q1
      rw [hk, Option.getD_some] at x2
      subst x2
      exact hr
  · rw [serially_rename]
    exact w1.trans i4
  · intro i c sent hc ht
    obtain ⟨s, g1, g3⟩ := w8 i c hc
    rw [ht] at g3
    refine ⟨s, g1, ?_⟩
    rcases g3 with ⟨j, r, a, b⟩ | ⟨-, g4⟩
    · obtain ⟨w, hw⟩ := SSys.done_write _ _ pevs _ (by simp) j r sent b
      refine .inl ⟨r, w, ?_, hw⟩
      rw [serially_rename]
      refine List.mem_map.2 ⟨(j, .ret r), i5 j _ b, ?_⟩
      simp [a]
    · exact .inr g4

/-- C157 for the whole process: when all accesses can change places, then at every moment at which no handler is
between two accesses the connections that have been served may be put in any order, each handled as a whole, with the
other changes of the shared state anywhere between them: the state and what the clients are sent are the same.
(`served`: the connections whose request has been read, each with the program of its request.) -/
theorem C157_process (sv : PServer W) (log : List (PReg W)) (hs : SetUp sv log) (allocOk : Nat → Bool) (w0 : W)
    (workers : Nat) (tlsFeature tlsOk plainOk : Bool) (evs : List (Happening W))
    (hd : ((Process.start w0 workers tlsFeature tlsOk plainOk).run sv allocOk evs).dead = false)
    (hfree : ∀ i p, clientRuns sv log (taken plainOk (tlsFeature && tlsOk) evs) i p →
      p.AllBut (Free (clientRuns sv log (taken plainOk (tlsFeature && tlsOk) evs)) (evs.filterMap Happening.env?) i) 0) :
    let y := (Process.start w0 workers tlsFeature tlsOk plainOk).run sv allocOk evs
    let clients := taken plainOk (tlsFeature && tlsOk) evs
    (∀ (i : Nat) (c : PConn W) req reads, y.conns[i]? = some c → c.task = .handling req reads →
      ∀ u, sv.stage req reads ≠ .wants u) →
    ∃ served : List (Nat × Prog W Reply),
      (served.map (·.1)).Nodup ∧ (∀ x ∈ served, clientRuns sv log clients x.1 x.2) ∧
      ∀ items : List (Item W),
        items.filterMap Item.env? = evs.filterMap Happening.env? → (items.filterMap Item.run?).Perm served →
        y.world = (serially w0 items).1 ∧
        ∀ (i : Nat) (c : PConn W) (sent : Bytes), y.conns[i]? = some c → c.task = .finished sent →
          ∃ s, clients[i]? = some (c.tls, s) ∧
            ((∃ r w, (i, .ret r) ∈ (serially w0 items).2 ∧ sv.write w r = .ok sent) ∨
             (NoHead s.bytes ∧ ∃ w, sv.write w (.page .badRequest) = .ok sent)) := by
  intro y clients hq
  obtain ⟨pevs, order, w1, w2, w3, w4, w5, w6, w7, w8⟩ :=
    C104_process sv log hs allocOk w0 workers tlsFeature tlsOk plainOk evs hd
  have hord : ∀ {j : Nat}, j < order.length → order[j]? = some (order[j]?.getD 0) := by
    intro j hj
    simp [hj]
  have hruns : ∀ (j : Nat) req, (pevs.filterMap PEvent.arrive?)[j]? = some req →
      ∃ i, order[j]? = some i ∧ clientRuns sv log clients i (requestProg sv.feat.urlVariables log req) := by
    intro j req hj
    have hjl := (List.getElem?_eq_some_iff.1 hj).1
    obtain ⟨tls, s, r, g1, g2, g3⟩ := w6 j _ (hord (by omega))
    rw [hj] at g2
    injection g2 with g2
    subst g2
    exact ⟨_, hord (by omega), tls, s, req, g1, g3, rfl⟩
  have hin : ∀ i ∈ order, i < y.conns.length := by
    intro i hi
    obtain ⟨j, hj⟩ := List.getElem?_of_mem hi
    obtain ⟨_, _, _, g1, -, -⟩ := w6 j i hj
    rw [w7]
    exact (List.getElem?_eq_some_iff.1 g1).1
  generalize harr : pevs.filterMap PEvent.arrive? = arr at *
  have hpo : ∀ {j : Nat}, j < order.length → ∃ req, arr[j]? = some req ∧
      Movers.progOf (requestProg sv.feat.urlVariables log) arr j = requestProg sv.feat.urlVariables log req := by
    intro j hj
    rw [w5] at hj
    exact ⟨arr[j], by simp [hj], by simp [Movers.progOf, hj]⟩
  have hmem : ∀ {i : Nat} {p : Prog W Reply}, (i, p) ∈ (List.range order.length).map (fun j => ((order[j]?).getD 0,
      Movers.progOf (requestProg sv.feat.urlVariables log) arr j)) → ∃ j, order[j]? = some i ∧
        p = Movers.progOf (requestProg sv.feat.urlVariables log) arr j := by
    intro i p hp
    obtain ⟨j, j1, j2⟩ := List.mem_map.1 hp
    rw [List.mem_range] at j1
    simp only [Prod.mk.injEq] at j2
    obtain ⟨rfl, rfl⟩ := j2
    exact ⟨j, hord j1, rfl⟩
  have hself : (List.range order.length).map (fun j => (order[j]?).getD 0) = order := by
    apply List.ext_getElem?
    intro j
    by_cases hj : j < order.length
    · simp [hj]
    · simp [hj]
  refine ⟨(List.range order.length).map (fun j => ((order[j]?).getD 0,
      Movers.progOf (requestProg sv.feat.urlVariables log) arr j)), ?_, ?_, ?_⟩
  · rw [List.map_map]
    show ((List.range order.length).map fun j => (order[j]?).getD 0).Nodup
    rw [hself]
    exact w3
  · rintro ⟨i, p⟩ hx
    obtain ⟨j, j1, rfl⟩ := hmem hx
    obtain ⟨req, q1, q2⟩ := hpo (List.getElem?_eq_some_iff.1 j1).1
    obtain ⟨i', hi', hr⟩ := hruns j req q1
    rw [j1] at hi'
    injection hi' with hi'
    subst hi'
    rw [q2]
    exact hr
  · intro items hi1 hi2
    have hidx : ∀ {j i : Nat}, order[j]? = some i → order.idxOf i = j := by
      intro j i hji
      have hm : i ∈ order := List.mem_of_getElem? hji
      have : order[order.idxOf i]? = some i := getElem?_idxOf hm
      exact nodup_get w3 this hji
    have hjobs : ((items.map (Item.rename order.idxOf)).filterMap Item.job?).Perm (List.range order.length) := by
      rw [job_run, rename_run, List.map_map]
      refine (hi2.map _).trans ?_
      rw [List.map_map]
      refine List.Perm.of_eq ?_
      refine (List.map_congr_left ?_).trans (List.map_id _)
      intro j hj
      exact hidx (hord (List.mem_range.1 hj))
    obtain ⟨i4, i5⟩ := Movers.all_orders (requestProg sv.feat.urlVariables log) sv.write w0 workers pevs (by
        rw [harr]
        intro j req hj
        obtain ⟨i, hi, hr⟩ := hruns j req hj
        refine (hfree i _ hr).mono ?_
        rintro u n ⟨f1, f2⟩
        refine ⟨?_, by rw [w2]; exact f2⟩
        rintro j' p hne ⟨r, hr1, rfl⟩ u' n' hm
        obtain ⟨i', hi', hr'⟩ := hruns j' r hr1
        refine f1 i' _ (fun e => hne ?_) hr' u' n' hm
        subst e
        exact nodup_get w3 hi' hi)
      (standing_quiet w3 w4 hin (fun i c hc => by obtain ⟨s, -, h⟩ := w8 i c hc; exact ⟨_, h⟩) hq)
      (items.map (Item.rename order.idxOf)) (by rw [rename_env, hi1, w2]) (hjobs.nodup_iff.2 List.nodup_range)
      (fun i => by rw [hjobs.mem_iff, List.mem_range, harr, w5]) (by
        rw [harr]
        intro j p hp
        obtain ⟨x, x1, x2⟩ := List.mem_map.1 hp
        cases x with
        | env f => cases x2
        | job i p' =>
          simp only [Item.rename, Item.job.injEq] at x2
          obtain ⟨rfl, rfl⟩ := x2
          obtain ⟨j, j1, rfl⟩ := hmem (hi2.mem_iff.1 (mem_run.1 x1))
          rw [hidx j1]
          exact hpo (List.getElem?_eq_some_iff.1 j1).1)
    rw [serially_rename] at i4 i5
    refine ⟨w1.trans i4, ?_⟩
    intro i c sent hc ht
    obtain ⟨s, g1, g3⟩ := w8 i c hc
    rw [ht] at g3
    refine ⟨s, g1, ?_⟩
    rcases g3 with ⟨j, r, a, b⟩ | ⟨-, g4⟩
    · obtain ⟨w, hw⟩ := SSys.done_write _ _ pevs _ (by simp) j r sent b
      refine .inl ⟨r, w, ?_, hw⟩
      obtain ⟨⟨i', o⟩, x1, x2⟩ := List.mem_map.1 (i5 j _ b)
      simp only [Prod.mk.injEq] at x2
      obtain ⟨x2, rfl⟩ := x2
      have hi' : i' ∈ items.filterMap Item.job? := by
        rw [← Movers.serially_jobs w0]
        exact List.mem_map.2 ⟨_, x1, rfl⟩
      rw [job_run] at hi'
      obtain ⟨⟨k, p⟩, k1, rfl⟩ := List.mem_map.1 hi'
      obtain ⟨j', j1, -⟩ := hmem (hi2.mem_iff.1 k1)
      rw [hidx j1] at x2
      subst x2
      rw [a] at j1
      injection j1 with j1
      subst j1
      exact x1
    · exact .inr g4

end

namespace MoversExample
open ParallelExample ProcessExample

/-- one more visit -/
def visit (w : Nat × Nat) : Nat × Nat := (w.1 + 1, w.2)

/-- one more number given out -/
def take (w : Nat × Nat) : Nat × Nat := (w.1, w.2 + 1)

/-- counts the visit without looking at the count, then hands out the next number -/
def ticket : PClosure (Nat × Nat) := fun _ _ => .act visit fun _ => .act take fun w => .ret (said w.2, .stop)

/-- counts the visit in two places without looking -/
def blind : PClosure (Nat × Nat) := fun _ _ => .act visit fun _ => .act take fun _ => .ret (said 0, .stop)

def server (h : PClosure (Nat × Nat)) : PServer (Nat × Nat) :=
  { feat := .default, U := .asciiOnly, ord := MapOrder.id, clock := fun _ => 0, router := Router.add Router.new h.closure }

theorem setUp (h : PClosure (Nat × Nat)) : SetUp (server h) [⟨.everywhere, h⟩] :=
  ⟨[.add h.closure], by simp [FairL, Fair], by simp [logOfL, logOf], rfl, rfl⟩

/-- the two accesses of `ticket` -/
def ticketProg : Prog (Nat × Nat) Reply := .act visit fun _ => .act take fun w => .ret (.sent (said w.2))
def blindProg : Prog (Nat × Nat) Reply := .act visit fun _ => .act take fun _ => .ret (.sent (said 0))

/-- what a request does, whatever it is -/
theorem ticket_cases (uv : Bool) (q : Request) : requestProg uv [⟨.everywhere, ticket⟩] q = ticketProg ∨
    requestProg uv [⟨.everywhere, ticket⟩] q = .panic ∨ ∃ r, requestProg uv [⟨.everywhere, ticket⟩] q = .ret r := by
  unfold requestProg
  split
  · exact .inr (.inl rfl)
  · split
    · exact .inr (.inr ⟨_, rfl⟩)
    · split
      · exact .inl rfl
      · exact .inr (.inr ⟨_, rfl⟩)

theorem blind_cases (uv : Bool) (q : Request) : requestProg uv [⟨.everywhere, blind⟩] q = blindProg ∨
    requestProg uv [⟨.everywhere, blind⟩] q = .panic ∨ ∃ r, requestProg uv [⟨.everywhere, blind⟩] q = .ret r := by
  unfold requestProg
  split
  · exact .inr (.inl rfl)
  · split
    · exact .inr (.inr ⟨_, rfl⟩)
    · split
      · exact .inl rfl
      · exact .inr (.inr ⟨_, rfl⟩)

theorem ticket_makes {q : Request} {u : Nat × Nat → Nat × Nat} {n} (h : (requestProg true [⟨.everywhere, ticket⟩] q).Makes u n) :
    (u = visit ∧ n = fun _ => .act take fun w => .ret (.sent (said w.2))) ∨ (u = take ∧ n = fun w => .ret (.sent (said w.2))) := by
  rcases ticket_cases true q with e | e | ⟨r, e⟩ <;> rw [e] at h
  · cases h with
    | here => exact .inl ⟨rfl, rfl⟩
    | later _ _ _ h =>
      cases h with
      | here => exact .inr ⟨rfl, rfl⟩
      | later _ _ _ h => cases h
  · cases h
  · cases h

theorem blind_makes {q : Request} {u : Nat × Nat → Nat × Nat} {n} (h : (requestProg true [⟨.everywhere, blind⟩] q).Makes u n) :
    (u = visit ∧ n = fun _ => .act take fun _ => .ret (.sent (said 0))) ∨ (u = take ∧ n = fun _ => .ret (.sent (said 0))) := by
  rcases blind_cases true q with e | e | ⟨r, e⟩ <;> rw [e] at h
  · cases h with
    | here => exact .inl ⟨rfl, rfl⟩
    | later _ _ _ h =>
      cases h with
      | here => exact .inr ⟨rfl, rfl⟩
      | later _ _ _ h => cases h
  · cases h
  · cases h

/-- of the accesses of `ticket` all but one can change places, whatever the other requests are -/
theorem ticket_free (runs : Nat → Prog (Nat × Nat) Reply → Prop) (i : Nat) (q : Request)
    (hr : ∀ j p, runs j p → ∃ r, p = requestProg true [⟨.everywhere, ticket⟩] r) (E : List (Nat × Nat → Nat × Nat))
    (hE : ∀ f ∈ E, f = visit) : (requestProg true [⟨.everywhere, ticket⟩] q).AllBut (Free runs E i) 1 := by
  rcases ticket_cases true q with e | e | ⟨r, e⟩ <;> rw [e]
  · refine .inl ⟨⟨?_, ?_⟩, fun w => .inr ⟨by omega, fun _ => trivial⟩⟩
    · intro j p _ hp u' n' hm w
      obtain ⟨r, rfl⟩ := hr j p hp
      rcases ticket_makes hm with ⟨rfl, rfl⟩ | ⟨rfl, rfl⟩ <;> exact ⟨rfl, rfl, rfl⟩
    · intro f hf w
      rw [hE f hf]
      exact ⟨rfl, rfl⟩
  · trivial
  · trivial

/-- of the accesses of `blind` all can -/
theorem blind_free (runs : Nat → Prog (Nat × Nat) Reply → Prop) (i : Nat) (q : Request)
    (hr : ∀ j p, runs j p → ∃ r, p = requestProg true [⟨.everywhere, blind⟩] r) (E : List (Nat × Nat → Nat × Nat))
    (hE : ∀ f ∈ E, f = visit) : (requestProg true [⟨.everywhere, blind⟩] q).AllBut (Free runs E i) 0 := by
  have key : ∀ u n, (u = visit ∧ n = fun _ => Prog.act take fun _ => .ret (.sent (said 0))) ∨
      (u = take ∧ n = fun _ => .ret (.sent (said 0))) → Free runs E i u n := by
    rintro u n hun
    refine ⟨?_, ?_⟩
    · intro j p _ hp u' n' hm w
      obtain ⟨r, rfl⟩ := hr j p hp
      rcases hun with ⟨rfl, rfl⟩ | ⟨rfl, rfl⟩ <;> rcases blind_makes hm with ⟨rfl, rfl⟩ | ⟨rfl, rfl⟩ <;> exact ⟨rfl, rfl, rfl⟩
    · intro f hf w
      rw [hE f hf]
      rcases hun with ⟨rfl, rfl⟩ | ⟨rfl, rfl⟩ <;> exact ⟨rfl, rfl⟩
  rcases blind_cases true q with e | e | ⟨r, e⟩ <;> rw [e]
  · exact .inl ⟨key _ _ (.inl ⟨rfl, rfl⟩), fun w => .inl ⟨key _ _ (.inr ⟨rfl, rfl⟩), fun _ => trivial⟩⟩
  · trivial
  · trivial

/-- two requests that take turns, and a visit counted elsewhere; the second gets its number first -/
def turns : List (PEvent (Nat × Nat)) :=
  [.arrive req, .arrive req, .start 0, .start 1, .access 0, .access 1, .access 1, .env visit, .access 0, .finish 0, .finish 1]

theorem turns_get (q : Request) (h : .arrive q ∈ turns) : q.requestLine.method ≠ .all := by
  simp only [turns, List.mem_cons, PEvent.arrive.injEq, reduceCtorEq, or_false, List.not_mem_nil, or_self] at h
  subst h
  decide

/-- the hypotheses of `C84_movers_partial` for them -/
example := C84_movers_partial (server ticket) _ (setUp ticket) (0, 0) 2 turns turns_get
  (fun i q _ => ticket_free _ i q (by rintro j p ⟨r, -, h⟩; exact ⟨r, h⟩) _ (by simp [turns, PEvent.env?])) (by
    have hy : ∃ a b r r', ((PSys.start (0, 0) 2).run (server ticket) turns).jobs = [.done r a, .done r' b] := ⟨_, _, _, _, rfl⟩
    obtain ⟨a, b, r, r', hy⟩ := hy
    intro i q reads hi
    rw [hy] at hi
    match i with
    | 0 => simp at hi
    | 1 => simp at hi
    | i + 2 => simp at hi)

/-- the second got the first number -/
example : let y := (PSys.start (0, 0) 2).run (server ticket) turns
    y.world = (3, 2) ∧ ∃ a b, y.jobs = [.done (.sent (said 1)) a, .done (.sent (said 0)) b] := ⟨rfl, _, _, rfl⟩

/-- the hypotheses of `C157_same`: the same two requests one after the other on one thread -/
example := C157_same (server blind) _ (setUp blind) (0, 0) 2 1 turns
  [.env visit, .arrive req, .arrive req, .start 1, .access 1, .access 1, .finish 1, .start 0, .access 0, .access 0, .finish 0]
  turns_get rfl rfl
  (fun i q _ => blind_free _ i q (by rintro j p ⟨r, -, h⟩; exact ⟨r, h⟩) _ (by simp [turns, PEvent.env?])) (by
    intro i hi
    have hi' : i < 2 := hi
    match i, hi' with
    | 0, _ => exact ⟨trivial, trivial⟩
    | 1, _ => exact ⟨trivial, trivial⟩)

/-- two clients, the second one's number first -/
def both : List (Happening (Nat × Nat)) :=
  [.connect false asksH, .connect false asksP, .poll 1, .poll 0, .access 0, .access 1, .env visit, .access 1, .access 0,
    .finish 0, .finish 1, .write 0 1000, .write 1 1000]

def isFinished : PTask (Nat × Nat) → Bool
  | .finished _ => true
  | _ => false

/-- the hypotheses of `C104_movers` for them -/
example := C104_movers (server ticket) _ (setUp ticket) (fun _ => true) (0, 0) 2 false false true both (by decide +kernel)
  (by rintro i p ⟨tls, s, q, -, -, rfl⟩
      exact ticket_free _ i q (by rintro j p ⟨_, _, r, -, -, h⟩; exact ⟨r, h⟩) _ (by simp [both, Happening.env?]))
  (by
    intro i c q reads hi hc
    have hall : ((Process.start (0, 0) 2 false false true).run (server ticket) (fun _ => true) both).conns.all
        (fun c => isFinished c.task) = true := by decide +kernel
    have := List.all_eq_true.1 hall c (List.mem_of_getElem? hi)
    rw [hc] at this
    cases this)

end MoversExample

open ParallelExample MoversExample in
/-- That no request is between two accesses is needed: there the state is none that whole requests leave, although
the access that has taken place can change places with all others. -/
theorem C84_between : let y := (PSys.start (0, 0) 1).run (MoversExample.server blind) [.arrive req, .start 0, .access 0]
    y.world = (1, 0) ∧ ∀ items : List (Item (Nat × Nat)), items.filterMap Item.env? = [] →
      (∀ i p, .job i p ∈ items → p = blindProg) → y.world ≠ (serially (0, 0) items).1 := by
  refine ⟨rfl, ?_⟩
  intro items h1 h2 h3
  have key : ∀ (items : List (Item (Nat × Nat))) (w : Nat × Nat), w.1 = w.2 → items.filterMap Item.env? = [] →
      (∀ i p, .job i p ∈ items → p = blindProg) → (serially w items).1.1 = (serially w items).1.2 := by
    intro items
    induction items with
    | nil => intro w hw _ _; exact hw
    | cons x items ih =>
      intro w hw h1 h2
      cases x with
      | env f => simp [Item.env?] at h1
      | job i p =>
        have := h2 i p (by simp)
        subst this
        rw [List.filterMap_cons_none (show Item.env? (Item.job i blindProg) = none from rfl)] at h1
        exact ih (w.1 + 1, w.2 + 1) (by simp [hw]) h1 (fun i p hp => h2 i p (by simp [hp]))
  have := key items (0, 0) rfl h1 h2
  rw [← h3] at this
  exact absurd this (by decide)

open ParallelExample MoversExample in
/-- That all accesses can change places is needed for C157: with one that cannot the replies depend on the order. -/
theorem C157_needed : ∃ evs evs' : List (PEvent (Nat × Nat)),
    evs'.filterMap PEvent.arrive? = evs.filterMap PEvent.arrive? ∧ evs'.filterMap PEvent.env? = evs.filterMap PEvent.env? ∧
    (∃ a b, ((PSys.start (0, 0) 2).run (MoversExample.server ticket) evs).jobs = [.done (.sent (said 1)) a, .done (.sent (said 0)) b]) ∧
    ∃ a b, ((PSys.start (0, 0) 2).run (MoversExample.server ticket) evs').jobs = [.done (.sent (said 0)) a, .done (.sent (said 1)) b] :=
  ⟨turns, [.arrive req, .arrive req, .start 0, .start 1, .access 0, .access 1, .access 0, .env visit, .access 1, .finish 0, .finish 1],
    rfl, rfl, ⟨_, _, rfl⟩, _, _, rfl⟩

open ParallelExample ProcessExample MoversExample in
/-- the hypotheses of `C157_process` for two clients -/
example := C157_process (MoversExample.server blind) _ (MoversExample.setUp blind) (fun _ => true) (0, 0) 2 false false true
  MoversExample.both (by decide +kernel)
  (by rintro i p ⟨tls, s, q, -, -, rfl⟩
      exact blind_free _ i q (by rintro j p ⟨_, _, r, -, -, h⟩; exact ⟨r, h⟩) _ (by simp [MoversExample.both, Happening.env?]))
  (by
    intro i c q reads hi hc
    have hall : ((Process.start (0, 0) 2 false false true).run (MoversExample.server blind) (fun _ => true)
        MoversExample.both).conns.all (fun c => isFinished c.task) = true := by decide +kernel
    have := List.all_eq_true.1 hall c (List.mem_of_getElem? hi)
    rw [hc] at this
    cases this)

end Octane
