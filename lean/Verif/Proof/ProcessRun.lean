import Verif.Proof.Process
/-
Executions of the process; threads that are held up.
-/
namespace Octane
open Spec
universe u
variable {W : Type u} {sv : PServer W} {allocOk : Nat → Bool}

namespace Process

theorem run_cons (y : Process W) (e : Happening W) (es : List (Happening W)) :
    y.run sv allocOk (e :: es) = (y.step sv allocOk e).run sv allocOk es := rfl

theorem run_append (y : Process W) (a b : List (Happening W)) :
    y.run sv allocOk (a ++ b) = (y.run sv allocOk a).run sv allocOk b := by
  simp [run, List.foldl_append]

theorem run_dead (y : Process W) (hd : y.dead = true) (es : List (Happening W)) : y.run sv allocOk es = y := by
  induction es with
  | nil => rfl
  | cons e es ih =>
    have : y.step sv allocOk e = y := by simp [step, hd]
    rw [run_cons, this]
    exact ih

theorem alive_of_run (y : Process W) {es : List (Happening W)} (h : (y.run sv allocOk es).dead = false) :
    y.dead = false := by
  cases hd : y.dead with
  | false => rfl
  | true => rw [run_dead y hd, hd] at h; cases h

/-- only listeners that fail and new connections concern the listeners -/
theorem step_listeners (y : Process W) (e : Happening W) (h1 : ∀ tls, e ≠ .acceptErr tls) :
    (y.step sv allocOk e).plain = y.plain ∧ (y.step sv allocOk e).tls = y.tls := by
  unfold step
  split
  · exact ⟨rfl, rfl⟩
  · cases e with
    | acceptErr tls => exact absurd rfl (h1 tls)
    | connect tls s => simp only; split <;> exact ⟨rfl, rfl⟩
    | handshake i ok => simp only; split <;> (try split) <;> exact ⟨rfl, rfl⟩
    | poll i =>
      simp only
      split
      · split
        · split
          · split <;> exact ⟨rfl, rfl⟩
          · exact ⟨rfl, rfl⟩
        · exact ⟨rfl, rfl⟩
      · exact ⟨rfl, rfl⟩
    | access i =>
      simp only
      split
      · split
        · split <;> exact ⟨rfl, rfl⟩
        · exact ⟨rfl, rfl⟩
      · exact ⟨rfl, rfl⟩
    | finish i =>
      simp only
      split
      · split
        · split <;> exact ⟨rfl, rfl⟩
        · exact ⟨rfl, rfl⟩
      · exact ⟨rfl, rfl⟩
    | write i n => simp only; split <;> (try split) <;> exact ⟨rfl, rfl⟩
    | writeErr i => simp only; split <;> (try split) <;> exact ⟨rfl, rfl⟩
    | env f => exact ⟨rfl, rfl⟩
    | exit => simp only; split <;> exact ⟨rfl, rfl⟩

end Process

theorem taken_cons (y : Process W) (hd : y.dead = false) (e : Happening W) (es : List (Happening W)) :
    taken (y.plain = .listening) (y.tls = .listening) (e :: es) =
      takes y e ++ taken ((y.step sv allocOk e).plain = .listening) ((y.step sv allocOk e).tls = .listening) es := by
  by_cases h : ∃ tls, e = .acceptErr tls
  · obtain ⟨tls, rfl⟩ := h
    simp only [takes, List.nil_append, taken, Process.step, hd, Bool.false_eq_true, if_false]
    cases tls <;> by_cases hl : y.plain = .listening <;> by_cases hl2 : y.tls = .listening <;>
      simp [Process.listener, hl, hl2]
  · have h' : ∀ tls, e ≠ .acceptErr tls := fun tls he => h ⟨tls, he⟩
    obtain ⟨e1, e2⟩ := Process.step_listeners (sv := sv) (allocOk := allocOk) y e h'
    rw [e1, e2]
    cases e with
    | connect tls s =>
      cases tls
      · simp only [taken, takes, Process.listener]
        by_cases hl : y.plain = .listening <;> simp [hl]
      · simp only [taken, takes, Process.listener]
        by_cases hl : y.tls = .listening <;> simp [hl]
    | acceptErr tls => exact absurd rfl (h' tls)
    | _ => rfl

theorem ProcInv.run (evs : List (Happening W)) {S : List (Bool × Sock)} {order : List Nat}
    {arr : List Request} {z : PSys W} {y : Process W} (h : ProcInv sv allocOk S order arr z y)
    (hd : (y.run sv allocOk evs).dead = false) :
    ∃ (more : List (PEvent W)) (ord : List Nat),
      ProcInv sv allocOk (S ++ taken (y.plain = .listening) (y.tls = .listening) evs) (order ++ ord)
        (arr ++ more.filterMap PEvent.arrive?) (z.run sv more) (y.run sv allocOk evs) ∧
      more.filterMap PEvent.env? = evs.filterMap Happening.env? := by
  induction evs generalizing S order arr z y with
  | nil => exact ⟨[], [], by simpa [taken, PSys.run, Process.run] using h, rfl⟩
  | cons e evs ih =>
    rw [Process.run_cons] at hd
    have hd0 : y.dead = false := Process.alive_of_run (sv := sv) (allocOk := allocOk) (es := e :: evs) y hd
    obtain ⟨m1, o1, h1, e1⟩ := h.step hd0 e
    obtain ⟨m2, o2, h2, e2⟩ := ih h1 hd
    refine ⟨m1 ++ m2, o1 ++ o2, ?_, ?_⟩
    · rw [taken_cons (sv := sv) (allocOk := allocOk) y hd0, ← List.append_assoc, ← List.append_assoc, List.filterMap_append,
        ← List.append_assoc, PSys.run_append, Process.run_cons]
      exact h2
    · rw [List.filterMap_append, e1, e2, List.filterMap_cons]
      cases Happening.env? e <;> rfl

theorem ProcInv.start (w0 : W) (workers : Nat) (tlsFeature tlsOk plainOk : Bool) :
    ProcInv sv allocOk [] [] [] (PSys.start w0 workers) (Process.start w0 workers tlsFeature tlsOk plainOk) :=
  ⟨rfl, rfl, rfl, rfl, List.nodup_nil, rfl, by simp, rfl, by simp [Process.start]⟩

theorem Received.method {faithful cookies : Bool} {s : Sock} {req : Request}
    (h : Received faithful cookies s req) : req.requestLine.method ≠ .all := by
  obtain ⟨q, n, -, hw, -⟩ := h
  intro he
  rcases hw.method with h | ⟨-, h⟩
  · rw [he] at h
    simp [methodTable] at h
  · rw [he] at h; cases h

/-- All that is true of an execution from the beginning. -/
theorem process_run {log : List (PReg W)} (hs : SetUp sv log) (w0 : W) (workers : Nat)
    (tlsFeature tlsOk plainOk : Bool) (evs : List (Happening W))
    (hd : ((Process.start w0 workers tlsFeature tlsOk plainOk).run sv allocOk evs).dead = false) :
    ∃ (pevs : List (PEvent W)) (order : List Nat),
      ProcInv sv allocOk (taken plainOk (tlsFeature && tlsOk) evs) order (pevs.filterMap PEvent.arrive?)
        ((PSys.start w0 workers).run sv pevs) ((Process.start w0 workers tlsFeature tlsOk plainOk).run sv allocOk evs) ∧
      pevs.filterMap PEvent.env? = evs.filterMap Happening.env? ∧
      SysRel sv log ((PSys.start w0 workers).run sv pevs)
        (SSys.run (requestProg sv.feat.urlVariables log) sv.write ⟨w0, workers, []⟩ pevs) := by
  obtain ⟨pevs, order, h1, h2⟩ := (ProcInv.start w0 workers tlsFeature tlsOk plainOk).run evs hd
  refine ⟨pevs, order, ?_, h2, ?_⟩
  · have e1 : decide ((Process.start w0 workers tlsFeature tlsOk plainOk).plain = .listening) = plainOk := by
      cases plainOk <;> simp [Process.start]
    have e2 : decide ((Process.start w0 workers tlsFeature tlsOk plainOk).tls = .listening) = (tlsFeature && tlsOk) := by
      cases tlsFeature <;> cases tlsOk <;> simp [Process.start]
    rw [e1, e2] at h1
    simpa using h1
  · refine SysRel.run hs pevs (y := PSys.start w0 workers) (z := ⟨w0, workers, []⟩) ⟨rfl, rfl, trivial⟩ ?_
    intro req hreq
    have hm : req ∈ pevs.filterMap PEvent.arrive? := List.mem_filterMap.2 ⟨_, hreq, rfl⟩
    obtain ⟨j, hj⟩ := List.getElem?_of_mem hm
    have hjl := (List.getElem?_eq_some_iff.1 hj).1
    have hl := h1.arrived
    simp only [List.nil_append] at hl h1
    have ho : order[j]? = some (order[j]'(by omega)) := by simp
    obtain ⟨_, _, r, -, g2, g3⟩ := h1.reqs j _ ho
    rw [hj] at g2
    injection g2 with g2
    rw [g2]
    exact Received.method g3

/-- where the connections stand, in terms of programs that take turns -/
theorem ConnAt.stands {log : List (PReg W)} (hs : SetUp sv log) {y : PSys W} {z : SSys W} (hr : SysRel sv log y z)
    {order : List Nat} {i : Nat} {s0 s : Sock} {t : PTask W} (h : ConnAt sv allocOk y.jobs order i s0 s t) :
    StandsFor sv z order i s0.bytes t := by
  have hget : ∀ {j : Nat} {a : Job W}, y.jobs[j]? = some a → ∃ b, z.jobs[j]? = some b ∧ JobRel sv log a b := by
    intro j a ha
    rcases hr.2.2.get j with ⟨e1, -⟩ | ⟨a', b, e1, e2, hab⟩
    · rw [e1] at ha; cases ha
    · rw [e1] at ha
      injection ha with ha
      subst ha
      exact ⟨b, e2, hab⟩
  have hans : ∀ out, AnsweredBy sv y.jobs order i s0.bytes out → Answered sv z order i s0.bytes out := by
    rintro out (⟨j, r, a, b⟩ | h)
    · obtain ⟨k, e, hk⟩ := hget b
      cases k <;> try exact hk.elim
      obtain ⟨rfl, rfl⟩ := hk
      exact .inl ⟨j, _, a, e⟩
    · exact .inr h
  cases t with
  | handshake => exact h.1
  | refused => exact h
  | reading r => exact h.1
  | handling req reads =>
    obtain ⟨-, j, a, b⟩ := h
    obtain ⟨k, e, hk⟩ := hget b
    have hsame := hk.same hs
    cases k <;> try exact hk.elim
    exact ⟨j, _, a, e, hsame⟩
  | writing sent rest => exact hans _ h
  | finished sent => exact hans _ h
  | broken sent => obtain ⟨rest, h⟩ := h; exact ⟨rest, hans _ h⟩
  | panicked =>
    rcases h with ⟨j, a, b⟩ | h
    · obtain ⟨k, e, hk⟩ := hget b
      cases k <;> try exact hk.elim
      exact .inl ⟨j, a, e⟩
    · exact .inr h

/-! ### threads -/

/-- every handling task is somewhere in its program -/
def SoundP (sv : PServer W) (log : List (PReg W)) (y : Process W) : Prop :=
  ∀ (i : Nat) (c : PConn W) req reads, y.conns[i]? = some c → c.task = .handling req reads →
    req.requestLine.method ≠ .all ∧ ∃ p, (requestProg sv.feat.urlVariables log req).after reads = (p, [])

theorem ProcInv.sound {log : List (PReg W)} {S : List (Bool × Sock)} {order : List Nat}
    {arr : List Request} {z : PSys W} {y : Process W} (h : ProcInv sv allocOk S order arr z y) {zz : SSys W}
    (hr : SysRel sv log z zz) : SoundP sv log y := by
  intro i c req reads hc ht
  obtain ⟨s0, -, hat⟩ := h.conns i c hc
  rw [ht] at hat
  obtain ⟨-, j, -, hj⟩ := hat
  exact hr.sound j req reads hj

/-- A task whose handlers return, given its turns, begins to write or panics. -/
theorem handling_ends {log : List (PReg W)} (hs : SetUp sv log) (i : Nat) (p : Prog W Reply) :
    ∀ (y : Process W) (c : PConn W) (req : Request) (reads : List W), y.dead = false → y.conns[i]? = some c →
      c.task = .handling req reads → req.requestLine.method ≠ .all →
      (requestProg sv.feat.urlVariables log req).after reads = (p, []) → p.Ends →
      ∃ (more : List (Happening W)) (w : W) (t : PTask W), (∀ e ∈ more, Happening.Internal e) ∧
        y.run sv allocOk more = y.put w i c t c.sock ∧ ((∃ out, t = .writing [] out) ∨ t = .panicked) := by
  induction p with
  | act u next ih =>
    intro y c req reads hd hc ht hm ha he
    have hst := stage_spec hs req hm reads
    rw [ha] at hst
    cases hstage : sv.stage req reads <;> rw [hstage] at hst <;> try exact hst.elim
    rename_i upd
    have hu : upd = u := hst
    subst hu
    have hstep : y.step sv allocOk (.access i) = y.put (upd y.world) i c (.handling req (reads ++ [y.world])) c.sock := by
      simp [Process.step, hd, hc, ht, hstage]
    have hi := (List.getElem?_eq_some_iff.1 hc).1
    obtain ⟨more, w, t, m1, m2, m3⟩ := ih y.world (y.step sv allocOk (.access i))
      { c with task := .handling req (reads ++ [y.world]) } req (reads ++ [y.world])
      (by rw [hstep]; exact hd) (by rw [hstep]; simp [Process.put, hi]) rfl hm
      (by rw [Prog.after_snoc ha, Prog.after_nil]) (he y.world)
    refine ⟨.access i :: more, w, t, ?_, ?_, m3⟩
    · intro e hm
      rcases List.mem_cons.1 hm with rfl | hm
      · trivial
      · exact m1 e hm
    · rw [Process.run_cons, m2, hstep]
      simp [Process.put]
  | ret r =>
    intro y c req reads hd hc ht hm ha he
    have hst := stage_spec hs req hm reads
    rw [ha] at hst
    cases hstage : sv.stage req reads <;> rw [hstage] at hst <;> try exact hst.elim
    rename_i r'
    refine ⟨[.finish i], y.world, .respond (sv.write y.world r'), by simp [Happening.Internal], ?_, ?_⟩
    · simp [Process.run, Process.step, hd, hc, ht, hstage]
    · cases sv.write y.world r' with
      | ok out => exact .inl ⟨out, rfl⟩
      | panic => exact .inr rfl
  | panic =>
    intro y c req reads hd hc ht hm ha he
    have hst := stage_spec hs req hm reads
    rw [ha] at hst
    cases hstage : sv.stage req reads <;> rw [hstage] at hst <;> try exact hst.elim
    refine ⟨[.finish i], y.world, .panicked, by simp [Happening.Internal], ?_, .inr rfl⟩
    simp [Process.run, Process.step, hd, hc, ht, hstage]
  | hang => intro y c req reads hd hc ht hm ha he; exact he.elim

theorem SoundP.put {log : List (PReg W)} {y : Process W} (h : SoundP sv log y) {i : Nat} {c : PConn W} {w : W}
    {t : PTask W} {s : Sock} (ht : ∀ req reads, t = .handling req reads → req.requestLine.method ≠ .all ∧
      ∃ p, (requestProg sv.feat.urlVariables log req).after reads = (p, [])) : SoundP sv log (y.put w i c t s) := by
  intro k x req reads hk hx
  simp only [Process.put, List.getElem?_set] at hk
  split at hk
  · split at hk
    · injection hk with hk
      subst hk
      exact ht req reads hx
    · cases hk
  · exact h k x req reads hk hx

/-- A thread becomes free, and the tasks that hold none stay as they are. -/
theorem free_process {log : List (PReg W)} (hs : SetUp sv log) (n : Nat) (y : Process W)
    (hn : y.conns.countP (·.task.busy) = n) (hd : y.dead = false) (hy : SoundP sv log y)
    (hh : y.conns.countP (MayHangConn sv log) < y.workers) :
    ∃ more : List (Happening W), (∀ e ∈ more, Happening.Internal e) ∧
      let y' := y.run sv allocOk more
      y'.free = true ∧ y'.dead = false ∧ SoundP sv log y' ∧ y'.conns.countP (MayHangConn sv log) < y'.workers ∧
      ∀ (i : Nat) (c : PConn W), y.conns[i]? = some c → c.task.busy = false → y'.conns[i]? = some c := by
  induction n using Nat.strongRecOn generalizing y with
  | _ n ih =>
    by_cases hb : y.conns.countP (·.task.busy) < y.workers
    · exact ⟨[], by simp, by simp only [Process.free, Process.run, List.foldl_nil]; exact decide_eq_true hb, hd, hy, hh, fun _ _ h _ => h⟩
    · have hex : ∃ c ∈ y.conns, c.task.busy = true ∧ MayHangConn sv log c = false := by
        apply Classical.byContradiction
        intro hcon
        have : y.conns.countP (·.task.busy) ≤ y.conns.countP (MayHangConn sv log) := by
          apply List.countP_mono_left
          intro j hj hbj
          cases hm : MayHangConn sv log j with
          | true => rfl
          | false => exact absurd ⟨j, hj, hbj, hm⟩ hcon
        omega
      obtain ⟨c, hc, hbc, hmc⟩ := hex
      obtain ⟨k, hk⟩ := List.getElem?_of_mem hc
      cases htask : c.task <;> rw [htask] at hbc <;> try cases hbc
      rename_i req reads
      have hends : (requestProg sv.feat.urlVariables log req).Ends := by
        simp only [MayHangConn, htask, decide_eq_false_iff_not, Classical.not_not] at hmc
        exact hmc
      obtain ⟨hm, p, hp⟩ := hy k c req reads hk htask
      obtain ⟨more, w, t, m1, m2, m3⟩ := handling_ends (allocOk := allocOk) hs k p y c req reads hd hk htask hm hp (by
        have := hends.after reads; rw [hp] at this; exact this)
      have htb : t.busy = false := by rcases m3 with ⟨_, rfl⟩ | rfl <;> rfl
      have htm : MayHangConn sv log { c with task := t } = false := by
        rcases m3 with ⟨_, rfl⟩ | rfl <;> rfl
      have hcount := countP_set_eq (b := { c with task := t }) (fun c : PConn W => c.task.busy) hk
      have hcountM := countP_set_eq (b := { c with task := t }) (MayHangConn sv log) hk
      simp only [htask, htb, show (PTask.handling (W := W) req reads).busy = true from rfl, Bool.toNat_true,
        Bool.toNat_false] at hcount
      rw [htm, hmc] at hcountM
      simp only [Bool.toNat_false] at hcountM
      obtain ⟨more', n1, n2, n3, n4, n5, n6⟩ := ih ((y.put w k c t c.sock).conns.countP (·.task.busy))
        (by simp only [Process.put]; omega) (y.put w k c t c.sock) rfl hd
        (hy.put (by intro q rs hq; rcases m3 with ⟨_, rfl⟩ | rfl <;> cases hq))
        (by simp only [Process.put]; omega)
      refine ⟨more ++ more', ?_, ?_⟩
      · intro e he
        rcases List.mem_append.1 he with he | he
        · exact m1 e he
        · exact n1 e he
      · simp only [Process.run_append, m2]
        refine ⟨n2, n3, n4, n5, fun i x hx hxb => n6 i x ?_ hxb⟩
        simp only [Process.put]
        rw [List.getElem?_set_ne (by rintro rfl; rw [hk] at hx; cases hx; rw [htask] at hxb; cases hxb)]
        exact hx

theorem Process.put_get {y : Process W} {i : Nat} {c : PConn W} (hc : y.conns[i]? = some c) (w : W) (t : PTask W)
    (s : Sock) : (y.put w i c t s).conns[i]? = some { c with task := t, sock := s } := by
  simp [Process.put, (List.getElem?_eq_some_iff.1 hc).1]

/-- a change of one task that might not hold up a thread -/
theorem Process.put_mayHang {log : List (PReg W)} {y : Process W} {i : Nat} {c : PConn W} (hc : y.conns[i]? = some c)
    (w : W) (t : PTask W) (s : Sock) (ht : MayHangConn sv log { c with task := t, sock := s } = false)
    (h : y.conns.countP (MayHangConn sv log) < y.workers) :
    (y.put w i c t s).conns.countP (MayHangConn sv log) < (y.put w i c t s).workers := by
  have := countP_set_eq (b := { c with task := t, sock := s }) (MayHangConn sv log) hc
  rw [ht] at this
  simp only [Bool.toNat_false] at this
  simp only [Process.put]
  omega

/-- An answer that is being written gets written. -/
theorem writing_ends {log : List (PReg W)} (hs : SetUp sv log) (y : Process W) (hd : y.dead = false)
    (hy : SoundP sv log y) (hh : y.conns.countP (MayHangConn sv log) < y.workers) {i : Nat} {c : PConn W}
    {sent rest : Bytes} (hc : y.conns[i]? = some c) (ht : c.task = .writing sent rest) :
    ∃ more : List (Happening W), (∀ e ∈ more, Happening.Internal e) ∧
      ∃ c', (y.run sv allocOk more).conns[i]? = some c' ∧ EndedTask c'.task := by
  obtain ⟨more, m1, m2, m3, m4, m5, m6⟩ := free_process (allocOk := allocOk) hs _ y rfl hd hy hh
  have hc' := m6 i c hc (by rw [ht]; rfl)
  refine ⟨more ++ [.write i rest.length], ?_, ?_⟩
  · intro e he
    rcases List.mem_append.1 he with he | he
    · exact m1 e he
    · rw [List.mem_singleton.1 he]; trivial
  · rw [Process.run_append]
    have hstep : (y.run sv allocOk more).run sv allocOk [.write i rest.length] =
        (y.run sv allocOk more).put (y.run sv allocOk more).world i c (.finished (sent ++ rest)) c.sock := by
      simp [Process.run] at m2 m3 hc' ⊢
      simp [Process.step, m2, m3, hc', ht, PTask.writeStep]
    rw [hstep]
    exact ⟨_, Process.put_get hc' _ _ _, trivial⟩

/-- A task that handles a request whose handlers return comes to its end. -/
theorem handling_done {log : List (PReg W)} (hs : SetUp sv log) (y : Process W) (hd : y.dead = false)
    (hy : SoundP sv log y) (hh : y.conns.countP (MayHangConn sv log) < y.workers) {i : Nat} {c : PConn W}
    {req : Request} {reads : List W} (hc : y.conns[i]? = some c) (ht : c.task = .handling req reads)
    (he : (requestProg sv.feat.urlVariables log req).Ends) :
    ∃ more : List (Happening W), (∀ e ∈ more, Happening.Internal e) ∧
      ∃ c', (y.run sv allocOk more).conns[i]? = some c' ∧ EndedTask c'.task := by
  obtain ⟨hm, p, hp⟩ := hy i c req reads hc ht
  obtain ⟨more, w, t, m1, m2, m3⟩ := handling_ends (allocOk := allocOk) hs i p y c req reads hd hc ht hm hp (by
    have := he.after reads; rw [hp] at this; exact this)
  rcases m3 with ⟨out, rfl⟩ | rfl
  · obtain ⟨more', n1, n2⟩ := writing_ends (allocOk := allocOk) hs (y.put w i c (.writing [] out) c.sock) hd
      (hy.put (by intro q rs hq; cases hq)) (Process.put_mayHang hc _ _ _ rfl hh) (Process.put_get hc _ _ _) rfl
    refine ⟨more ++ more', ?_, by rw [Process.run_append, m2]; exact n2⟩
    intro e he
    rcases List.mem_append.1 he with he | he
    · exact m1 e he
    · exact n1 e he
  · exact ⟨more, m1, by rw [m2]; exact ⟨_, Process.put_get hc _ _ _, trivial⟩⟩

/-- A task whose client does not keep it waiting comes to its end. -/
theorem reading_done {log : List (PReg W)} (hs : SetUp sv log) (n : Nat) :
    ∀ (y : Process W) (i : Nat) (c : PConn W) (r : Reading), y.dead = false → SoundP sv log y →
    y.conns.countP (MayHangConn sv log) < y.workers → y.conns[i]? = some c → c.task = .reading r → r.Ok →
    c.sock.bytes.length = n → readRest sv.feat allocOk c.sock r ≠ .pending →
    readRest sv.feat allocOk c.sock r ≠ .abort →
    (∀ req, readRest sv.feat allocOk c.sock r = .ok (some req) →
      req.requestLine.method ≠ .all ∧ (requestProg sv.feat.urlVariables log req).Ends) →
    ∃ more : List (Happening W), (∀ e ∈ more, Happening.Internal e) ∧
      ∃ c', (y.run sv allocOk more).conns[i]? = some c' ∧ EndedTask c'.task := by
  induction n using Nat.strongRecOn with
  | _ n ih =>
    intro y0 i c r hd0 hy0 hh0 hc0 ht hok hn hp ha hreq
    obtain ⟨more, m1, m2, m3, m4, m5, m6⟩ := free_process (allocOk := allocOk) hs _ y0 rfl hd0 hy0 hh0
    have hc := m6 i c hc0 (by rw [ht]; rfl)
    revert m2 m3 m4 m5 hc
    generalize hY : y0.run sv allocOk more = y
    intro hf hd hy hh hc
    -- it is enough to go on from here
    suffices hgo : ∃ more : List (Happening W), (∀ e ∈ more, Happening.Internal e) ∧
        ∃ c', (y.run sv allocOk more).conns[i]? = some c' ∧ EndedTask c'.task by
      obtain ⟨more', n1, n2⟩ := hgo
      refine ⟨more ++ more', ?_, by rw [Process.run_append, hY]; exact n2⟩
      intro e he
      rcases List.mem_append.1 he with he | he
      · exact m1 e he
      · exact n1 e he
    have step1 : ∀ {y' : Process W}, y.step sv allocOk (.poll i) = y' →
        (∃ more : List (Happening W), (∀ e ∈ more, Happening.Internal e) ∧
          ∃ c', (y'.run sv allocOk more).conns[i]? = some c' ∧ EndedTask c'.task) →
        ∃ more : List (Happening W), (∀ e ∈ more, Happening.Internal e) ∧
          ∃ c', (y.run sv allocOk more).conns[i]? = some c' ∧ EndedTask c'.task := by
      rintro y' hy' ⟨more', n1, n2⟩
      refine ⟨.poll i :: more', ?_, by rw [Process.run_cons, hy']; exact n2⟩
      intro e he
      rcases List.mem_cons.1 he with rfl | he
      · trivial
      · exact n1 e he
    have hspec := turn_spec sv.feat allocOk r c.sock hok
    cases hturn : r.turn sv.feat allocOk c.sock with
    | waits r' s' =>
      rw [hturn] at hspec
      obtain ⟨hok', heq, hlt⟩ := hspec
      have hlt : s'.bytes.length < c.sock.bytes.length := by
        rcases hlt with h | ⟨-, -, h⟩
        · exact h
        · exact absurd h hp
      refine step1 (y' := y.put y.world i c (.reading r') s') (by simp [Process.step, hd, hc, ht, hf, hturn]) ?_
      exact ih s'.bytes.length (by omega) _ i { c with task := .reading r', sock := s' } r' hd
        (hy.put (by intro q rs hq; cases hq)) (Process.put_mayHang hc _ _ _ rfl hh) (Process.put_get hc _ _ _) rfl hok' rfl
        (by simp only [heq]; exact hp) (by simp only [heq]; exact ha) (by simp only [heq]; exact hreq)
    | bad s' =>
      refine step1 (y' := y.put y.world i c (.respond (sv.write y.world (.page .badRequest))) s')
        (by simp [Process.step, hd, hc, ht, hf, hturn]) ?_
      cases hw : sv.write y.world (.page .badRequest) with
      | panic => exact ⟨[], by simp, _, Process.put_get hc _ _ _, trivial⟩
      | ok out =>
        exact writing_ends hs (y.put y.world i c (.writing [] out) s') hd (hy.put (by intro q rs hq; cases hq)) (Process.put_mayHang hc _ _ _ rfl hh)
          (Process.put_get hc _ _ _) rfl
    | panicked s' =>
      refine step1 (y' := y.put y.world i c .panicked s') (by simp [Process.step, hd, hc, ht, hf, hturn]) ?_
      exact ⟨[], by simp, _, Process.put_get hc _ _ _, trivial⟩
    | abort =>
      rw [hturn] at hspec
      exact absurd hspec ha
    | request req s' =>
      rw [hturn] at hspec
      obtain ⟨q1, q2⟩ := hreq req hspec
      refine step1 (y' := y.put y.world i c (.handling req []) s') (by simp [Process.step, hd, hc, ht, hf, hturn]) ?_
      refine handling_done hs (y.put y.world i c (.handling req []) s') hd (hy.put ?_) (Process.put_mayHang hc _ _ _ ?_ hh) (Process.put_get hc _ _ _) rfl q2
      · intro q rs hq
        cases hq
        exact ⟨q1, _, Prog.after_nil _⟩
      · simp [MayHangConn, q2]

/-! ### all threads held up -/

theorem stuck_step {y : Process W} (h : y.workers ≤ y.conns.countP (StuckConn sv)) (e : Happening W) :
    (y.step sv allocOk e).workers ≤ (y.step sv allocOk e).conns.countP (StuckConn sv) ∧
    ∀ (i : Nat) (c : PConn W), y.conns[i]? = some c → c.task.busy = false →
      (y.step sv allocOk e).conns[i]? = some c := by
  have hfree : y.free = false := by
    have : y.conns.countP (StuckConn sv) ≤ y.conns.countP (·.task.busy) := by
      apply List.countP_mono_left
      intro c _ hc
      unfold StuckConn at hc
      split at hc
      · rename_i ht; rw [ht]; rfl
      · cases hc
    simp only [Process.free, decide_eq_false_iff_not]
    omega
  have same : ∀ {y' : Process W}, y'.workers = y.workers → y'.conns = y.conns →
      y'.workers ≤ y'.conns.countP (StuckConn sv) ∧
      ∀ (i : Nat) (c : PConn W), y.conns[i]? = some c → c.task.busy = false → y'.conns[i]? = some c := by
    intro y' h1 h2
    rw [h1, h2]
    exact ⟨h, fun _ _ hc _ => hc⟩
  have change : ∀ (i : Nat) (c : PConn W) (w : W) (t : PTask W) (s : Sock), y.conns[i]? = some c →
      StuckConn sv c = false → c.task.busy = true →
      (y.put w i c t s).workers ≤ (y.put w i c t s).conns.countP (StuckConn sv) ∧
      ∀ (k : Nat) (x : PConn W), y.conns[k]? = some x → x.task.busy = false → (y.put w i c t s).conns[k]? = some x := by
    intro i c w t s hc hst hb
    refine ⟨?_, ?_⟩
    · have := countP_set_le (b := { c with task := t, sock := s }) (StuckConn sv) hc hst
      simp only [Process.put]
      omega
    · intro k x hx hxb
      simp only [Process.put]
      rw [List.getElem?_set_ne (by rintro rfl; rw [hc] at hx; cases hx; rw [hb] at hxb; cases hxb)]
      exact hx
  unfold Process.step
  split
  · exact same rfl rfl
  · cases e with
    | connect tls s =>
      simp only
      split
      · refine ⟨?_, ?_⟩
        · simp only [List.countP_append]; omega
        · intro i c hc _
          rw [List.getElem?_append_left (List.getElem?_eq_some_iff.1 hc).1]
          exact hc
      · exact same rfl rfl
    | acceptErr tls => simp only; split <;> (try split) <;> exact same rfl rfl
    | handshake i ok => simp only [hfree]; split <;> exact same rfl rfl
    | poll i =>
      simp only [hfree]
      split
      · split <;> exact same rfl rfl
      · exact same rfl rfl
    | access i =>
      simp only
      split
      · rename_i c hc
        split
        · rename_i req reads ht
          split
          · rename_i upd hst
            exact change i c _ _ _ hc (by simp [StuckConn, ht, hst]) (by rw [ht]; rfl)
          · exact same rfl rfl
        · exact same rfl rfl
      · exact same rfl rfl
    | finish i =>
      simp only
      split
      · rename_i c hc
        split
        · rename_i req reads ht
          split
          · rename_i r hst
            exact change i c _ _ _ hc (by simp [StuckConn, ht, hst]) (by rw [ht]; rfl)
          · rename_i hst
            exact change i c _ _ _ hc (by simp [StuckConn, ht, hst]) (by rw [ht]; rfl)
          · exact same rfl rfl
        · exact same rfl rfl
      · exact same rfl rfl
    | write i n => simp only [hfree]; split <;> exact same rfl rfl
    | writeErr i => simp only [hfree]; split <;> exact same rfl rfl
    | env f => exact same rfl rfl
    | exit => simp only; split <;> exact same rfl rfl

theorem stuck_run (evs : List (Happening W)) {y : Process W} (h : y.workers ≤ y.conns.countP (StuckConn sv))
    (i : Nat) (c : PConn W) (hc : y.conns[i]? = some c) (hb : c.task.busy = false) :
    (y.run sv allocOk evs).conns[i]? = some c := by
  induction evs generalizing y with
  | nil => exact hc
  | cons e evs ih =>
    obtain ⟨h1, h2⟩ := stuck_step (allocOk := allocOk) h e
    exact ih h1 (h2 i c hc hb)

/-! ### one after the other -/

/-- the same with the connections as numbers -/
def Spec.Item.rename (f : Nat → Nat) : Item W → Item W
  | .job i p => .job (f i) p
  | .env g => .env g

theorem serially_rename (f : Nat → Nat) (items : List (Item W)) (w : W) :
    serially w (items.map (Item.rename f)) =
      ((serially w items).1, (serially w items).2.map fun x => (f x.1, x.2)) := by
  induction items generalizing w with
  | nil => rfl
  | cons x items ih => cases x <;> simp [serially, Item.rename, ih]

theorem rename_job (f : Nat → Nat) (items : List (Item W)) :
    (items.map (Item.rename f)).filterMap Item.job? = (items.filterMap Item.job?).map f := by
  induction items with
  | nil => rfl
  | cons x items ih => cases x <;> simp [Item.rename, Item.job?, List.filterMap_cons, ih]

theorem rename_env (f : Nat → Nat) (items : List (Item W)) :
    (items.map (Item.rename f)).filterMap Item.env? = items.filterMap Item.env? := by
  induction items with
  | nil => rfl
  | cons x items ih => cases x <;> simp [Item.rename, Item.env?, List.filterMap_cons, ih]

theorem nodup_map_on {f : Nat → Nat} {l : List Nat} (h : l.Nodup)
    (hf : ∀ a ∈ l, ∀ b ∈ l, f a = f b → a = b) : (l.map f).Nodup := by
  induction l with
  | nil => exact List.nodup_nil
  | cons x l ih =>
    rw [List.nodup_cons] at h
    rw [List.map_cons, List.nodup_cons]
    refine ⟨?_, ih h.2 fun a ha b hb => hf a (List.mem_cons_of_mem _ ha) b (List.mem_cons_of_mem _ hb)⟩
    intro hx
    obtain ⟨a, ha, he⟩ := List.mem_map.1 hx
    rw [hf a (List.mem_cons_of_mem _ ha) x (by simp) he] at ha
    exact h.1 ha

theorem nodup_get {l : List Nat} (h : l.Nodup) {i j a : Nat} (hi : l[i]? = some a) (hj : l[j]? = some a) : i = j := by
  induction l generalizing i j with
  | nil => simp at hi
  | cons x l ih =>
    rw [List.nodup_cons] at h
    cases i with
    | zero =>
      cases j with
      | zero => rfl
      | succ j =>
        simp only [List.getElem?_cons_zero, Option.some.injEq, List.getElem?_cons_succ] at hi hj
        rw [← hi] at hj
        exact absurd (List.mem_of_getElem? hj) h.1
    | succ i =>
      cases j with
      | zero =>
        simp only [List.getElem?_cons_zero, Option.some.injEq, List.getElem?_cons_succ] at hi hj
        rw [← hj] at hi
        exact absurd (List.mem_of_getElem? hi) h.1
      | succ j =>
        simp only [List.getElem?_cons_succ] at hi hj
        rw [ih h.2 hi hj]

/-- what is sent is what was written -/
theorem SSys.done_write (prog : Request → Prog W Reply) (write : W → Reply → Res Bytes) (evs : List (PEvent W))
    (z : SSys W) (h : ∀ (j : Nat) r b, z.jobs[j]? = some (SJob.done r b) → ∃ w, write w r = .ok b) :
    ∀ (j : Nat) r b, (z.run prog write evs).jobs[j]? = some (SJob.done r b) → ∃ w, write w r = .ok b := by
  induction evs generalizing z with
  | nil => exact h
  | cons e evs ih =>
    have hset : ∀ (w : W) (i : Nat) (x : SJob W), (∀ r b, x = .done r b → ∃ w, write w r = .ok b) →
        ∀ (j : Nat) r b, (({ z with world := w, jobs := z.jobs.set i x } : SSys W)).jobs[j]? = some (SJob.done r b) →
          ∃ w, write w r = .ok b := by
      intro w i x hx j r b hj
      simp only [List.getElem?_set] at hj
      split at hj
      · split at hj
        · injection hj with hj
          exact hx r b hj
        · cases hj
      · exact h j r b hj
    apply ih
    cases e with
    | arrive req =>
      intro j r b hj
      simp only [SSys.step, List.getElem?_append] at hj
      split at hj
      · exact h j r b hj
      · cases hk : j - z.jobs.length with
        | zero => rw [hk] at hj; simp at hj
        | succ k => rw [hk] at hj; simp at hj
    | env f => exact h
    | start i =>
      simp only [SSys.step]
      split
      · split
        · exact hset z.world _ _ (by intro r b hx; cases hx)
        · exact h
      · exact h
    | access i =>
      simp only [SSys.step]
      split
      · exact hset _ _ _ (by intro r b hx; cases hx)
      · exact h
    | finish i =>
      simp only [SSys.step]
      split
      · split
        · rename_i r' bytes hw
          exact hset z.world _ _ (by intro r b hx; cases hx; exact ⟨_, hw⟩)
        · exact hset z.world _ _ (by intro r b hx; cases hx)
      · exact hset z.world _ _ (by intro r b hx; cases hx)
      · exact h

end Octane
