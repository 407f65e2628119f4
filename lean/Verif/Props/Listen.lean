import Verif.Proof.Listen
import Verif.Props.Server
/-
Properties of concurrent executions (C48) and of the accept loops (C49). Executions are arbitrary lists
of events from the start of the server; nothing is assumed about the scheduler.
-/
namespace Octane
open Spec

section
variable {W : Type u}

/-- Every concurrent execution is equivalent to serving connections one at a time, each as a whole and
at most once, interrupted only by the other changes of the shared state, in the order in which things
happened: the shared state at the end is the same, and every connection has been sent exactly what it
was sent there (a prefix while it is still writing; nothing before its request is complete, nor if
serving it panics). -/
theorem C48_sequential (sv : Server W) (w0 : W) (tlsFeature tlsOk plainOk : Bool)
    (evs : List (Event W)) (hd : ((Sys.start w0 tlsFeature tlsOk plainOk).run sv evs).dead = false) :
    let y := (Sys.start w0 tlsFeature tlsOk plainOk).run sv evs
    ∃ log : List (SeqStep W),
      -- the same changes of the shared state, and otherwise a subsequence of the reads
      log.filterMap SeqStep.env? = evs.filterMap Event.env? ∧
      (log.map SeqStep.key).Sublist (evs.filterMap Event.key) ∧
      -- every connection is served at most once, and it is given its own bytes
      (log.filterMap SeqStep.conn?).Nodup ∧
      (∀ i s, SeqStep.serve i s ∈ log →
        ∃ tls, (accepted plainOk (tlsFeature && tlsOk) evs)[i]? = some (tls, s)) ∧
      (sequential sv w0 log).1 = y.world ∧
      ∀ i c, y.conns[i]? = some c → Agrees (sequential sv w0 log).2 i c.task := by
  have hacc : accepted ((Sys.start w0 tlsFeature tlsOk plainOk).plain = .listening)
      ((Sys.start w0 tlsFeature tlsOk plainOk).tls = .listening) evs =
      accepted plainOk (tlsFeature && tlsOk) evs := by
    cases tlsFeature <;> cases tlsOk <;> cases plainOk <;> rfl
  obtain ⟨l, h, h1, h2⟩ := (Inv.start (sv := sv) w0 tlsFeature tlsOk plainOk).run evs hd
  rw [hacc] at h
  simp only [List.nil_append] at h
  exact ⟨l, h2, h1, h.nodup, h.src, h.world, fun i c hc => (h.conns i c hc).elim fun _ hh => hh.2.1⟩

/-- An event of one connection changes no other connection, and the listeners only through the end of
the process. -/
theorem C48_frame (sv : Server W) (y : Sys W) (i j : Nat) (hij : j ≠ i) (e : Event W) (he : About i e) :
    (y.step sv e).conns[j]? = y.conns[j]? ∧ (y.step sv e).plain = y.plain ∧ (y.step sv e).tls = y.tls := by
  refine ⟨?_, step_listeners y e (by rintro tls rfl; exact he)⟩
  unfold Sys.step
  split
  · rfl
  · cases e with
    | handshake k ok =>
      have hk : k = i := he
      simp only
      split
      · simp [Sys.setTask, hk, Ne.symm hij]
      · rfl
    | poll k =>
      have hk : k = i := he
      simp only
      split
      · split
        · simp [hk, Ne.symm hij]
        · rfl
      · rfl
    | write k n =>
      have hk : k = i := he
      simp only
      split
      · simp [Sys.setTask, hk, Ne.symm hij]
      · rfl
    | writeErr k =>
      have hk : k = i := he
      simp only
      split
      · simp [Sys.setTask, hk, Ne.symm hij]
      · rfl
    | _ => exact absurd he id

/-- However the execution went so far: once all reads of a connection that waits for its request have
been completed, its outcome is that of serving its bytes alone in the present shared state, and if that
is a panic nothing but its own task is changed. -/
theorem C48_progress (sv : Server W) (w0 : W) (tlsFeature tlsOk plainOk : Bool) (evs : List (Event W))
    (hd : ((Sys.start w0 tlsFeature tlsOk plainOk).run sv evs).dead = false) (i : Nat) (c : Conn)
    (hc : ((Sys.start w0 tlsFeature tlsOk plainOk).run sv evs).conns[i]? = some c)
    (hw : Waiting c.task) :
    let y := (Sys.start w0 tlsFeature tlsOk plainOk).run sv evs
    ∃ s, (accepted plainOk (tlsFeature && tlsOk) evs)[i]? = some (c.tls, s) ∧
      ∃ n, ∀ m, n ≤ m →
        Outcome y (y.run sv (List.replicate m (.poll i))) i c.tls (sv.serve y.world s) := by
  have hacc : accepted ((Sys.start w0 tlsFeature tlsOk plainOk).plain = .listening)
      ((Sys.start w0 tlsFeature tlsOk plainOk).tls = .listening) evs =
      accepted plainOk (tlsFeature && tlsOk) evs := by
    cases tlsFeature <;> cases tlsOk <;> cases plainOk <;> rfl
  obtain ⟨l, h, -, -⟩ := (Inv.start (sv := sv) w0 tlsFeature tlsOk plainOk).run evs hd
  rw [hacc] at h
  simp only [List.nil_append] at h
  obtain ⟨s, h1, -, h3⟩ := h.conns i c hc
  refine ⟨s, h1, c.sock.bytes.length + 1, fun m hm => ?_⟩
  have := reads_spec (sv := sv) m _ i c hd hc (h3.reading hw) (by omega)
  rw [h3.resume hw] at this
  exact this

/-- Every connection gets the response it would have got alone: for every execution and every accepted
connection whose outcome does not depend on the shared state, if it would be answered alone then it can
be (and, if its events happen, is) answered so here, whatever the others do. -/
def C48_statement : Prop :=
  ∀ (W : Type) (sv : Server W) (w0 : W) (tlsFeature tlsOk plainOk : Bool) (evs : List (Event W))
    (i : Nat) (tls : Bool) (s : Sock) (bs : Bytes),
    (∀ e ∈ evs, e ≠ .exit) →
    (accepted plainOk (tlsFeature && tlsOk) evs)[i]? = some (tls, s) →
    (∀ w, visible (sv.serve w s) = .ok bs) → (∀ e ∈ evs, Healthy i e) →
    ∃ more, (∀ e ∈ more, About i e) ∧ ∃ c,
      ((Sys.start w0 tlsFeature tlsOk plainOk).run sv (evs ++ more)).conns[i]? = some c ∧
      c.task = .finished bs

/-- It holds as long as the process lives. -/
theorem C48_alone_partial (sv : Server W) (w0 : W) (tlsFeature tlsOk plainOk : Bool)
    (evs : List (Event W)) (hd : ((Sys.start w0 tlsFeature tlsOk plainOk).run sv evs).dead = false)
    (i : Nat) (tls : Bool) (s : Sock) (bs : Bytes)
    (hi : (accepted plainOk (tlsFeature && tlsOk) evs)[i]? = some (tls, s))
    (hbs : ∀ w, visible (sv.serve w s) = .ok bs) (hh : ∀ e ∈ evs, Healthy i e) :
    ∃ more, (∀ e ∈ more, About i e) ∧ ∃ c,
      ((Sys.start w0 tlsFeature tlsOk plainOk).run sv (evs ++ more)).conns[i]? = some c ∧
      c.task = .finished bs := by
  have hacc : accepted ((Sys.start w0 tlsFeature tlsOk plainOk).plain = .listening)
      ((Sys.start w0 tlsFeature tlsOk plainOk).tls = .listening) evs =
      accepted plainOk (tlsFeature && tlsOk) evs := by
    cases tlsFeature <;> cases tlsOk <;> cases plainOk <;> rfl
  obtain ⟨l, h, -, -⟩ := (Inv.start (sv := sv) w0 tlsFeature tlsOk plainOk).run evs hd
  rw [hacc] at h
  simp only [List.nil_append] at h
  have hsound := run_sound (sv := sv) i evs (Inv.start w0 tlsFeature tlsOk plainOk)
    (by simp [Sys.start]) hd hh
  simp only [run_append]
  revert hd h hsound
  generalize (Sys.start w0 tlsFeature tlsOk plainOk).run sv evs = y
  intro hd h hsound
  have hlt : i < y.conns.length := by rw [h.len]; exact (List.getElem?_eq_some_iff.1 hi).1
  have hc : y.conns[i]? = some y.conns[i] := List.getElem?_eq_getElem hlt
  revert hc
  generalize y.conns[i] = c
  intro hc
  obtain ⟨s', h1, h2, h3⟩ := h.conns i c hc
  obtain rfl : s' = s := by rw [hi] at h1; injection h1 with h1; injection h1 with _ h1; exact h1.symm
  have hserve : ∀ w, ∃ w', sv.serve w s' = .ok (w', bs) := by
    intro w
    have := hbs w
    cases hs : sv.serve w s' with
    | ok p =>
      rw [hs] at this
      simp only [visible, Io.ok.injEq] at this
      exact ⟨p.1, by rw [← this]⟩
    | _ => rw [hs] at this; simp [visible] at this
  -- what a sequential execution answers can only be `bs`
  have houts : ∀ o, (i, o) ∈ (sequential sv w0 l).2 → o = .ok bs := by
    intro o ho
    obtain ⟨w', x, hx, rfl⟩ := sequential_mem sv w0 l i o ho
    obtain ⟨t, ht⟩ := h.src i x hx
    rw [hi] at ht
    injection ht with ht
    injection ht with _ ht
    subst ht
    exact hbs w'
  -- finishing the writing
  have write : ∀ (z : Sys W) (d : Conn) (sent rest : Bytes), z.dead = false → z.conns[i]? = some d →
      d.task = .writing sent rest → sent ++ rest = bs →
      ∃ c, (z.run sv [.write i bs.length]).conns[i]? = some c ∧ c.task = .finished bs := by
    intro z d sent rest hz hd ht hb
    refine ⟨{ d with task := .finished bs }, ?_, rfl⟩
    have hle : rest.length ≤ bs.length := by rw [← hb]; simp
    obtain ⟨hlt, hget⟩ := List.getElem?_eq_some_iff.1 hd
    simp [Sys.run, Sys.step, hz, Sys.setTask, hget, ht, Sys.writeStep, hle, hb, hlt]
  -- reading and writing
  have read : ∀ (z : Sys W) (d : Conn), z.dead = false → z.conns[i]? = some d → d.task.reading →
      (∀ w, resume sv w d.sock d.task = sv.serve w s') →
      ∃ more, (∀ e ∈ more, About i e) ∧
        ∃ c, (z.run sv more).conns[i]? = some c ∧ c.task = .finished bs := by
    intro z d hz hd hr hres
    have := reads_spec (sv := sv) (d.sock.bytes.length + 1) z i d hz hd hr (by omega)
    rw [hres] at this
    obtain ⟨w', hw'⟩ := hserve z.world
    rw [hw'] at this
    obtain ⟨x, hx⟩ := this
    have hlt := (List.getElem?_eq_some_iff.1 hd).1
    refine ⟨List.replicate (d.sock.bytes.length + 1) (.poll i) ++ [.write i bs.length], ?_, ?_⟩
    · intro e he
      rcases List.mem_append.1 he with he | he
      · rw [List.eq_of_mem_replicate he]; rfl
      · rw [List.mem_singleton.1 he]; rfl
    · rw [run_append, hx]
      exact write _ ⟨d.tls, .writing [] bs, x⟩ [] bs hz (by simp [hlt]) rfl rfl
  have hso := hsound c hc
  obtain ⟨ctls, t, sock⟩ := c
  cases t with
  | handshake =>
    have hsk : sock = s' := h3
    subst hsk
    have hstep : y.step sv (.handshake i true) = y.setTask i ⟨ctls, .head [], sock⟩ := by
      simp [Sys.step, hd, hc, Sys.handshakeStep]
    obtain ⟨more, hm, c, hc', hf⟩ := read (y.setTask i ⟨ctls, .head [], sock⟩) ⟨ctls, .head [], sock⟩ hd
      (by simp [Sys.setTask, hlt]) trivial (fun w => serve_resume sv w sock)
    refine ⟨.handshake i true :: more, ?_, c, ?_, hf⟩
    · intro e he
      rcases List.mem_cons.1 he with rfl | he
      · rfl
      · exact hm e he
    · rw [run_cons, hstep]; exact hc'
  | head data => exact read y _ hd hc h3.1 h3.2
  | body a b g n => exact read y _ hd hc h3.1 h3.2
  | writing sent rest =>
    have := houts _ h2
    injection this with this
    obtain ⟨c, hc', hf⟩ := write y _ sent rest hd hc rfl this
    exact ⟨[.write i bs.length], by intro e he; rw [List.mem_singleton.1 he]; rfl, c, hc', hf⟩
  | finished sent =>
    have := houts _ h2
    injection this with this
    exact ⟨[], by simp, _, hc, by rw [this]⟩
  | broken sent => exact absurd hso id
  | panicked => have := houts _ h2; cases this
  | refused => exact absurd hso id

/-- The process ends only if an allocation fails, or after the plain listener has ended. -/
theorem C48_alive (sv : Server W) (halloc : ∀ n, sv.allocOk n = true) (w0 : W)
    (tlsFeature tlsOk plainOk : Bool) (evs : List (Event W)) (he : ∀ e ∈ evs, e ≠ .exit) :
    ((Sys.start w0 tlsFeature tlsOk plainOk).run sv evs).dead = false := by
  suffices h : ∀ (y : Sys W), y.dead = false → (y.run sv evs).dead = false from h _ rfl
  induction evs with
  | nil => intro y h; exact h
  | cons e evs ih =>
    intro y hy
    rw [run_cons]
    apply ih (fun e' h' => he e' (List.mem_cons_of_mem _ h'))
    have hne := he e (List.mem_cons_self ..)
    unfold Sys.step
    have hdn : ¬ y.dead = true := by simp [hy]
    rw [if_neg hdn]
    cases e with
    | connect tls s => simp only; split <;> exact hy
    | acceptErr tls =>
      simp only
      split
      · split <;> exact hy
      · exact hy
    | env f => exact hy
    | exit => exact absurd rfl hne
    | poll i =>
      simp only
      split
      · rename_i c _
        have hr : ∀ (w : W) s x, Server.respond w s x ≠ none := by
          intro w s x
          cases x <;> simp [Server.respond]
        have hb' : ∀ w s headers line body, sv.withBody w headers line body s ≠ none := by
          intro w s headers line body
          unfold Server.withBody
          split
          · simp
          · exact hr _ _ _
          · exact hr _ _ _
        have hp : sv.poll y.world c.task c.sock ≠ none := by
          unfold Server.poll
          split
          · split
            · simp
            · simp
            · split
              · exact hr _ _ _
              · split
                · simp
                · unfold Server.withHead
                  simp only [halloc, Bool.not_true, Bool.false_eq_true, if_false]
                  split
                  · simp
                  · split
                    · simp
                    · split
                      · split
                        · split <;> simp
                        · exact hb' _ _ _ _ _
                      · exact hb' _ _ _ _ _
                · exact hr _ _ _
                · simp
          · split
            · simp
            · simp
            · split
              · simp
              · simp only [halloc, Bool.not_true, Bool.false_eq_true, if_false]
                split
                · split
                  · simp
                  · exact hb' _ _ _ _ _
                · simp
          · simp
        cases hpo : sv.poll y.world c.task c.sock with
        | none => exact absurd hpo hp
        | some r => exact hy
      · exact hy
    | _ => simp only; split <;> exact hy


/-! ### the accept loops -/

/-- A task is spawned for exactly the connections that arrive at an open listener before its first accept
error, in order of arrival, on the listener they arrive at. (What becomes of them: C48.) -/
theorem C49_exact (sv : Server W) (w0 : W) (tlsFeature tlsOk plainOk : Bool)
    (evs : List (Event W)) (hd : ((Sys.start w0 tlsFeature tlsOk plainOk).run sv evs).dead = false) :
    ((Sys.start w0 tlsFeature tlsOk plainOk).run sv evs).conns.map (·.tls) =
      (accepted plainOk (tlsFeature && tlsOk) evs).map (·.1) := by
  have hacc : accepted ((Sys.start w0 tlsFeature tlsOk plainOk).plain = .listening)
      ((Sys.start w0 tlsFeature tlsOk plainOk).tls = .listening) evs =
      accepted plainOk (tlsFeature && tlsOk) evs := by
    cases tlsFeature <;> cases tlsOk <;> cases plainOk <;> rfl
  obtain ⟨l, h, -, -⟩ := (Inv.start (sv := sv) w0 tlsFeature tlsOk plainOk).run evs hd
  rw [hacc] at h
  simp only [List.nil_append] at h
  apply List.ext_getElem?
  intro i
  simp only [List.getElem?_map]
  by_cases hi : i < ((Sys.start w0 tlsFeature tlsOk plainOk).run sv evs).conns.length
  · have hc := List.getElem?_eq_getElem hi
    obtain ⟨s, h1, -⟩ := h.conns i _ hc
    rw [hc, h1]
    rfl
  · rw [List.getElem?_eq_none (Nat.le_of_not_lt hi), List.getElem?_eq_none]
    · rfl
    · rw [← h.len]; exact Nat.le_of_not_lt hi

theorem accepted_arriving (evs : List (Event W)) (he : ∀ e ∈ evs, ∀ tls, e ≠ .acceptErr tls) :
    accepted true true evs = arriving evs := by
  induction evs with
  | nil => rfl
  | cons e evs ih =>
    have ih := ih fun e' h' => he e' (List.mem_cons_of_mem _ h')
    cases e with
    | acceptErr tls => exact absurd rfl (he _ (List.mem_cons_self ..) tls)
    | connect tls s => cases tls <;> simp [accepted, arriving, ih]
    | _ => exact ih

/-- Every connection that arrives is served, for every execution of a server whose listeners have
started, also after accept errors. -/
def C49_statement : Prop :=
  ∀ (W : Type) (sv : Server W) (w0 : W) (evs : List (Event W)),
    ((Sys.start w0 true true true).run sv evs).dead = false →
    ∀ i tls s, (arriving evs)[i]? = some (tls, s) →
    ∃ c, ((Sys.start w0 true true true).run sv evs).conns[i]? = some c ∧ c.tls = tls ∧
      let y := (Sys.start w0 true true true).run sv evs
      (Waiting c.task → ∃ n, ∀ m, n ≤ m →
        Outcome y (y.run sv (List.replicate m (.poll i))) i tls (sv.serve y.world s))

/-- It holds of executions without accept errors. -/
theorem C49_no_error_partial (sv : Server W) (w0 : W) (evs : List (Event W))
    (he : ∀ e ∈ evs, ∀ tls, e ≠ .acceptErr tls)
    (hd : ((Sys.start w0 true true true).run sv evs).dead = false)
    (i : Nat) (tls : Bool) (s : Sock) (hi : (arriving evs)[i]? = some (tls, s)) :
    ∃ c, ((Sys.start w0 true true true).run sv evs).conns[i]? = some c ∧ c.tls = tls ∧
      let y := (Sys.start w0 true true true).run sv evs
      (Waiting c.task → ∃ n, ∀ m, n ≤ m →
        Outcome y (y.run sv (List.replicate m (.poll i))) i tls (sv.serve y.world s)) := by
  have h1 := congrArg (fun l => l[i]?) (C49_exact sv w0 true true true evs hd)
  simp only [List.getElem?_map, Bool.and_self, accepted_arriving evs he, hi, Option.map_some] at h1
  cases hc : ((Sys.start w0 true true true).run sv evs).conns[i]? with
  | none => rw [hc] at h1; cases h1
  | some c =>
    rw [hc] at h1
    simp only [Option.map_some, Option.some.injEq] at h1
    refine ⟨c, rfl, h1, fun hw => ?_⟩
    obtain ⟨s', h2, n, hn⟩ := C48_progress sv w0 true true true evs hd i c hc hw
    simp only [Bool.and_self, accepted_arriving evs he, hi, Option.some.injEq, Prod.mk.injEq] at h2
    refine ⟨n, fun m hm => ?_⟩
    have := hn m hm
    rw [← h2.1, ← h2.2] at this
    exact this

end

/-! ### concrete executions -/

/-- a handler that answers `hi` -/
def sayHi : Closure (Unit × Response) := doing fun _ => [.send 0 [104, 105]]

def request : Sock := sends c!"GET / HTTP/1.0\r\nA: b\r\n\r\n"

/-- the same in two pieces, and the connection then stays open -/
def halves : Sock := ⟨[utf8 c!"GET / HTTP/1.0\r\nA: ", utf8 c!"b\r\n\r\n"], .silent⟩

def Io.answered : Io Bytes → Bool
  | .ok _ => true
  | _ => false

theorem Io.answered_iff {x : Io Bytes} (h : x.answered = true) : ∃ bs, x = .ok bs := by
  cases x with
  | ok bs => exact ⟨bs, rfl⟩
  | _ => cases h

/-- C48 is false of the code: a connection that declares a length for which memory cannot be allocated
ends the process, and with it every other connection. -/
theorem C48_counterexample : ¬ C48_statement := by
  intro h
  let sv : Server Unit := { demo sayHi with allocOk := fun n => n < 2 ^ 40 }
  let greedy := sends c!"GET / HTTP/1.1\r\nHost: x\r\nContent-Length: 9000000000000000000\r\n\r\n"
  obtain ⟨bs, hbs⟩ := Io.answered_iff (x := visible (sv.serve () request)) (by decide +kernel)
  obtain ⟨more, -, c, hc, ht⟩ := h Unit sv () false false true
    [.connect false request, .connect false greedy, .poll 1] 0 false request bs (by simp) rfl
    (fun _ => hbs) (by simp [Healthy])
  have hdead : ((Sys.start () false false true).run sv
      [.connect false request, .connect false greedy, .poll 1]).dead = true := by decide +kernel
  have htask : (((Sys.start () false false true).run sv
      [.connect false request, .connect false greedy, .poll 1]).conns[0]?.map (·.task)) =
        some (.head []) := by decide +kernel
  rw [run_append, run_dead _ hdead] at hc
  rw [hc, Option.map_some, ht] at htask
  cases htask

/-- C49 is false of the code: after one accept error the listener is gone. -/
theorem C49_counterexample : ¬ C49_statement := by
  intro h
  obtain ⟨c, hc, -⟩ := h Unit empty () [.acceptErr false, .connect false request] rfl 0 false request rfl
  cases hc

/-- Moreover `listen` has then returned. When the main function returns as well, connections that are
being served are cut off. -/
theorem C49_exit : ∃ sent rest, rest ≠ [] ∧
    ∀ more, (((Sys.start () false false true).run (demo sayHi)
      ([.connect false request, .poll 0, .write 0 5, .acceptErr false, .exit] ++ more)).conns[0]?.map
        (·.task)) = some (.writing sent rest) := by
  have hdead : ((Sys.start () false false true).run (demo sayHi)
      [.connect false request, .poll 0, .write 0 5, .acceptErr false, .exit]).dead = true := by
    decide +kernel
  have ht : ∃ sent rest, rest ≠ [] ∧ (((Sys.start () false false true).run (demo sayHi)
      [.connect false request, .poll 0, .write 0 5, .acceptErr false, .exit]).conns[0]?.map (·.task)) =
      some (.writing sent rest) := by
    obtain ⟨bs, hbs⟩ := Io.answered_iff (x := visible ((demo sayHi).serve () request)) (by decide +kernel)
    have hw : ∃ b, (((Sys.start () false false true).run (demo sayHi)
      [.connect false request, .poll 0, .write 0 5, .acceptErr false, .exit]).conns[0]?.map (·.task)).elim
        false (fun t => match t with | .writing _ rest => decide (rest ≠ []) | _ => false) = b ∧ b = true :=
      ⟨_, rfl, by decide +kernel⟩
    obtain ⟨b, hb, rfl⟩ := hw
    revert hb
    generalize ((Sys.start () false false true).run (demo sayHi)
      [.connect false request, .poll 0, .write 0 5, .acceptErr false, .exit]).conns[0]?.map (·.task) = o
    intro hb
    cases o with
    | none => cases hb
    | some t =>
      cases t with
      | writing sent rest => exact ⟨sent, rest, of_decide_eq_true hb, rfl⟩
      | _ => cases hb
  obtain ⟨sent, rest, hne, ht⟩ := ht
  refine ⟨sent, rest, hne, fun more => ?_⟩
  rw [run_append, run_dead _ hdead, ht]

/-- Two connections interleaved, a third that makes its task panic: the first two are answered. -/
example : let evs : List (Event Unit) := [.connect false halves, .connect false request,
      .connect false (sends c!"GET /.. HTTP/1.1\r\nA: b\r\n\r\n"), .poll 0, .poll 1, .poll 2, .write 1 7]
    let y := (Sys.start () false false true).run (demo sayHi) evs
    y.dead = false ∧ (y.conns[2]?.map (·.task)) = some .panicked ∧
    ∃ bs, ∃ more, (∀ e ∈ more, About 0 e) ∧ ∃ c,
      ((Sys.start () false false true).run (demo sayHi) (evs ++ more)).conns[0]? = some c ∧
      c.task = .finished bs := by
  intro evs y
  have hd : y.dead = false := by decide +kernel
  obtain ⟨bs, hbs⟩ := Io.answered_iff (x := visible ((demo sayHi).serve () halves)) (by decide +kernel)
  exact ⟨hd, by decide +kernel, bs, C48_alone_partial (demo sayHi) () false false true evs hd 0 false halves bs
    rfl (fun _ => hbs) (by simp [evs, Healthy])⟩

/-- The hypotheses of `C48_progress` and `C49_no_error_partial` are met by the waiting connection. -/
example : ∃ c, ((Sys.start () true true true).run (demo sayHi)
    [.connect false halves, .connect true request, .poll 0]).conns[0]? = some c ∧ c.tls = false ∧
    Waiting c.task := ⟨_, rfl, rfl, trivial⟩

/-- three connections at once, one of which panics -/
example := C48_sequential (demo sayHi) () false false true [.connect false halves, .connect false request,
  .connect false (sends c!"GET /.. HTTP/1.1\r\nA: b\r\n\r\n"), .poll 0, .poll 1, .poll 2, .write 1 7] (by decide +kernel)

/-- what is written to one connection does not matter to the other -/
example := C48_frame (demo sayHi) ((Sys.start () false false true).run (demo sayHi)
  [.connect false halves, .connect false request, .poll 0, .poll 1]) 1 0 (by decide) (.write 1 7) rfl

end Octane
