import Verif.Spec.StallProcess
import Verif.Proof.Stall
import Verif.Proof.ProcessRun
/-
Lemmas on connections that cannot come to an end any more.
-/
namespace Octane
open Spec
universe u
variable {W : Type u} {sv : PServer W} {allocOk : Nat → Bool}

theorem Process.run_workers (evs : List (Happening W)) (y : Process W) :
    (y.run sv allocOk evs).workers = y.workers := by
  induction evs generalizing y with
  | nil => rfl
  | cons e evs ih =>
    have : (y.step sv allocOk e).workers = y.workers := by
      cases e <;> simp only [Process.step] <;> repeat' split
      all_goals rfl
    exact (ih _).trans this

/-- `LostConn`, with what makes it inductive -/
def LostTask (sv : PServer W) (log : List (PReg W)) : PTask W → Prop
  | .handling req reads => LostP sv log (.running req reads)
  | _ => False

noncomputable def lostC (sv : PServer W) (log : List (PReg W)) (c : PConn W) : Bool :=
  @decide (LostTask sv log c.task) (Classical.propDecidable _)

theorem lostC_iff {log : List (PReg W)} {c : PConn W} : lostC sv log c = true ↔ LostTask sv log c.task := by
  unfold lostC
  exact @decide_eq_true_iff _ (Classical.propDecidable _)

theorem lostC_false {log : List (PReg W)} {c : PConn W} (h : ¬ LostTask sv log c.task) : lostC sv log c = false := by
  cases hl : lostC sv log c with
  | false => rfl
  | true => exact absurd (lostC_iff.1 hl) h

theorem lostC_count {log : List (PReg W)} {y : Process W} (hy : SoundP sv log y) :
    y.conns.countP (LostConn sv log) = y.conns.countP (lostC sv log) := by
  apply List.countP_congr
  intro c hc
  rw [lostC_iff]
  obtain ⟨i, hi⟩ := List.getElem?_of_mem hc
  cases ht : c.task with
  | handling req reads =>
    obtain ⟨hm, p, hp⟩ := hy i c req reads hi ht
    simp only [LostConn, LostTask, LostP, ht, decide_eq_true_eq, Prog.rest_after, hp]
    exact ⟨fun h => ⟨hm, p, rfl, h⟩, fun ⟨_, q, hq, h⟩ => by injection hq with e; rw [e]; exact h⟩
  | _ => simp [LostConn, LostTask, ht]

/-! ### the others -/

theorem handling_mayEnd {log : List (PReg W)} (hs : SetUp sv log) (i : Nat) (p : Prog W Reply) :
    ∀ (y : Process W) (c : PConn W) (req : Request) (reads : List W), y.dead = false → y.conns[i]? = some c →
      c.task = .handling req reads → req.requestLine.method ≠ .all →
      (requestProg sv.feat.urlVariables log req).after reads = (p, []) → p.MayEnd →
      ∃ (more : List (Happening W)) (w : W) (t : PTask W),
        y.run sv allocOk more = y.put w i c t c.sock ∧ ((∃ out, t = .writing [] out) ∨ t = .panicked) := by
  induction p with
  | act u next ih =>
    intro y c req reads hd hc ht hm ha he
    have hst := stage_spec hs req hm reads
    rw [ha] at hst
    cases hstage : sv.stage req reads <;> rw [hstage] at hst <;> try exact hst.elim
    rename_i upd
    have hu : upd = u := hst
    subst hu
    obtain ⟨v, hv⟩ := he
    have hstep : y.run sv allocOk [.env fun _ => v, .access i] =
        y.put (upd v) i c (.handling req (reads ++ [v])) c.sock := by
      simp [Process.run, Process.step, hd, hc, ht, hstage, Process.put]
    have hi := (List.getElem?_eq_some_iff.1 hc).1
    obtain ⟨more, w, t, m2, m3⟩ := ih v (y.run sv allocOk [.env fun _ => v, .access i])
      { c with task := .handling req (reads ++ [v]) } req (reads ++ [v])
      (by rw [hstep]; exact hd) (by rw [hstep]; simp [Process.put, hi]) rfl hm
      (by rw [Prog.after_snoc ha, Prog.after_nil]) hv
    refine ⟨[.env fun _ => v, .access i] ++ more, w, t, ?_, m3⟩
    rw [Process.run_append, m2, hstep]
    simp [Process.put]
  | ret r =>
    intro y c req reads hd hc ht hm ha he
    have hst := stage_spec hs req hm reads
    rw [ha] at hst
    cases hstage : sv.stage req reads <;> rw [hstage] at hst <;> try exact hst.elim
    rename_i r'
    refine ⟨[.finish i], y.world, .respond (sv.write y.world r'), ?_, ?_⟩
    · simp [Process.run, Process.step, hd, hc, ht, hstage]
    · cases sv.write y.world r' with
      | ok out => exact .inl ⟨out, rfl⟩
      | panic => exact .inr rfl
  | panic =>
    intro y c req reads hd hc ht hm ha he
    have hst := stage_spec hs req hm reads
    rw [ha] at hst
    cases hstage : sv.stage req reads <;> rw [hstage] at hst <;> try exact hst.elim
    refine ⟨[.finish i], y.world, .panicked, ?_, .inr rfl⟩
    simp [Process.run, Process.step, hd, hc, ht, hstage]
  | hang => intro y c req reads hd hc ht hm ha he; exact he.elim

theorem free_mayEnd {log : List (PReg W)} (hs : SetUp sv log) (n : Nat) (y : Process W)
    (hn : y.conns.countP (·.task.busy) = n) (hd : y.dead = false) (hy : SoundP sv log y)
    (hh : y.conns.countP (lostC sv log) < y.workers) :
    ∃ more : List (Happening W),
      let y' := y.run sv allocOk more
      y'.free = true ∧ y'.dead = false ∧ SoundP sv log y' ∧ y'.conns.countP (lostC sv log) < y'.workers ∧
      ∀ (i : Nat) (c : PConn W), y.conns[i]? = some c → c.task.busy = false → y'.conns[i]? = some c := by
  induction n using Nat.strongRecOn generalizing y with
  | _ n ih =>
    by_cases hb : y.conns.countP (·.task.busy) < y.workers
    · exact ⟨[], by simp only [Process.free, Process.run, List.foldl_nil]; exact decide_eq_true hb, hd, hy, hh, fun _ _ h _ => h⟩
    · have hex : ∃ c ∈ y.conns, c.task.busy = true ∧ lostC sv log c = false := by
        apply Classical.byContradiction
        intro hcon
        have : y.conns.countP (·.task.busy) ≤ y.conns.countP (lostC sv log) := by
          apply List.countP_mono_left
          intro j hj hbj
          cases hm : lostC sv log j with
          | true => rfl
          | false => exact absurd ⟨j, hj, hbj, hm⟩ hcon
        omega
      obtain ⟨c, hc, hbc, hmc⟩ := hex
      obtain ⟨k, hk⟩ := List.getElem?_of_mem hc
      cases htask : c.task <;> rw [htask] at hbc <;> try cases hbc
      rename_i req reads
      obtain ⟨hm, p, hp⟩ := hy k c req reads hk htask
      have hends : p.MayEnd := by
        apply Classical.byContradiction
        intro hcon
        have : lostC sv log c = true := lostC_iff.2 (by rw [htask]; exact ⟨hm, p, hp, hcon⟩)
        rw [this] at hmc
        cases hmc
      obtain ⟨more, w, t, m2, m3⟩ := handling_mayEnd (allocOk := allocOk) hs k p y c req reads hd hk htask hm hp hends
      have htb : t.busy = false := by rcases m3 with ⟨_, rfl⟩ | rfl <;> rfl
      have htm : lostC sv log { c with task := t } = false := by
        apply lostC_false
        rcases m3 with ⟨_, rfl⟩ | rfl <;> exact fun h => h
      have hcount := countP_set_eq (b := { c with task := t }) (fun c : PConn W => c.task.busy) hk
      have hcountM := countP_set_eq (b := { c with task := t }) (lostC sv log) hk
      simp only [htask, htb, show (PTask.handling (W := W) req reads).busy = true from rfl, Bool.toNat_true,
        Bool.toNat_false] at hcount
      rw [htm, hmc] at hcountM
      simp only [Bool.toNat_false] at hcountM
      obtain ⟨more', n2, n3, n4, n5, n6⟩ := ih ((y.put w k c t c.sock).conns.countP (·.task.busy))
        (by simp only [Process.put]; omega) (y.put w k c t c.sock) rfl hd
        (hy.put (by intro q rs hq; rcases m3 with ⟨_, rfl⟩ | rfl <;> cases hq))
        (by simp only [Process.put]; omega)
      refine ⟨more ++ more', ?_⟩
      simp only [Process.run_append, m2]
      refine ⟨n2, n3, n4, n5, fun i x hx hxb => n6 i x ?_ hxb⟩
      simp only [Process.put]
      rw [List.getElem?_set_ne (by rintro rfl; rw [hk] at hx; cases hx; rw [htask] at hxb; cases hxb)]
      exact hx

theorem Process.put_lost {log : List (PReg W)} {y : Process W} {i : Nat} {c : PConn W} (hc : y.conns[i]? = some c)
    (w : W) (t : PTask W) (s : Sock) (ht : ¬ LostTask sv log t)
    (h : y.conns.countP (lostC sv log) < y.workers) :
    (y.put w i c t s).conns.countP (lostC sv log) < (y.put w i c t s).workers := by
  have := countP_set_eq (b := { c with task := t, sock := s }) (lostC sv log) hc
  rw [lostC_false (c := { c with task := t, sock := s }) ht] at this
  simp only [Bool.toNat_false] at this
  simp only [Process.put]
  omega

theorem writing_mayEnd {log : List (PReg W)} (hs : SetUp sv log) (y : Process W) (hd : y.dead = false)
    (hy : SoundP sv log y) (hh : y.conns.countP (lostC sv log) < y.workers) {i : Nat} {c : PConn W}
    {sent rest : Bytes} (hc : y.conns[i]? = some c) (ht : c.task = .writing sent rest) :
    ∃ more : List (Happening W), ∃ c', (y.run sv allocOk more).conns[i]? = some c' ∧ EndedTask c'.task := by
  obtain ⟨more, m2, m3, m4, m5, m6⟩ := free_mayEnd (allocOk := allocOk) hs _ y rfl hd hy hh
  have hc' := m6 i c hc (by rw [ht]; rfl)
  refine ⟨more ++ [.write i rest.length], ?_⟩
  rw [Process.run_append]
  have hstep : (y.run sv allocOk more).run sv allocOk [.write i rest.length] =
      (y.run sv allocOk more).put (y.run sv allocOk more).world i c (.finished (sent ++ rest)) c.sock := by
    simp [Process.run] at m2 m3 hc' ⊢
    simp [Process.step, m2, m3, hc', ht, PTask.writeStep]
  rw [hstep]
  exact ⟨_, Process.put_get hc' _ _ _, trivial⟩

theorem handling_mayEnd_done {log : List (PReg W)} (hs : SetUp sv log) (y : Process W) (hd : y.dead = false)
    (hy : SoundP sv log y) (hh : y.conns.countP (lostC sv log) < y.workers) {i : Nat} {c : PConn W}
    {req : Request} {reads : List W} (hc : y.conns[i]? = some c) (ht : c.task = .handling req reads)
    {p : Prog W Reply} (hp : (requestProg sv.feat.urlVariables log req).after reads = (p, [])) (he : p.MayEnd) :
    ∃ more : List (Happening W), ∃ c', (y.run sv allocOk more).conns[i]? = some c' ∧ EndedTask c'.task := by
  obtain ⟨hm, -⟩ := hy i c req reads hc ht
  obtain ⟨more, w, t, m2, m3⟩ := handling_mayEnd (allocOk := allocOk) hs i p y c req reads hd hc ht hm hp he
  rcases m3 with ⟨out, rfl⟩ | rfl
  · obtain ⟨more', n2⟩ := writing_mayEnd (allocOk := allocOk) hs (y.put w i c (.writing [] out) c.sock) hd
      (hy.put (by intro q rs hq; cases hq)) (Process.put_lost hc _ _ _ (fun h => h) hh) (Process.put_get hc _ _ _) rfl
    exact ⟨more ++ more', by rw [Process.run_append, m2]; exact n2⟩
  · exact ⟨more, by rw [m2]; exact ⟨_, Process.put_get hc _ _ _, trivial⟩⟩

theorem reading_mayEnd {log : List (PReg W)} (hs : SetUp sv log) (n : Nat) :
    ∀ (y : Process W) (i : Nat) (c : PConn W) (r : Reading), y.dead = false → SoundP sv log y →
    y.conns.countP (lostC sv log) < y.workers → y.conns[i]? = some c → c.task = .reading r → r.Ok →
    c.sock.bytes.length = n → readRest sv.feat allocOk c.sock r ≠ .pending →
    readRest sv.feat allocOk c.sock r ≠ .abort →
    (∀ req, readRest sv.feat allocOk c.sock r = .ok (some req) →
      req.requestLine.method ≠ .all ∧ (requestProg sv.feat.urlVariables log req).MayEnd) →
    ∃ more : List (Happening W), ∃ c', (y.run sv allocOk more).conns[i]? = some c' ∧ EndedTask c'.task := by
  induction n using Nat.strongRecOn with
  | _ n ih =>
    intro y0 i c r hd0 hy0 hh0 hc0 ht hok hn hp ha hreq
    obtain ⟨more, m2, m3, m4, m5, m6⟩ := free_mayEnd (allocOk := allocOk) hs _ y0 rfl hd0 hy0 hh0
    have hc := m6 i c hc0 (by rw [ht]; rfl)
    revert m2 m3 m4 m5 hc
    generalize hY : y0.run sv allocOk more = y
    intro hf hd hy hh hc
    suffices hgo : ∃ more : List (Happening W),
        ∃ c', (y.run sv allocOk more).conns[i]? = some c' ∧ EndedTask c'.task by
      obtain ⟨more', n2⟩ := hgo
      exact ⟨more ++ more', by rw [Process.run_append, hY]; exact n2⟩
    have step1 : ∀ {y' : Process W}, y.step sv allocOk (.poll i) = y' →
        (∃ more : List (Happening W), ∃ c', (y'.run sv allocOk more).conns[i]? = some c' ∧ EndedTask c'.task) →
        ∃ more : List (Happening W), ∃ c', (y.run sv allocOk more).conns[i]? = some c' ∧ EndedTask c'.task := by
      rintro y' hy' ⟨more', n2⟩
      exact ⟨.poll i :: more', by rw [Process.run_cons, hy']; exact n2⟩
    have hspec := turn_spec sv.feat allocOk r c.sock hok
    cases hturn : r.turn sv.feat allocOk c.sock with
    | waits r' s' =>
      rw [hturn] at hspec
      obtain ⟨hok', heq, hlt⟩ := hspec
      have hlt : s'.bytes.length < c.sock.bytes.length := by
        rcases hlt with h | ⟨-, -, h⟩
        · exact h
        · exact absurd h hp
      refine step1 (y' := y.put y.world i c (.reading r') s') (by simp [Process.step, hd, hc, ht, hf, hturn]) ?_
      exact ih s'.bytes.length (by omega) _ i { c with task := .reading r', sock := s' } r' hd
        (hy.put (by intro q rs hq; cases hq)) (Process.put_lost hc _ _ _ (fun h => h) hh) (Process.put_get hc _ _ _) rfl hok' rfl
        (by simp only [heq]; exact hp) (by simp only [heq]; exact ha) (by simp only [heq]; exact hreq)
    | bad s' =>
      refine step1 (y' := y.put y.world i c (.respond (sv.write y.world (.page .badRequest))) s')
        (by simp [Process.step, hd, hc, ht, hf, hturn]) ?_
      cases hw : sv.write y.world (.page .badRequest) with
      | panic => exact ⟨[], _, Process.put_get hc _ _ _, trivial⟩
      | ok out =>
        exact writing_mayEnd hs (y.put y.world i c (.writing [] out) s') hd (hy.put (by intro q rs hq; cases hq))
          (Process.put_lost hc _ _ _ (fun h => h) hh) (Process.put_get hc _ _ _) rfl
    | panicked s' =>
      refine step1 (y' := y.put y.world i c .panicked s') (by simp [Process.step, hd, hc, ht, hf, hturn]) ?_
      exact ⟨[], _, Process.put_get hc _ _ _, trivial⟩
    | abort =>
      rw [hturn] at hspec
      exact absurd hspec ha
    | request req s' =>
      rw [hturn] at hspec
      obtain ⟨q1, q2⟩ := hreq req hspec
      refine step1 (y' := y.put y.world i c (.handling req []) s') (by simp [Process.step, hd, hc, ht, hf, hturn]) ?_
      refine handling_mayEnd_done hs (y.put y.world i c (.handling req []) s') hd (hy.put ?_)
        (Process.put_lost hc _ _ _ ?_ hh) (Process.put_get hc _ _ _) rfl (Prog.after_nil _) q2
      · intro q rs hq
        cases hq
        exact ⟨q1, _, Prog.after_nil _⟩
      · rintro ⟨-, p, e, hne⟩
        rw [Prog.after_nil] at e
        injection e with e
        exact hne (e ▸ q2)

/-! ### no thread left -/

theorem lostC_step {log : List (PReg W)} (hs : SetUp sv log) {y : Process W}
    (h : y.workers ≤ y.conns.countP (lostC sv log)) (e : Happening W) :
    (y.step sv allocOk e).workers ≤ (y.step sv allocOk e).conns.countP (lostC sv log) ∧
    ∀ (i : Nat) (c : PConn W), y.conns[i]? = some c → c.task.busy = false →
      (y.step sv allocOk e).conns[i]? = some c := by
  have hfree : y.free = false := by
    have : y.conns.countP (lostC sv log) ≤ y.conns.countP (·.task.busy) := by
      apply List.countP_mono_left
      intro c _ hc
      rw [lostC_iff] at hc
      cases ht : c.task <;> rw [ht] at hc <;> first | rfl | exact hc.elim
    simp only [Process.free, decide_eq_false_iff_not]
    omega
  have same : ∀ {y' : Process W}, y'.workers = y.workers → y'.conns = y.conns →
      y'.workers ≤ y'.conns.countP (lostC sv log) ∧
      ∀ (i : Nat) (c : PConn W), y.conns[i]? = some c → c.task.busy = false → y'.conns[i]? = some c := by
    intro y' h1 h2
    rw [h1, h2]
    exact ⟨h, fun _ _ hc _ => hc⟩
  have change : ∀ (i : Nat) (c : PConn W) (w : W) (t : PTask W) (s : Sock), y.conns[i]? = some c →
      (LostTask sv log c.task → LostTask sv log t) → c.task.busy = true →
      (y.put w i c t s).workers ≤ (y.put w i c t s).conns.countP (lostC sv log) ∧
      ∀ (k : Nat) (x : PConn W), y.conns[k]? = some x → x.task.busy = false → (y.put w i c t s).conns[k]? = some x := by
    intro i c w t s hc hst hb
    refine ⟨?_, ?_⟩
    · have := countP_set_mono (b := { c with task := t, sock := s }) (lostC sv log) hc
        (by rw [lostC_iff, lostC_iff]; exact hst)
      simp only [Process.put]
      omega
    · intro k x hx hxb
      simp only [Process.put]
      rw [List.getElem?_set_ne (by rintro rfl; rw [hc] at hx; cases hx; rw [hb] at hxb; cases hxb)]
      exact hx
  unfold Process.step
  split
  · exact same rfl rfl
  · cases e with
    | connect tls s =>
      simp only
      split
      · refine ⟨?_, ?_⟩
        · simp only [List.countP_append]; omega
        · intro i c hc _
          rw [List.getElem?_append_left (List.getElem?_eq_some_iff.1 hc).1]
          exact hc
      · exact same rfl rfl
    | acceptErr tls => simp only; split <;> (try split) <;> exact same rfl rfl
    | handshake i ok => simp only [hfree]; split <;> exact same rfl rfl
    | poll i =>
      simp only [hfree]
      split
      · split <;> exact same rfl rfl
      · exact same rfl rfl
    | access i =>
      simp only
      split
      · rename_i c hc
        split
        · rename_i req reads ht
          split
          · rename_i upd hst
            exact change i c _ _ _ hc (by rw [ht]; exact lost_access hs hst y.world) (by rw [ht]; rfl)
          · exact same rfl rfl
        · exact same rfl rfl
      · exact same rfl rfl
    | finish i =>
      simp only
      split
      · rename_i c hc
        split
        · rename_i req reads ht
          split
          · rename_i r hst
            exact change i c _ _ _ hc (by rw [ht]; exact fun hl => absurd hst ((lost_stays hs hl).1 r)) (by rw [ht]; rfl)
          · rename_i hst
            exact change i c _ _ _ hc (by rw [ht]; exact fun hl => absurd hst (lost_stays hs hl).2) (by rw [ht]; rfl)
          · exact same rfl rfl
        · exact same rfl rfl
      · exact same rfl rfl
    | write i n => simp only [hfree]; split <;> exact same rfl rfl
    | writeErr i => simp only [hfree]; split <;> exact same rfl rfl
    | env f => exact same rfl rfl
    | exit => simp only; split <;> exact same rfl rfl

theorem lostC_run {log : List (PReg W)} (hs : SetUp sv log) (evs : List (Happening W)) {y : Process W}
    (h : y.workers ≤ y.conns.countP (lostC sv log))
    (i : Nat) (c : PConn W) (hc : y.conns[i]? = some c) (hb : c.task.busy = false) :
    (y.run sv allocOk evs).conns[i]? = some c := by
  induction evs generalizing y with
  | nil => exact hc
  | cons e evs ih =>
    obtain ⟨h1, h2⟩ := lostC_step (allocOk := allocOk) hs h e
    exact ih h1 (h2 i c hc hb)

/-! ### its own handlers -/

/-- a connection whose request will never be answered -/
def DoomedConn (sv : PServer W) (log : List (PReg W)) (allocOk : Nat → Bool) (c : PConn W) : Prop :=
  match c.task with
  | .reading r => r.Ok ∧ ∃ req, readRest sv.feat allocOk c.sock r = .ok (some req) ∧
      req.requestLine.method ≠ .all ∧ ¬ (requestProg sv.feat.urlVariables log req).MayEnd
  | t => LostTask sv log t

theorem doomedConn_step {log : List (PReg W)} (hs : SetUp sv log) {y : Process W} {i : Nat}
    (h : ∃ c, y.conns[i]? = some c ∧ DoomedConn sv log allocOk c) (e : Happening W) :
    ∃ c, (y.step sv allocOk e).conns[i]? = some c ∧ DoomedConn sv log allocOk c := by
  obtain ⟨c, hc, hdo⟩ := h
  have same : ∀ {y' : Process W}, y'.conns = y.conns → ∃ c, y'.conns[i]? = some c ∧ DoomedConn sv log allocOk c := by
    intro y' h2
    rw [h2]
    exact ⟨c, hc, hdo⟩
  have change : ∀ (k : Nat) (x : PConn W) (w : W) (t : PTask W) (s : Sock), y.conns[k]? = some x →
      (DoomedConn sv log allocOk x → DoomedConn sv log allocOk { x with task := t, sock := s }) →
      ∃ c, (y.put w k x t s).conns[i]? = some c ∧ DoomedConn sv log allocOk c := by
    intro k x w t s hx hst
    by_cases hk : k = i
    · subst hk
      rw [hc] at hx
      injection hx with hx
      subst hx
      exact ⟨_, Process.put_get hc _ _ _, hst hdo⟩
    · refine ⟨c, ?_, hdo⟩
      simp only [Process.put]
      rw [List.getElem?_set_ne hk]
      exact hc
  unfold Process.step
  split
  · exact same rfl
  · cases e with
    | connect tls s =>
      simp only
      split
      · refine ⟨c, ?_, hdo⟩
        rw [List.getElem?_append_left (List.getElem?_eq_some_iff.1 hc).1]
        exact hc
      · exact same rfl
    | acceptErr tls => simp only; split <;> (try split) <;> exact same rfl
    | handshake k ok =>
      simp only
      split
      · rename_i x hx
        split
        · refine change k x _ _ _ hx ?_
          intro hd
          cases ht : x.task <;> simp only [DoomedConn, ht, PTask.handshakeStep] at hd ⊢ <;> first | exact hd | exact hd.elim
        · exact same rfl
      · exact same rfl
    | poll k =>
      simp only
      split
      · rename_i x hx
        split
        · rename_i r ht
          split
          · have hspec : DoomedConn sv log allocOk x → _ := fun hd => by
              have hd' := hd
              simp only [DoomedConn, ht] at hd'
              exact turn_spec sv.feat allocOk r x.sock hd'.1
            split
            · rename_i r' s' hturn
              refine change k x _ _ _ hx ?_
              intro hd
              have h1 := hspec hd
              rw [hturn] at h1
              simp only [DoomedConn, ht] at hd ⊢
              exact ⟨h1.1, by rw [h1.2.1]; exact hd.2⟩
            · rename_i req s' hturn
              refine change k x _ _ _ hx ?_
              intro hd
              have h1 := hspec hd
              rw [hturn] at h1
              simp only [DoomedConn, ht] at hd ⊢
              obtain ⟨-, req', e1, e2, e3⟩ := hd
              have h1 : readRest sv.feat allocOk x.sock r = .ok (some req) := h1
              rw [h1] at e1
              cases e1
              exact ⟨e2, _, Prog.after_nil _, e3⟩
            · rename_i s' hturn
              refine change k x _ _ _ hx ?_
              intro hd
              have h1 := hspec hd
              rw [hturn] at h1
              simp only [DoomedConn, ht] at hd ⊢
              obtain ⟨-, req', e1, e2, e3⟩ := hd
              have h1 : readRest sv.feat allocOk x.sock r = .ok none := h1
              rw [h1] at e1
              cases e1
            · rename_i s' hturn
              refine change k x _ _ _ hx ?_
              intro hd
              have h1 := hspec hd
              rw [hturn] at h1
              simp only [DoomedConn, ht] at hd ⊢
              obtain ⟨-, req', e1, e2, e3⟩ := hd
              have h1 : readRest sv.feat allocOk x.sock r = .panic := h1
              rw [h1] at e1
              cases e1
            · exact same rfl
          · exact same rfl
        · exact same rfl
      · exact same rfl
    | access k =>
      simp only
      split
      · rename_i x hx
        split
        · rename_i req reads ht
          split
          · rename_i upd hst
            refine change k x _ _ _ hx ?_
            intro hd
            simp only [DoomedConn, ht] at hd ⊢
            exact lost_access hs hst y.world hd
          · exact same rfl
        · exact same rfl
      · exact same rfl
    | finish k =>
      simp only
      split
      · rename_i x hx
        split
        · rename_i req reads ht
          split
          · rename_i r hst
            refine change k x _ _ _ hx ?_
            intro hd
            simp only [DoomedConn, ht] at hd
            exact absurd hst ((lost_stays hs hd).1 r)
          · rename_i hst
            refine change k x _ _ _ hx ?_
            intro hd
            simp only [DoomedConn, ht] at hd
            exact absurd hst (lost_stays hs hd).2
          · exact same rfl
        · exact same rfl
      · exact same rfl
    | write k n =>
      simp only
      split
      · rename_i x hx
        split
        · refine change k x _ _ _ hx ?_
          intro hd
          cases ht : x.task <;> simp only [DoomedConn, ht, PTask.writeStep] at hd ⊢ <;> first | exact hd | exact hd.elim
        · exact same rfl
      · exact same rfl
    | writeErr k =>
      simp only
      split
      · rename_i x hx
        split
        · refine change k x _ _ _ hx ?_
          intro hd
          cases ht : x.task <;> simp only [DoomedConn, ht, PTask.writeFail] at hd ⊢ <;> first | exact hd | exact hd.elim
        · exact same rfl
      · exact same rfl
    | env f => exact same rfl
    | exit => simp only; split <;> exact same rfl

theorem doomedConn_run {log : List (PReg W)} (hs : SetUp sv log) (evs : List (Happening W)) {y : Process W} {i : Nat}
    (h : ∃ c, y.conns[i]? = some c ∧ DoomedConn sv log allocOk c) :
    ∃ c, (y.run sv allocOk evs).conns[i]? = some c ∧ DoomedConn sv log allocOk c := by
  induction evs generalizing y with
  | nil => exact h
  | cons e evs ih => exact ih (doomedConn_step hs h e)

end Octane
