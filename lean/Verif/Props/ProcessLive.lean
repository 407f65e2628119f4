import Verif.Proof.ProcessLive
import Verif.Props.Process
import Verif.Proof.Handshake
/-
C107: with handlers on worker threads every connection comes to an end.
-/
namespace Octane
open Spec
universe u
variable {W : Type u}

/-- No client and no handler ends the process or its listening: where allocations succeed and no `accept` of the
plain listener fails, the process is alive and listening after any events. -/
theorem C107_alive (sv : PServer W) (allocOk : Nat → Bool) (halloc : ∀ k, allocOk k = true) (w0 : W) (workers : Nat)
    (tlsFeature tlsOk : Bool) (evs : List (Happening W)) (hacc : Happening.acceptErr false ∉ evs) :
    let y := (Process.start w0 workers tlsFeature tlsOk true).run sv allocOk evs
    y.dead = false ∧ y.plain = .listening := by
  have key : ∀ (evs : List (Happening W)) (y : Process W), y.dead = false → y.plain = .listening →
      Happening.acceptErr false ∉ evs →
      (y.run sv allocOk evs).dead = false ∧ (y.run sv allocOk evs).plain = .listening := by
    intro evs
    induction evs with
    | nil => intro y h1 h2 _; exact ⟨h1, h2⟩
    | cons e evs ih =>
      intro y h1 h2 h3
      rw [Process.run_cons]
      refine ih _ ?_ ?_ (fun h => h3 (List.mem_cons_of_mem _ h))
      · by_cases he : e = .exit
        · subst he
          simp [Process.step, h1, h2]
        · exact alive_step halloc y e h1 he
      · by_cases he : ∃ tls, e = .acceptErr tls
        · obtain ⟨tls, rfl⟩ := he
          cases tls with
          | false => exact absurd List.mem_cons_self h3
          | true =>
            simp only [Process.step, h1, Bool.false_eq_true, if_false, if_true]
            split <;> exact h2
        · exact (Process.step_listeners y e (fun tls h => he ⟨tls, h⟩)).1.trans h2
  exact key evs _ rfl rfl hacc

/-- If fewer connections than threads have handlers that might not return, a thread is free again and again. -/
theorem C107_threads (sv : PServer W) (log : List (PReg W)) (hs : SetUp sv log) (allocOk : Nat → Bool) (w0 : W)
    (workers : Nat) (tlsFeature tlsOk plainOk : Bool) (σ : Nat → Happening W) :
    let y0 := Process.start w0 workers tlsFeature tlsOk plainOk
    (∀ n, (atTime sv allocOk y0 σ n).dead = false) →
    ∀ B : List Nat, B.length < workers →
    (∀ i, i ∉ B → FairTask sv allocOk y0 σ i) →
    (∀ n i tls s, i ∉ B → (taken plainOk (tlsFeature && tlsOk) ((List.range n).map σ))[i]? = some (tls, s) →
      ∀ req, Received sv.feat.faithful sv.feat.cookies s req → (requestProg sv.feat.urlVariables log req).Ends) →
    FreeAgain sv allocOk y0 σ := by
  intro y0 alive B hB fair hends n
  have hwk : (atTime sv allocOk y0 σ n).workers = workers := atTime_workers y0 σ n
  by_cases hf : (atTime sv allocOk y0 σ n).free = true
  · exact ⟨n, Nat.le_refl n, hf⟩
  · -- some task that holds a thread will give it back
    have hbusy : B.length < (atTime sv allocOk y0 σ n).conns.countP (·.task.busy) := by
      simp only [Process.free, decide_eq_true_eq] at hf
      rw [hwk] at hf
      omega
    have hex : ∃ (j : Nat) (c : PConn W), (atTime sv allocOk y0 σ n).conns[j]? = some c ∧ c.task.busy = true ∧ j ∉ B := by
      apply Classical.byContradiction
      intro hno
      have := countP_le_of_subset (·.task.busy) (atTime sv allocOk y0 σ n).conns B (fun j a hj ha =>
        Classical.byContradiction fun hb => hno ⟨j, a, hj, ha, hb⟩)
      omega
    obtain ⟨j, c, hj, hb, hjB⟩ := hex
    cases ht : c.task <;> rw [ht] at hb <;> try cases hb
    rename_i req reads
    obtain ⟨pevs, order, h1, -, h3⟩ := process_run (allocOk := allocOk) hs w0 workers tlsFeature tlsOk plainOk
      ((List.range n).map σ) (alive n)
    obtain ⟨s0, g1, g2⟩ := h1.conns j c hj
    obtain ⟨hm, p, hp⟩ := h1.sound h3 j c req reads hj ht
    rw [ht] at g2
    have he := hends n j c.tls s0 hjB g1 req g2.1
    obtain ⟨m, m1, x, t, m2, m3, m4, m5⟩ := handling_live hs alive j (fair j hjB) p n c req reads hj ht hm hp
      (by have := he.after reads; rw [hp] at this; exact this)
    refine ⟨m + 1, by omega, ?_⟩
    have hle := busy_at (sv := sv) (allocOk := allocOk) (y0 := y0) (σ := σ) (by simp [y0, Process.start]) m
    rw [m4]
    simp only [Process.free, Process.put]
    have hcount := countP_set_eq (b := ({ x with task := t } : PConn W)) (·.task.busy) m2
    simp only [m3, Bool.toNat_true] at hcount
    have htb : t.busy = false := by
      rcases m5 with ⟨out, rfl⟩ | rfl <;> rfl
    rw [htb] at hcount
    simp only [Bool.toNat_false] at hcount
    exact decide_eq_true (by omega)

/-- C107: under a scheduler that is fair to the tasks outside `B`, if `B` has fewer members than there are
threads and the handlers outside `B` return, every connection outside `B` whose client does not keep the server
waiting comes to its end and stays so; if none of its writes and handshakes fails, with an answer or a
panic. -/
theorem C107_ends (sv : PServer W) (log : List (PReg W)) (hs : SetUp sv log) (allocOk : Nat → Bool) (w0 : W)
    (workers : Nat) (tlsFeature tlsOk plainOk : Bool) (σ : Nat → Happening W) :
    let y0 := Process.start w0 workers tlsFeature tlsOk plainOk
    (∀ n, (atTime sv allocOk y0 σ n).dead = false) →
    ∀ B : List Nat, B.length < workers →
    (∀ i, i ∉ B → FairTask sv allocOk y0 σ i) →
    (∀ n i tls s, i ∉ B → (taken plainOk (tlsFeature && tlsOk) ((List.range n).map σ))[i]? = some (tls, s) →
      ∀ req, Received sv.feat.faithful sv.feat.cookies s req → (requestProg sv.feat.urlVariables log req).Ends) →
    ∀ (i n0 : Nat) (tls : Bool) (s : Sock), i ∉ B →
      (taken plainOk (tlsFeature && tlsOk) ((List.range n0).map σ))[i]? = some (tls, s) →
      Sent sv.feat.faithful sv.feat.cookies s →
      ∃ t n, EndedTask t ∧ Remains sv allocOk y0 σ i (· = t) n ∧
        ((∀ n, Unharmed i (σ n)) → (∃ out, t = .finished out) ∨ t = .panicked) := by
  intro y0 alive B hB fair hends i n0 tls s hiB hi hsent
  have free := C107_threads sv log hs allocOk w0 workers tlsFeature tlsOk plainOk σ alive B hB fair hends
  have fairi := fair i hiB
  -- an end is kept
  have hkeep : ∀ (m : Nat) (c : PConn W), (atTime sv allocOk y0 σ m).conns[i]? = some c → EndsWell σ i c.task →
      ∃ t n, EndedTask t ∧ Remains sv allocOk y0 σ i (· = t) n ∧
        ((∀ n, Unharmed i (σ n)) → (∃ out, t = .finished out) ∨ t = .panicked) := by
    intro m c hc h
    exact ⟨c.task, m, h.1, ended_remains alive hc h.1, h.2⟩
  -- the socket of connection `i` at a later time
  have hat : ∀ (m : Nat) (c : PConn W), n0 ≤ m → (atTime sv allocOk y0 σ m).conns[i]? = some c →
      ∃ (z : PSys W) (order : List Nat), ConnAt sv allocOk z.jobs order i s c.sock c.task := by
    intro m c hm hc
    obtain ⟨pevs, order, h1, -, -⟩ := process_run (allocOk := allocOk) hs w0 workers tlsFeature tlsOk plainOk
      ((List.range m).map σ) (alive m)
    obtain ⟨s0, g1, g2⟩ := h1.conns i c hc
    have hpre : taken plainOk (tlsFeature && tlsOk) ((List.range n0).map σ) <+:
        taken plainOk (tlsFeature && tlsOk) ((List.range m).map σ) := by
      have : (List.range n0).map σ <+: (List.range m).map σ := by
        refine ⟨((List.range (m - n0)).map (n0 + ·)).map σ, ?_⟩
        rw [← List.map_append, ← List.range_add, show n0 + (m - n0) = m by omega]
      exact taken_prefix this _ _
    obtain ⟨rest, hrest⟩ := hpre
    rw [← hrest, List.getElem?_append_left (List.getElem?_eq_some_iff.1 hi).1, hi] at g1
    simp only [Option.some.injEq, Prod.mk.injEq] at g1
    obtain ⟨-, rfl⟩ := g1
    exact ⟨_, order, g2⟩
  have hwrite : ∀ (m : Nat) (c : PConn W) (sent rest : Bytes), (atTime sv allocOk y0 σ m).conns[i]? = some c →
      c.task = .writing sent rest → ∃ t n, EndedTask t ∧ Remains sv allocOk y0 σ i (· = t) n ∧
        ((∀ n, Unharmed i (σ n)) → (∃ out, t = .finished out) ∨ t = .panicked) := by
    intro m c sent rest hc ht
    obtain ⟨m', c', -, g2, g3⟩ := writing_live alive i fairi free _ m c sent rest hc ht rfl
    exact hkeep m' c' g2 g3
  have hhandle : ∀ (m : Nat) (c : PConn W) req reads, (atTime sv allocOk y0 σ m).conns[i]? = some c →
      c.task = .handling req reads → ∃ t n, EndedTask t ∧ Remains sv allocOk y0 σ i (· = t) n ∧
        ((∀ n, Unharmed i (σ n)) → (∃ out, t = .finished out) ∨ t = .panicked) := by
    intro m c req reads hc ht
    obtain ⟨pevs, order, h1, -, h3⟩ := process_run (allocOk := allocOk) hs w0 workers tlsFeature tlsOk plainOk
      ((List.range m).map σ) (alive m)
    obtain ⟨s0, g1, g2⟩ := h1.conns i c hc
    obtain ⟨hm, p, hp⟩ := h1.sound h3 i c req reads hc ht
    rw [ht] at g2
    have he := hends m i c.tls s0 hiB g1 req g2.1
    obtain ⟨m', -, x, t, e2, -, e4, e5⟩ := handling_live hs alive i fairi p m c req reads hc ht hm hp
      (by have := he.after reads; rw [hp] at this; exact this)
    have hx : (atTime sv allocOk y0 σ (m' + 1)).conns[i]? = some { x with task := t } := by
      rw [e4]; exact Process.put_get e2 _ _ _
    rcases e5 with ⟨out, rfl⟩ | rfl
    · exact hwrite _ _ _ _ hx rfl
    · exact hkeep _ _ hx ⟨trivial, fun _ => .inr rfl⟩
  have hread : ∀ (m : Nat) (c : PConn W) (r : Reading), n0 ≤ m → (atTime sv allocOk y0 σ m).conns[i]? = some c →
      c.task = .reading r → ∃ t n, EndedTask t ∧ Remains sv allocOk y0 σ i (· = t) n ∧
        ((∀ n, Unharmed i (σ n)) → (∃ out, t = .finished out) ∨ t = .panicked) := by
    intro m c r hm hc ht
    obtain ⟨z, order, hx⟩ := hat m c hm hc
    rw [ht] at hx
    obtain ⟨-, hok, hrest⟩ := hx
    have hp : readRest sv.feat allocOk c.sock r ≠ .pending := by
      rw [hrest]
      rcases hsent with hf | ⟨q, n, hq, hn⟩
      · exact readRest_closed hf
      · rcases readRest_asked (allocOk := allocOk) hq (by simp only [i64Max]; omega) with e | ⟨req, e⟩ <;> rw [e] <;>
          exact fun h => by cases h
    obtain ⟨m', c', -, g2, g3⟩ := reading_live alive i fairi free _ m c r hc ht hok rfl hp
    rcases g3 with ⟨req, g3⟩ | ⟨out, g3⟩ | g3
    · exact hhandle m' c' req [] g2 g3
    · exact hwrite m' c' [] out g2 g3
    · exact hkeep m' c' g2 (by rw [g3]; exact ⟨trivial, fun _ => .inr rfl⟩)
  -- where the connection stands
  obtain ⟨pevs, order, h1, -, -⟩ := process_run (allocOk := allocOk) hs w0 workers tlsFeature tlsOk plainOk
    ((List.range n0).map σ) (alive n0)
  have hlen : i < (atTime sv allocOk y0 σ n0).conns.length := by
    have := (List.getElem?_eq_some_iff.1 hi).1
    rw [h1.len] at this
    exact this
  obtain ⟨c, hc⟩ : ∃ c, (atTime sv allocOk y0 σ n0).conns[i]? = some c := ⟨_, List.getElem?_eq_getElem hlen⟩
  cases ht : c.task with
  | handshake =>
    obtain ⟨m, h1, ok, h2, h3⟩ := handshake_live alive i fairi free n0 c hc ht
    cases ok with
    | true => exact hread (m + 1) _ (.head []) (by omega) h3 rfl
    | false => exact hkeep (m + 1) _ h3 ⟨trivial, fun hu => absurd h2 (hu m).2⟩
  | reading r => exact hread n0 c r (Nat.le_refl _) hc ht
  | handling req reads => exact hhandle n0 c req reads hc ht
  | writing sent rest => exact hwrite n0 c sent rest hc ht
  | finished out => exact hkeep n0 c hc (by rw [ht]; exact ⟨trivial, fun _ => .inl ⟨_, rfl⟩⟩)
  | broken out =>
    exact hkeep n0 c hc (by rw [ht]; exact ⟨trivial, fun hu => absurd ht (never_broken rfl hu n0 c hc out)⟩)
  | panicked => exact hkeep n0 c hc (by rw [ht]; exact ⟨trivial, fun _ => .inr rfl⟩)
  | refused => exact hkeep n0 c hc (by rw [ht]; exact ⟨trivial, fun hu => absurd ht (never_refused rfl hu n0 c hc)⟩)

namespace ProcessLiveExample
open ParallelExample ProcessExample

/-- one client whose handler never returns, another over TLS whose handler returns, and two threads -/
def turns : Nat → Happening Nat
  | 0 => .connect false asksH
  | 1 => .poll 0
  | 2 => .connect true asksP
  | n + 3 =>
    if n % 5 = 0 then .poll 1 else if n % 5 = 1 then .access 1 else if n % 5 = 2 then .finish 1
    else if n % 5 = 3 then .write 1 5 else .handshake 1 true

def first : Process Nat := Process.start 0 2 true true true

theorem turns_later (n : Nat) : turns (n + 3) ≠ .exit ∧ ∀ tls s, turns (n + 3) ≠ .connect tls s := by
  simp only [turns]
  repeat' split
  all_goals exact ⟨by simp, by simp⟩

theorem turns_again (n r : Nat) (hr : r < 5) : ∃ m, n ≤ m ∧ turns m =
    (if r = 0 then .poll 1 else if r = 1 then .access 1 else if r = 2 then .finish 1
    else if r = 3 then .write 1 5 else .handshake 1 true) := by
  refine ⟨(5 * n + r) + 3, by omega, ?_⟩
  simp only [turns, show (5 * n + r) % 5 = r by omega]

theorem alive (n : Nat) : (atTime (server sometimes) (fun _ => true) first turns n).dead = false := by
  induction n with
  | zero => rfl
  | succ n ih =>
    rw [atTime_succ]
    refine alive_step (fun _ => rfl) _ _ ih ?_
    match n with
    | 0 => simp [turns]
    | 1 => simp [turns]
    | 2 => simp [turns]
    | n + 3 => exact (turns_later n).1

theorem two (n : Nat) : (atTime (server sometimes) (fun _ => true) first turns n).conns[2]? = none := by
  match n with
  | 0 => rfl
  | 1 => rfl
  | 2 => rfl
  | n + 3 =>
    induction n with
    | zero => rfl
    | succ n ih =>
      cases h : (atTime (server sometimes) (fun _ => true) first turns (n + 1 + 3)).conns[2]? with
      | none => rfl
      | some c =>
        rw [show n + 1 + 3 = (n + 3) + 1 by omega, atTime_succ] at h
        obtain ⟨s, hs, -⟩ := conn_new _ _ 2 c ih h
        exact absurd hs ((turns_later n).2 _ _)

/-- while client 1 is not being handled a thread is free -/
theorem thread (n : Nat) (c : PConn Nat) (h : (atTime (server sometimes) (fun _ => true) first turns n).conns[1]? = some c)
    (hb : c.task.busy = false) : (atTime (server sometimes) (fun _ => true) first turns n).free = true := by
  have h2 := two n
  have hw : (atTime (server sometimes) (fun _ => true) first turns n).workers = 2 := atTime_workers _ _ _
  simp only [Process.free, hw]
  generalize (atTime (server sometimes) (fun _ => true) first turns n).conns = l at h h2
  match l, h, h2 with
  | [a, b], h, _ =>
    simp only [List.getElem?_cons_succ, List.getElem?_cons_zero, Option.some.injEq] at h
    subst h
    simp only [List.countP_cons, List.countP_nil, hb, Bool.false_eq_true, if_false]
    split <;> exact decide_eq_true (by omega)
  | a :: b :: c :: l, _, h2 => simp at h2

theorem fair (i : Nat) (hi : i ∉ [0]) : FairTask (server sometimes) (fun _ => true) first turns i := by
  have hno : ∀ P n, Remains (server sometimes) (fun _ => true) first turns i P n → i = 1 := by
    intro P n h
    obtain ⟨c, hc, -⟩ := h n (Nat.le_refl n)
    have h2 := List.getElem?_eq_none_iff.1 (two n)
    have := (List.getElem?_eq_some_iff.1 hc).1
    simp only [List.mem_cons, List.not_mem_nil, or_false] at hi
    omega
  constructor
  · intro n req reads upd h _
    rw [hno _ _ h]
    exact turns_again n 1 (by omega)
  · intro n req reads h _
    rw [hno _ _ h]
    exact turns_again n 2 (by omega)
  · intro _ n h
    have h1 := hno _ _ h
    subst h1
    obtain ⟨m, hm, e⟩ := turns_again n 4 (by omega)
    obtain ⟨c, hc, hr⟩ := h m hm
    exact ⟨m, hm, thread m c hc (by rw [hr]; rfl), true, e⟩
  · intro _ n h
    have h1 := hno _ _ h
    subst h1
    obtain ⟨m, hm, e⟩ := turns_again n 0 (by omega)
    obtain ⟨c, hc, r, hr⟩ := h m hm
    exact ⟨m, hm, thread m c hc (by rw [hr]; rfl), e⟩
  · intro _ n h
    have h1 := hno _ _ h
    subst h1
    obtain ⟨m, hm, e⟩ := turns_again n 3 (by omega)
    obtain ⟨c, hc, a, b, hr⟩ := h m hm
    exact ⟨m, hm, thread m c hc (by rw [hr]; rfl), .inr ⟨5, by omega, e⟩⟩

theorem taken_turns (n : Nat) : taken true true ((List.range (n + 3)).map turns) = [(false, asksH), (true, asksP)] := by
  have later : ∀ l : List Nat, taken true true ((l.map (3 + ·)).map turns) = [] := by
    intro l
    induction l with
    | nil => rfl
    | cons k l ih =>
      rw [List.map_cons, List.map_cons, show 3 + k = k + 3 by omega]
      simp only [turns]
      repeat' split
      all_goals exact ih
  rw [show n + 3 = 3 + n by omega, List.range_add, List.map_append]
  show (false, asksH) :: (true, asksP) :: taken true true (((List.range n).map (3 + ·)).map turns) = _
  rw [later]

theorem ends (n i : Nat) (tls : Bool) (s : Sock) (hi : i ∉ [0])
    (h : (taken true true ((List.range n).map turns))[i]? = some (tls, s)) (q : Request) (hq : Received true true s q) :
    (requestProg true [⟨.everywhere, sometimes⟩] q).Ends := by
  have hpre : taken true true ((List.range n).map turns) <+: [(false, asksH), (true, asksP)] := by
    rw [← taken_turns n]
    refine taken_prefix ?_ _ _
    exact ⟨([n, n + 1, n + 2] : List Nat).map turns, by
      rw [← List.map_append, List.range_succ, List.range_succ, List.range_succ]; simp⟩
  obtain ⟨r, hr⟩ := hpre
  have hl := (List.getElem?_eq_some_iff.1 h).1
  have h' : ([(false, asksH), (true, asksP)] : List (Bool × Sock))[i]? = some (tls, s) := by
    rw [← hr, List.getElem?_append_left hl]; exact h
  match i, hi, h' with
  | 1, _, h' =>
    simp only [List.getElem?_cons_succ, List.getElem?_cons_zero, Option.some.injEq, Prod.mk.injEq] at h'
    obtain ⟨-, rfl⟩ := h'
    obtain ⟨q0, n0, h0, _⟩ := receivedP
    exact endsP true q (C104_one_request rfl h0 hq receivedP).1
  | 0, hi, _ => simp at hi

/-- the hypotheses of `C107_ends`, and so the second client is answered -/
example : ∃ t n, EndedTask t ∧ Remains (server sometimes) (fun _ => true) first turns 1 (· = t) n ∧
    ((∃ out, t = .finished out) ∨ t = .panicked) := by
  obtain ⟨t, n, h1, h2, h3⟩ := C107_ends (server sometimes) _ (setUp sometimes) (fun _ => true) 0 2 true true true turns
    alive [0] (by decide) fair ends 1 3 true asksP (by decide) rfl (.inl (by simp [asksP]))
  refine ⟨t, n, h1, h2, h3 ?_⟩
  intro n
  match n with
  | 0 => simp [turns, Unharmed]
  | 1 => simp [turns, Unharmed]
  | 2 => simp [turns, Unharmed]
  | n + 3 =>
    simp only [turns]
    repeat' split
    all_goals simp [Unharmed]

/-- a failing TLS listener, a client that sends nonsense and one whose handler hangs -/
def troubles : List (Happening Nat) :=
  [.connect false asksH, .poll 0, .acceptErr true, .connect true asksP, .connect false ⟨[[13, 10, 13, 10]], .eof⟩,
    .poll 1, .exit]

example : (first.run (server sometimes) (fun _ => true) troubles).dead = false ∧
    (first.run (server sometimes) (fun _ => true) troubles).plain = .listening :=
  C107_alive _ _ (fun _ => rfl) _ _ _ _ _ (by simp [troubles])

end ProcessLiveExample

end Octane
