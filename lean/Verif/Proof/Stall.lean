import Verif.Spec.Stall
import Verif.Proof.Parallel
/-
Lemmas on requests that cannot come to an end any more.
-/
namespace Octane
open Spec
universe u v
variable {W : Type u} {α : Type v}

theorem Prog.rest_after (p : Prog W α) (ws : List W) : p.rest ws = (p.after ws).1 := by
  induction p generalizing ws with
  | act u n ih =>
    cases ws with
    | nil => rfl
    | cons w ws => exact ih w ws
  | ret a => rfl
  | panic => rfl
  | hang => rfl

theorem run_workers (sv : PServer W) (evs : List (PEvent W)) (y : PSys W) : (y.run sv evs).workers = y.workers := by
  induction evs generalizing y with
  | nil => rfl
  | cons e evs ih =>
    have : (y.step sv e).workers = y.workers := by
      cases e <;> simp only [PSys.step] <;> repeat' split
      all_goals rfl
    exact (ih _).trans this

theorem countP_set_mono {l : List α} {i : Nat} {a b : α} (P : α → Bool) (h : l[i]? = some a)
    (hab : P a = true → P b = true) : l.countP P ≤ (l.set i b).countP P := by
  cases ha : P a with
  | false => exact countP_set_le P h ha
  | true =>
    have hi := (List.getElem?_eq_some_iff.1 h).1
    cases hb : P b with
    | false => rw [hab ha] at hb; simp at hb
    | true =>
      refine Nat.le_of_eq ?_
      clear hab
      induction l generalizing i with
      | nil => simp
      | cons x l ih =>
        cases i with
        | zero =>
          simp only [List.getElem?_cons_zero, Option.some.injEq] at h
          subst h
          simp [List.set_cons_zero, List.countP_cons, ha, hb]
        | succ i =>
          simp only [List.getElem?_cons_succ] at h
          simp only [List.set_cons_succ, List.countP_cons]
          rw [ih h (by simpa using hi)]

/-- `Lost`, with what makes it inductive -/
def LostP (sv : PServer W) (log : List (PReg W)) : Job W → Prop
  | .running req reads => req.requestLine.method ≠ .all ∧
      ∃ p, (requestProg sv.feat.urlVariables log req).after reads = (p, []) ∧ ¬ p.MayEnd
  | _ => False

noncomputable def lostB (sv : PServer W) (log : List (PReg W)) (j : Job W) : Bool :=
  @decide (LostP sv log j) (Classical.propDecidable _)

theorem lostB_iff {sv : PServer W} {log : List (PReg W)} {j : Job W} : lostB sv log j = true ↔ LostP sv log j := by
  unfold lostB
  exact @decide_eq_true_iff _ (Classical.propDecidable _)

theorem lost_count {sv : PServer W} {log : List (PReg W)} {y : PSys W} (hy : Sound sv log y) :
    y.jobs.countP (Lost sv log) = y.jobs.countP (lostB sv log) := by
  apply List.countP_congr
  intro j hj
  rw [lostB_iff]
  obtain ⟨i, hi⟩ := List.getElem?_of_mem hj
  cases j with
  | running req reads =>
    obtain ⟨hm, p, hp⟩ := hy i req reads hi
    simp only [Lost, LostP, decide_eq_true_eq, Prog.rest_after, hp]
    exact ⟨fun h => ⟨hm, p, rfl, h⟩, fun ⟨_, q, hq, h⟩ => by injection hq with e; rw [e]; exact h⟩
  | _ => simp [Lost, LostP]

theorem lost_access {sv : PServer W} {log : List (PReg W)} (hs : SetUp sv log) {req : Request} {reads : List W}
    {upd : W → W} (hst : sv.stage req reads = .wants upd) (w : W) (h : LostP sv log (.running req reads)) :
    LostP sv log (.running req (reads ++ [w])) := by
  obtain ⟨hm, p, hp, hn⟩ := h
  have hsp := stage_spec hs req hm reads
  rw [hp, hst] at hsp
  cases p <;> simp only [Stands] at hsp
  refine ⟨hm, _, by rw [Prog.after_snoc hp, Prog.after_nil], fun h => hn ⟨w, h⟩⟩

theorem lost_stays {sv : PServer W} {log : List (PReg W)} (hs : SetUp sv log) {req : Request} {reads : List W}
    (h : LostP sv log (.running req reads)) : (∀ r, sv.stage req reads ≠ .replies r) ∧ sv.stage req reads ≠ .panicked := by
  obtain ⟨hm, p, hp, hn⟩ := h
  have hsp := stage_spec hs req hm reads
  rw [hp] at hsp
  constructor
  · intro r hst
    rw [hst] at hsp
    cases p <;> simp only [Stands] at hsp
    exact hn trivial
  · intro hst
    rw [hst] at hsp
    cases p <;> simp only [Stands] at hsp
    exact hn trivial

/-- one step: no more threads are free than before, and a request that waits goes on waiting -/
theorem lost_step {sv : PServer W} {log : List (PReg W)} (hs : SetUp sv log) {y : PSys W}
    (h : y.workers ≤ y.jobs.countP (lostB sv log)) (e : PEvent W) :
    (y.step sv e).workers ≤ (y.step sv e).jobs.countP (lostB sv log) ∧
    ∀ (i : Nat) req, y.jobs[i]? = some (.ready req) → (y.step sv e).jobs[i]? = some (.ready req) := by
  have hbusy : ¬ y.jobs.countP Job.busy < y.workers := by
    have : y.jobs.countP (lostB sv log) ≤ y.jobs.countP Job.busy := by
      apply List.countP_mono_left
      intro j _ hj
      rw [lostB_iff] at hj
      cases j <;> simp_all [LostP, Job.busy]
    omega
  have upd : ∀ (i : Nat) (req : Request) (reads : List W) (j : Job W), y.jobs[i]? = some (.running req reads) →
      (LostP sv log (.running req reads) → LostP sv log j) →
      y.workers ≤ (y.jobs.set i j).countP (lostB sv log) ∧
      ∀ (k : Nat) q, y.jobs[k]? = some (.ready q) → (y.jobs.set i j)[k]? = some (.ready q) := by
    intro i req reads j hj hh
    refine ⟨Nat.le_trans h (countP_set_mono _ hj (by rw [lostB_iff, lostB_iff]; exact hh)), ?_⟩
    intro k q hk
    have : i ≠ k := by rintro rfl; rw [hj] at hk; simp at hk
    rw [List.getElem?_set_ne this]; exact hk
  cases e with
  | arrive req =>
    refine ⟨?_, ?_⟩
    · simp only [PSys.step, List.countP_append]; omega
    · intro i q hq
      simp only [PSys.step]
      rw [List.getElem?_append_left (List.getElem?_eq_some_iff.1 hq).1]; exact hq
  | env f => exact ⟨h, fun _ _ hq => hq⟩
  | start i =>
    simp only [PSys.step]
    split
    · simp only [hbusy, if_false]; exact ⟨h, fun _ _ hq => hq⟩
    · exact ⟨h, fun _ _ hq => hq⟩
  | access i =>
    simp only [PSys.step]
    split
    · rename_i req reads hj
      split
      · rename_i u hst
        exact upd i req reads _ hj (lost_access hs hst y.world)
      · exact ⟨h, fun _ _ hq => hq⟩
    · exact ⟨h, fun _ _ hq => hq⟩
  | finish i =>
    simp only [PSys.step]
    split
    · rename_i req reads hj
      split
      · rename_i r hst
        split <;> exact upd i req reads _ hj fun hl => absurd hst ((lost_stays hs hl).1 r)
      · rename_i hst
        exact upd i req reads _ hj fun hl => absurd hst (lost_stays hs hl).2
      · exact ⟨h, fun _ _ hq => hq⟩
    · exact ⟨h, fun _ _ hq => hq⟩

theorem lost_run {sv : PServer W} {log : List (PReg W)} (hs : SetUp sv log) (evs : List (PEvent W)) {y : PSys W}
    (h : y.workers ≤ y.jobs.countP (lostB sv log)) (i : Nat) (req : Request) (hi : y.jobs[i]? = some (.ready req)) :
    (y.run sv evs).jobs[i]? = some (.ready req) := by
  induction evs generalizing y with
  | nil => exact hi
  | cons e evs ih =>
    obtain ⟨h1, h2⟩ := lost_step hs h e
    exact ih h1 (h2 i req hi)

/-- a request that waits or is being handled and will never come to an end -/
def Doomed (sv : PServer W) (log : List (PReg W)) : Option (Job W) → Prop
  | some (.ready req) => req.requestLine.method ≠ .all ∧ ¬ (requestProg sv.feat.urlVariables log req).MayEnd
  | some j => LostP sv log j
  | none => False

theorem doomed_step {sv : PServer W} {log : List (PReg W)} (hs : SetUp sv log) {y : PSys W} {i : Nat}
    (h : Doomed sv log y.jobs[i]?) (e : PEvent W) : Doomed sv log (y.step sv e).jobs[i]? := by
  have other : ∀ (k : Nat) (j : Job W), (k = i → Doomed sv log (some j)) → Doomed sv log (y.jobs.set k j)[i]? := by
    intro k j hj
    rw [List.getElem?_set]
    split
    · split
      · exact hj ‹_›
      · rename_i h1 h2
        subst h1
        rw [List.getElem?_eq_none (by omega)] at h
        exact h
    · exact h
  cases e with
  | arrive req =>
    simp only [PSys.step]
    rw [List.getElem?_append]
    split
    · exact h
    · rw [List.getElem?_eq_none (by omega)] at h
      exact h.elim
  | env f => exact h
  | start k =>
    simp only [PSys.step]
    split
    · rename_i req hj
      split
      · refine other k _ ?_
        rintro rfl
        rw [hj] at h
        exact ⟨h.1, _, Prog.after_nil _, h.2⟩
      · exact h
    · exact h
  | access k =>
    simp only [PSys.step]
    split
    · rename_i req reads hj
      split
      · rename_i u hst
        refine other k _ ?_
        rintro rfl
        rw [hj] at h
        exact lost_access hs hst y.world h
      · exact h
    · exact h
  | finish k =>
    simp only [PSys.step]
    split
    · rename_i req reads hj
      split
      · rename_i r hst
        split <;> refine other k _ ?_ <;> rintro rfl <;> rw [hj] at h <;>
          exact absurd hst ((lost_stays hs h).1 r)
      · rename_i hst
        refine other k _ ?_
        rintro rfl
        rw [hj] at h
        exact absurd hst (lost_stays hs h).2
      · exact h
    · exact h

theorem doomed_run {sv : PServer W} {log : List (PReg W)} (hs : SetUp sv log) (evs : List (PEvent W)) {y : PSys W}
    {i : Nat} (h : Doomed sv log y.jobs[i]?) : Doomed sv log (y.run sv evs).jobs[i]? := by
  induction evs generalizing y with
  | nil => exact h
  | cons e evs ih => exact ih (doomed_step hs h e)

/-- a running request that may end does so for some course of the shared state -/
theorem run_mayEnd {sv : PServer W} {log : List (PReg W)} (hs : SetUp sv log) (req : Request)
    (hm : req.requestLine.method ≠ .all) (k : Nat) (p : Prog W Reply) (y : PSys W) (reads : List W)
    (hj : y.jobs[k]? = some (.running req reads))
    (ha : (requestProg sv.feat.urlVariables log req).after reads = (p, [])) (hp : p.MayEnd) :
    ∃ more j, (∀ e ∈ more, e.arrive? = none) ∧ (y.run sv more).workers = y.workers ∧
      (y.run sv more).jobs = y.jobs.set k j ∧ ((∃ r bytes, j = .done r bytes) ∨ j = .dead) := by
  have hsp := stage_spec hs req hm reads
  rw [ha] at hsp
  have hi := (List.getElem?_eq_some_iff.1 hj).1
  induction p generalizing y reads with
  | hang => exact hp.elim
  | ret r =>
    have hst : sv.stage req reads = .replies r := by
      cases hst : sv.stage req reads <;> rw [hst] at hsp <;> first | exact hsp.elim | (cases hsp; rfl)
    cases hw : sv.write y.world r with
    | ok bytes =>
      exact ⟨[.finish k], .done r bytes, by simp [PEvent.arrive?], by simp [PSys.run, PSys.step, hj, hst, hw],
        by simp [PSys.run, PSys.step, hj, hst, hw], .inl ⟨r, bytes, rfl⟩⟩
    | panic =>
      exact ⟨[.finish k], .dead, by simp [PEvent.arrive?], by simp [PSys.run, PSys.step, hj, hst, hw],
        by simp [PSys.run, PSys.step, hj, hst, hw], .inr rfl⟩
  | panic =>
    have hst : sv.stage req reads = .panicked := by
      cases hst : sv.stage req reads <;> rw [hst] at hsp <;> first | exact hsp.elim | rfl
    exact ⟨[.finish k], .dead, by simp [PEvent.arrive?], by simp [PSys.run, PSys.step, hj, hst],
      by simp [PSys.run, PSys.step, hj, hst], .inr rfl⟩
  | act upd next ih =>
    have hst : sv.stage req reads = .wants upd := by
      cases hst : sv.stage req reads <;> rw [hst] at hsp <;> first | exact hsp.elim | (cases hsp; rfl)
    obtain ⟨w, hw⟩ := hp
    have hstep : y.run sv [.env fun _ => w, .access k] =
        { y with world := upd w, jobs := y.jobs.set k (.running req (reads ++ [w])) } := by
      simp [PSys.run, PSys.step, hj, hst]
    have ha' : (requestProg sv.feat.urlVariables log req).after (reads ++ [w]) = (next w, []) := by
      rw [Prog.after_snoc ha, Prog.after_nil]
    have hsp' := stage_spec hs req hm (reads ++ [w])
    rw [ha'] at hsp'
    obtain ⟨more, j, m0, m1, m2, m3⟩ := ih w (y.run sv [.env fun _ => w, .access k]) (reads ++ [w])
      (by rw [hstep]; simp [hi]) ha' hw hsp' (by rw [hstep]; simpa using hi)
    refine ⟨[.env fun _ => w, .access k] ++ more, j, ?_, ?_, ?_, m3⟩
    · intro e he
      rcases List.mem_append.1 he with he | he
      · simp only [List.mem_cons, List.not_mem_nil, or_false] at he
        rcases he with rfl | rfl <;> rfl
      · exact m0 e he
    · rw [PSys.run_append, m1, hstep]
    · rw [PSys.run_append, m2, hstep]
      simp

theorem free_lost {sv : PServer W} {log : List (PReg W)} (hs : SetUp sv log) (n : Nat) (y : PSys W)
    (hn : y.jobs.countP Job.busy = n) (hy : Sound sv log y)
    (hh : y.jobs.countP (lostB sv log) < y.workers) :
    ∃ more : List (PEvent W), (∀ e ∈ more, e.arrive? = none) ∧
      (y.run sv more).jobs.countP Job.busy < (y.run sv more).workers ∧
      ∀ (i : Nat) req, y.jobs[i]? = some (.ready req) → (y.run sv more).jobs[i]? = some (.ready req) := by
  induction n using Nat.strongRecOn generalizing y with
  | _ n ih =>
    by_cases hb : y.jobs.countP Job.busy < y.workers
    · exact ⟨[], by simp, hb, fun _ _ h => h⟩
    · have hex : ∃ j ∈ y.jobs, j.busy = true ∧ lostB sv log j = false := by
        apply Classical.byContradiction
        intro hcon
        have : y.jobs.countP Job.busy ≤ y.jobs.countP (lostB sv log) := by
          apply List.countP_mono_left
          intro j hj hbj
          cases hm : lostB sv log j with
          | true => rfl
          | false => exact absurd ⟨j, hj, hbj, hm⟩ hcon
        omega
      obtain ⟨j, hj, hbj, hmj⟩ := hex
      obtain ⟨k, hk⟩ := List.getElem?_of_mem hj
      cases j <;> simp only [Job.busy, Bool.false_eq_true] at hbj
      rename_i req reads
      obtain ⟨hm, p, hp⟩ := hy k req reads hk
      have hends : p.MayEnd := by
        apply Classical.byContradiction
        intro hcon
        have : lostB sv log (.running req reads) = true := lostB_iff.2 ⟨hm, p, hp, hcon⟩
        rw [this] at hmj
        simp at hmj
      obtain ⟨m, j', m0, c1, hj', hend⟩ := run_mayEnd hs req hm k p y reads hk hp hends
      have hb' : j'.busy = false := by rcases hend with ⟨_, _, rfl⟩ | rfl <;> rfl
      have hl' : lostB sv log j' = false := by
        cases hl : lostB sv log j' with
        | false => rfl
        | true => rw [lostB_iff] at hl; rcases hend with ⟨_, _, rfl⟩ | rfl <;> exact hl.elim
      have hcount := countP_set_lt (b := j') Job.busy hk rfl hb'
      have hnr : ∀ req reads, j' ≠ .running req reads := by rintro _ _ rfl; simp [Job.busy] at hb'
      generalize hY : y.run sv m = Y at c1 hj'
      obtain ⟨more, m1, m2, m3⟩ := ih (Y.jobs.countP Job.busy) (by rw [hj']; omega) Y rfl (by
        intro i q rs hi
        rw [hj', List.getElem?_set] at hi
        split at hi
        · split at hi
          · injection hi with hi; exact absurd hi (hnr _ _)
          · simp at hi
        · exact hy i q rs hi) (by
        rw [c1, hj']
        have h1 := countP_set_le (l := y.jobs.set k j') (i := k) (a := j') (b := .running req reads) (lostB sv log)
          (by simp [(List.getElem?_eq_some_iff.1 hk).1]) hl'
        rw [List.set_set, set_same hk] at h1
        omega)
      refine ⟨m ++ more, ?_, ?_⟩
      · intro e he
        rcases List.mem_append.1 he with he | he
        · exact m0 e he
        · exact m1 e he
      · rw [PSys.run_append, hY]
        refine ⟨m2, fun i q hi => m3 i q ?_⟩
        rw [hj', List.getElem?_set_ne (by rintro rfl; rw [hk] at hi; simp at hi)]
        exact hi

end Octane
