import Verif.Proof.Handshake
import Verif.Spec.ProcessLive
/-
Progress of the connections of the process in an infinite execution, for C107.
-/
namespace Octane
open Spec
universe u
variable {W : Type u} {sv : PServer W} {allocOk : Nat → Bool}

/-- the connection an event concerns -/
def Happening.conn? : Happening W → Option Nat
  | .handshake i _ | .poll i | .access i | .finish i | .write i _ | .writeErr i => some i
  | _ => none

theorem step_other (y : Process W) (e : Happening W) (i : Nat) (c : PConn W) (hc : y.conns[i]? = some c)
    (he : e.conn? ≠ some i) : (y.step sv allocOk e).conns[i]? = some c := by
  have hput : ∀ (k : Nat) (x : PConn W) (w : W) (t : PTask W) (s : Sock), k ≠ i →
      (y.put w k x t s).conns[i]? = some c := by
    intro k x w t s hk
    simp only [Process.put]
    rw [List.getElem?_set_ne hk]
    exact hc
  have hlt := (List.getElem?_eq_some_iff.1 hc).1
  unfold Process.step
  split
  · exact hc
  · cases e with
    | connect tls s =>
      simp only
      split
      · rw [List.getElem?_append_left hlt]; exact hc
      · exact hc
    | acceptErr tls => simp only; split <;> (try split) <;> exact hc
    | env f => exact hc
    | exit => simp only; split <;> exact hc
    | handshake k ok =>
      have hk : k ≠ i := fun h => he (by rw [h]; rfl)
      simp only; split <;> (try split) <;> first | exact hc | exact hput _ _ _ _ _ hk
    | poll k =>
      have hk : k ≠ i := fun h => he (by rw [h]; rfl)
      simp only
      split
      · split
        · split
          · split <;> first | exact hput _ _ _ _ _ hk | exact hc
          · exact hc
        · exact hc
      · exact hc
    | access k =>
      have hk : k ≠ i := fun h => he (by rw [h]; rfl)
      simp only; split <;> (try split) <;> (try split) <;> first | exact hc | exact hput _ _ _ _ _ hk
    | finish k =>
      have hk : k ≠ i := fun h => he (by rw [h]; rfl)
      simp only; split <;> (try split) <;> (try split) <;> first | exact hc | exact hput _ _ _ _ _ hk
    | write k n =>
      have hk : k ≠ i := fun h => he (by rw [h]; rfl)
      simp only; split <;> (try split) <;> first | exact hc | exact hput _ _ _ _ _ hk
    | writeErr k =>
      have hk : k ≠ i := fun h => he (by rw [h]; rfl)
      simp only; split <;> (try split) <;> first | exact hc | exact hput _ _ _ _ _ hk

/-- A put that changes nothing. -/
theorem put_same (y : Process W) {i : Nat} {c : PConn W} (hc : y.conns[i]? = some c) :
    y.put y.world i c c.task c.sock = y := by
  simp only [Process.put]
  rw [set_same hc]

/-- Something that is so at one time and does not go on for ever comes to an end. -/
theorem leaves {α : Type u} (f : Nat → α) (a : α) (n : Nat) (hn : f n = a) (G : Nat → Prop)
    (fair : (∀ m, n ≤ m → f m = a) → ∃ m, n ≤ m ∧ G m) (only : ∀ m, n ≤ m → f m = a → ¬ G m → f (m + 1) = a) :
    ∃ m, n ≤ m ∧ f m = a ∧ G m := by
  apply Classical.byContradiction
  intro hno
  have hall : ∀ k, f (n + k) = a := by
    intro k
    induction k with
    | zero => exact hn
    | succ k ih => exact only (n + k) (by omega) ih fun hg => hno ⟨n + k, by omega, ih, hg⟩
  have hall' : ∀ m, n ≤ m → f m = a := by
    intro m hm
    have := hall (m - n)
    rwa [show n + (m - n) = m by omega] at this
  obtain ⟨m, h1, h2⟩ := fair hall'
  exact hno ⟨m, h1, hall' m h1, h2⟩

theorem atTime_succ (y : Process W) (σ : Nat → Happening W) (n : Nat) :
    atTime sv allocOk y σ (n + 1) = (atTime sv allocOk y σ n).step sv allocOk (σ n) := by
  simp [atTime, List.range_succ, Process.run, List.foldl_append]

/-- no more tasks hold a thread than there are threads -/
theorem busy_le (y : Process W) (e : Happening W) (h : y.conns.countP (·.task.busy) ≤ y.workers) :
    (y.step sv allocOk e).conns.countP (·.task.busy) ≤ (y.step sv allocOk e).workers := by
  have hput : ∀ (k : Nat) (x : PConn W) (w : W) (t : PTask W) (s : Sock), y.conns[k]? = some x →
      (t.busy = true → x.task.busy = true ∨ y.free = true) →
      (y.put w k x t s).conns.countP (·.task.busy) ≤ (y.put w k x t s).workers := by
    intro k x w t s hk hb
    simp only [Process.put]
    have := countP_set_eq (b := ({ x with task := t, sock := s } : PConn W)) (·.task.busy) hk
    simp only at this
    cases ht : t.busy with
    | false => rw [ht] at this; simp only [Bool.toNat_false] at this; omega
    | true =>
      rw [ht] at this
      simp only [Bool.toNat_true] at this
      rcases hb ht with hb | hb
      · rw [hb] at this; simp only [Bool.toNat_true] at this; omega
      · simp only [Process.free, decide_eq_true_eq] at hb
        omega
  have hresp : ∀ r : Res Bytes, (PTask.respond (W := W) r).busy = false := by intro r; cases r <;> rfl
  unfold Process.step
  split
  · exact h
  · cases e with
    | connect tls s =>
      simp only
      split
      · simp only [List.countP_append, List.countP_cons, List.countP_nil]
        cases tls <;> simpa [PTask.busy] using h
      · exact h
    | acceptErr tls => simp only; split <;> (try split) <;> exact h
    | env f => exact h
    | exit => simp only; split <;> exact h
    | handshake k ok =>
      simp only
      split
      · rename_i x hk
        split
        · rename_i hf
          refine hput _ _ _ _ _ hk fun _ => .inr hf
        · exact h
      · exact h
    | poll k =>
      simp only
      split
      · rename_i x hk
        split
        · split
          · rename_i hf
            split
            · exact hput _ _ _ _ _ hk fun _ => .inr hf
            · exact hput _ _ _ _ _ hk fun _ => .inr hf
            · exact hput _ _ _ _ _ hk fun _ => .inr hf
            · exact hput _ _ _ _ _ hk fun _ => .inr hf
            · exact h
          · exact h
        · exact h
      · exact h
    | access k =>
      simp only
      split
      · rename_i x hk
        split
        · rename_i ht
          split
          · exact hput _ _ _ _ _ hk fun _ => .inl (by rw [ht]; rfl)
          · exact h
        · exact h
      · exact h
    | finish k =>
      simp only
      split
      · rename_i x hk
        split
        · rename_i ht
          split
          · exact hput _ _ _ _ _ hk fun _ => .inl (by rw [ht]; rfl)
          · exact hput _ _ _ _ _ hk fun _ => .inl (by rw [ht]; rfl)
          · exact h
        · exact h
      · exact h
    | write k n =>
      simp only
      split
      · rename_i x hk
        split
        · rename_i hf
          exact hput _ _ _ _ _ hk fun _ => .inr hf
        · exact h
      · exact h
    | writeErr k =>
      simp only
      split
      · rename_i x hk
        split
        · rename_i hf
          exact hput _ _ _ _ _ hk fun _ => .inr hf
        · exact h
      · exact h

section
variable {y0 : Process W} {σ : Nat → Happening W}

theorem busy_at (h0 : y0.conns.countP (·.task.busy) ≤ y0.workers) (n : Nat) :
    (atTime sv allocOk y0 σ n).conns.countP (·.task.busy) ≤ (atTime sv allocOk y0 σ n).workers := by
  induction n with
  | zero => exact h0
  | succ n ih => rw [atTime_succ]; exact busy_le _ _ ih

/-- A task whose handlers return gives its thread back. -/
theorem handling_live {log : List (PReg W)} (hs : SetUp sv log)
    (alive : ∀ n, (atTime sv allocOk y0 σ n).dead = false) (i : Nat) (fair : FairTask sv allocOk y0 σ i)
    (p : Prog W Reply) :
    ∀ (n : Nat) (c : PConn W) (req : Request) (reads : List W), (atTime sv allocOk y0 σ n).conns[i]? = some c →
      c.task = .handling req reads → req.requestLine.method ≠ .all →
      (requestProg sv.feat.urlVariables log req).after reads = (p, []) → p.Ends →
      ∃ m, n ≤ m ∧ ∃ (x : PConn W) (t : PTask W), (atTime sv allocOk y0 σ m).conns[i]? = some x ∧ x.task.busy = true ∧
        atTime sv allocOk y0 σ (m + 1) =
          (atTime sv allocOk y0 σ m).put (atTime sv allocOk y0 σ m).world i x t x.sock ∧
        ((∃ out, t = .writing [] out) ∨ t = .panicked) := by
  have fin : ∀ (n : Nat) (c : PConn W) (req : Request) (reads : List W),
      (atTime sv allocOk y0 σ n).conns[i]? = some c → c.task = .handling req reads →
      ((∃ r, sv.stage req reads = .replies r) ∨ sv.stage req reads = .panicked) →
      ∃ m, n ≤ m ∧ ∃ (x : PConn W) (t : PTask W), (atTime sv allocOk y0 σ m).conns[i]? = some x ∧ x.task.busy = true ∧
        atTime sv allocOk y0 σ (m + 1) =
          (atTime sv allocOk y0 σ m).put (atTime sv allocOk y0 σ m).world i x t x.sock ∧
        ((∃ out, t = .writing [] out) ∨ t = .panicked) := by
    intro n c req reads hc ht hst
    obtain ⟨m, h1, h2, h3⟩ := leaves (fun m => (atTime sv allocOk y0 σ m).conns[i]?) (some c) n hc
      (fun m => σ m = .finish i)
      (fun hall => fair.finish n req reads (fun m hm => ⟨c, hall m hm, ht⟩) hst)
      (by
        intro m _ hm hg
        rw [atTime_succ]
        by_cases hcn : (σ m).conn? = some i
        · cases he : σ m with
          | finish k => rw [he] at hcn hg; injection hcn with hcn; subst hcn; exact absurd rfl hg
          | access k =>
            rw [he] at hcn; injection hcn with hcn; subst hcn
            rcases hst with ⟨r, hst⟩ | hst <;> simp [Process.step, alive m, hm, ht, hst]
          | handshake k ok =>
            rw [he] at hcn; injection hcn with hcn; subst hcn
            simp only [Process.step, alive m, hm, ht, PTask.handshakeStep]
            rw [← ht, put_same _ hm]; simp [hm]
          | poll k =>
            rw [he] at hcn; injection hcn with hcn; subst hcn
            simp [Process.step, alive m, hm, ht]
          | write k q =>
            rw [he] at hcn; injection hcn with hcn; subst hcn
            simp only [Process.step, alive m, hm, ht, PTask.writeStep]
            rw [← ht, put_same _ hm]; simp [hm]
          | writeErr k =>
            rw [he] at hcn; injection hcn with hcn; subst hcn
            simp only [Process.step, alive m, hm, ht, PTask.writeFail]
            rw [← ht, put_same _ hm]; simp [hm]
          | _ => rw [he] at hcn; cases hcn
        · exact step_other _ _ _ _ hm hcn)
    rcases hst with ⟨r, hst⟩ | hst
    · refine ⟨m, h1, c, .respond (sv.write (atTime sv allocOk y0 σ m).world r), h2, by rw [ht]; rfl, ?_, ?_⟩
      · rw [atTime_succ, h3]
        simp [Process.step, alive m, h2, ht, hst]
      · cases sv.write (atTime sv allocOk y0 σ m).world r with
        | ok out => exact .inl ⟨out, rfl⟩
        | panic => exact .inr rfl
    · refine ⟨m, h1, c, .panicked, h2, by rw [ht]; rfl, ?_, .inr rfl⟩
      rw [atTime_succ, h3]
      simp [Process.step, alive m, h2, ht, hst]
  induction p with
  | act u next ih =>
    intro n c req reads hc ht hm ha he
    have hst := stage_spec hs req hm reads
    rw [ha] at hst
    cases hstage : sv.stage req reads <;> rw [hstage] at hst <;> try exact hst.elim
    rename_i upd
    have hu : upd = u := hst
    subst hu
    obtain ⟨m, h1, h2, h3⟩ := leaves (fun m => (atTime sv allocOk y0 σ m).conns[i]?) (some c) n hc
      (fun m => σ m = .access i)
      (fun hall => fair.access n req reads upd (fun m hm => ⟨c, hall m hm, ht⟩) hstage)
      (by
        intro m _ hm hg
        rw [atTime_succ]
        by_cases hcn : (σ m).conn? = some i
        · cases he : σ m with
          | access k => rw [he] at hcn hg; injection hcn with hcn; subst hcn; exact absurd rfl hg
          | finish k =>
            rw [he] at hcn; injection hcn with hcn; subst hcn
            simp [Process.step, alive m, hm, ht, hstage]
          | handshake k ok =>
            rw [he] at hcn; injection hcn with hcn; subst hcn
            simp only [Process.step, alive m, hm, ht, PTask.handshakeStep]
            rw [← ht, put_same _ hm]; simp [hm]
          | poll k =>
            rw [he] at hcn; injection hcn with hcn; subst hcn
            simp [Process.step, alive m, hm, ht]
          | write k q =>
            rw [he] at hcn; injection hcn with hcn; subst hcn
            simp only [Process.step, alive m, hm, ht, PTask.writeStep]
            rw [← ht, put_same _ hm]; simp [hm]
          | writeErr k =>
            rw [he] at hcn; injection hcn with hcn; subst hcn
            simp only [Process.step, alive m, hm, ht, PTask.writeFail]
            rw [← ht, put_same _ hm]; simp [hm]
          | _ => rw [he] at hcn; cases hcn
        · exact step_other _ _ _ _ hm hcn)
    have hstep : atTime sv allocOk y0 σ (m + 1) = (atTime sv allocOk y0 σ m).put (upd (atTime sv allocOk y0 σ m).world) i c
        (.handling req (reads ++ [(atTime sv allocOk y0 σ m).world])) c.sock := by
      rw [atTime_succ, h3]
      simp [Process.step, alive m, h2, ht, hstage]
    obtain ⟨m', g1, g2⟩ := ih (atTime sv allocOk y0 σ m).world (m + 1)
      { c with task := .handling req (reads ++ [(atTime sv allocOk y0 σ m).world]) } req
      (reads ++ [(atTime sv allocOk y0 σ m).world]) (by rw [hstep]; exact Process.put_get h2 _ _ _) rfl hm
      (by rw [Prog.after_snoc ha, Prog.after_nil]) (he _)
    exact ⟨m', by omega, g2⟩
  | ret r =>
    intro n c req reads hc ht hm ha he
    have hst := stage_spec hs req hm reads
    rw [ha] at hst
    cases hstage : sv.stage req reads <;> rw [hstage] at hst <;> try exact hst.elim
    exact fin n c req reads hc ht (.inl ⟨_, hstage⟩)
  | panic =>
    intro n c req reads hc ht hm ha he
    have hst := stage_spec hs req hm reads
    rw [ha] at hst
    cases hstage : sv.stage req reads <;> rw [hstage] at hst <;> try exact hst.elim
    exact fin n c req reads hc ht (.inr hstage)
  | hang => intro n c req reads hc ht hm ha he; exact he.elim

/-- An ended task stays as it is. -/
theorem ended_step (y : Process W) (hd : y.dead = false) (e : Happening W) (i : Nat) (c : PConn W)
    (hc : y.conns[i]? = some c) (ht : EndedTask c.task) : (y.step sv allocOk e).conns[i]? = some c := by
  by_cases hcn : e.conn? = some i
  · cases e with
    | handshake k ok =>
      injection hcn with hcn; subst hcn
      have : c.task.handshakeStep ok = c.task := by cases hx : c.task <;> rw [hx] at ht <;> first | rfl | exact ht.elim
      simp only [Process.step, hd, hc, this, put_same _ hc]; simp [hc]
    | write k q =>
      injection hcn with hcn; subst hcn
      have : c.task.writeStep q = c.task := by cases hx : c.task <;> rw [hx] at ht <;> first | rfl | exact ht.elim
      simp only [Process.step, hd, hc, this, put_same _ hc]; simp [hc]
    | writeErr k =>
      injection hcn with hcn; subst hcn
      have : c.task.writeFail = c.task := by cases hx : c.task <;> rw [hx] at ht <;> first | rfl | exact ht.elim
      simp only [Process.step, hd, hc, this, put_same _ hc]; simp [hc]
    | poll k =>
      injection hcn with hcn; subst hcn
      cases hx : c.task <;> rw [hx] at ht <;> first | exact ht.elim | simp [Process.step, hd, hc, hx]
    | access k =>
      injection hcn with hcn; subst hcn
      cases hx : c.task <;> rw [hx] at ht <;> first | exact ht.elim | simp [Process.step, hd, hc, hx]
    | finish k =>
      injection hcn with hcn; subst hcn
      cases hx : c.task <;> rw [hx] at ht <;> first | exact ht.elim | simp [Process.step, hd, hc, hx]
    | _ => cases hcn
  · exact step_other _ _ _ _ hc hcn

theorem ended_remains (alive : ∀ n, (atTime sv allocOk y0 σ n).dead = false) {i n : Nat} {c : PConn W}
    (hc : (atTime sv allocOk y0 σ n).conns[i]? = some c) (ht : EndedTask c.task) :
    Remains sv allocOk y0 σ i (· = c.task) n := by
  intro m hm
  have : ∀ k, (atTime sv allocOk y0 σ (n + k)).conns[i]? = some c := by
    intro k
    induction k with
    | zero => exact hc
    | succ k ih =>
      rw [show n + (k + 1) = (n + k) + 1 by omega, atTime_succ]
      exact ended_step _ (alive _) _ _ _ ih ht
  exact ⟨c, by have := this (m - n); rwa [show n + (m - n) = m by omega] at this, rfl⟩

/-- how a task ends: if nothing of it fails, with an answer or a panic -/
def EndsWell (σ : Nat → Happening W) (i : Nat) (t : PTask W) : Prop :=
  EndedTask t ∧ ((∀ n, Unharmed i (σ n)) → (∃ out, t = .finished out) ∨ t = .panicked)

/-- A task that writes comes to its end. -/
theorem writing_live (alive : ∀ n, (atTime sv allocOk y0 σ n).dead = false) (i : Nat)
    (fair : FairTask sv allocOk y0 σ i) (free : FreeAgain sv allocOk y0 σ) (k : Nat) :
    ∀ (n : Nat) (c : PConn W) (sent rest : Bytes), (atTime sv allocOk y0 σ n).conns[i]? = some c →
      c.task = .writing sent rest → rest.length = k →
      ∃ m c', n ≤ m ∧ (atTime sv allocOk y0 σ m).conns[i]? = some c' ∧ EndsWell σ i c'.task := by
  induction k using Nat.strongRecOn with
  | _ k ih =>
    intro n c sent rest hc ht hk
    obtain ⟨m, h1, h2, h3, h4⟩ := leaves (fun m => (atTime sv allocOk y0 σ m).conns[i]?) (some c) n hc
      (fun m => (atTime sv allocOk y0 σ m).free = true ∧
        (σ m = .writeErr i ∨ ∃ q, (1 ≤ q ∨ rest = []) ∧ σ m = .write i q))
      (fun hall => by
        obtain ⟨m, a, b, e⟩ := fair.write free n (fun m hm => ⟨c, hall m hm, sent, rest, ht⟩)
        refine ⟨m, a, b, ?_⟩
        rcases e with e | ⟨q, hq, e⟩
        · exact .inl e
        · exact .inr ⟨q, .inl hq, e⟩)
      (by
        intro m _ hm hg
        rw [atTime_succ]
        by_cases hcn : (σ m).conn? = some i
        · by_cases hf : (atTime sv allocOk y0 σ m).free = true
          · cases he : σ m with
            | access k =>
              rw [he] at hcn; injection hcn with hcn; subst hcn
              simp [Process.step, alive m, hm, ht]
            | finish k =>
              rw [he] at hcn; injection hcn with hcn; subst hcn
              simp [Process.step, alive m, hm, ht]
            | handshake k ok =>
              rw [he] at hcn; injection hcn with hcn; subst hcn
              simp only [Process.step, alive m, hm, ht, PTask.handshakeStep]
              rw [← ht, put_same _ hm]; simp [hm]
            | poll k =>
              rw [he] at hcn; injection hcn with hcn; subst hcn
              simp [Process.step, alive m, hm, ht]
            | write k q =>
              rw [he] at hcn; injection hcn with hcn; subst hcn
              by_cases hq : 1 ≤ q ∨ rest = []
              · exact absurd ⟨hf, .inr ⟨q, hq, he⟩⟩ hg
              · have h0 : q = 0 := by omega
                have hne : ¬ rest.length ≤ 0 := by
                  intro h; exact hq (.inr (List.length_eq_zero_iff.1 (by omega)))
                subst h0
                simp only [Process.step, alive m, hm, ht, PTask.writeStep, if_neg hne, List.take_zero, List.append_nil,
                  List.drop_zero]
                rw [← ht, put_same _ hm]; simp [hm]
            | writeErr k =>
              rw [he] at hcn; injection hcn with hcn; subst hcn
              exact absurd ⟨hf, .inl he⟩ hg
            | _ => rw [he] at hcn; cases hcn
          · have hf : (atTime sv allocOk y0 σ m).free = false := by simpa using hf
            cases he : σ m with
            | access k =>
              rw [he] at hcn; injection hcn with hcn; subst hcn
              simp [Process.step, alive m, hm, ht]
            | finish k =>
              rw [he] at hcn; injection hcn with hcn; subst hcn
              simp [Process.step, alive m, hm, ht]
            | handshake k ok =>
              rw [he] at hcn; injection hcn with hcn; subst hcn
              simp [Process.step, alive m, hm, ht, hf]
            | poll k =>
              rw [he] at hcn; injection hcn with hcn; subst hcn
              simp [Process.step, alive m, hm, ht]
            | write k q =>
              rw [he] at hcn; injection hcn with hcn; subst hcn
              simp [Process.step, alive m, hm, ht, hf]
            | writeErr k =>
              rw [he] at hcn; injection hcn with hcn; subst hcn
              simp [Process.step, alive m, hm, ht, hf]
            | _ => rw [he] at hcn; cases hcn
        · exact step_other _ _ _ _ hm hcn)
    rcases h4 with h4 | ⟨q, hq, h4⟩
    · refine ⟨m + 1, { c with task := .broken sent }, by omega, ?_, trivial, fun hu => absurd h4 (hu m).1⟩
      rw [atTime_succ, h4]
      simp only [Process.step, alive m, h2, h3, ht, PTask.writeFail]
      exact Process.put_get h2 _ _ _
    · by_cases hlen : rest.length ≤ q
      · refine ⟨m + 1, { c with task := .finished (sent ++ rest) }, by omega, ?_, trivial, fun _ => .inl ⟨_, rfl⟩⟩
        rw [atTime_succ, h4]
        simp only [Process.step, alive m, h2, h3, ht, PTask.writeStep, if_pos hlen]
        exact Process.put_get h2 _ _ _
      · have hq1 : 1 ≤ q := by
          rcases hq with hq | hq
          · exact hq
          · rw [hq] at hlen; simp at hlen
        obtain ⟨m', c', g1, g2, g3⟩ := ih (rest.drop q).length (by rw [List.length_drop]; omega) (m + 1)
          { c with task := .writing (sent ++ rest.take q) (rest.drop q) } (sent ++ rest.take q) (rest.drop q)
          (by
            rw [atTime_succ, h4]
            simp only [Process.step, alive m, h2, h3, ht, PTask.writeStep, if_neg hlen]
            exact Process.put_get h2 _ _ _) rfl rfl
        exact ⟨m', c', by omega, g2, g3⟩

/-- A task that reads, whose client does not keep it waiting, comes to the end of the request. -/
theorem reading_live (alive : ∀ n, (atTime sv allocOk y0 σ n).dead = false) (i : Nat)
    (fair : FairTask sv allocOk y0 σ i) (free : FreeAgain sv allocOk y0 σ) (k : Nat) :
    ∀ (n : Nat) (c : PConn W) (r : Reading), (atTime sv allocOk y0 σ n).conns[i]? = some c →
      c.task = .reading r → r.Ok → c.sock.bytes.length = k → readRest sv.feat allocOk c.sock r ≠ .pending →
      ∃ m c', n ≤ m ∧ (atTime sv allocOk y0 σ m).conns[i]? = some c' ∧
        ((∃ req, c'.task = .handling req []) ∨ (∃ out, c'.task = .writing [] out) ∨ c'.task = .panicked) := by
  induction k using Nat.strongRecOn with
  | _ k ih =>
    intro n c r hc ht hok hk hp
    obtain ⟨m, h1, h2, h3, h4⟩ := leaves (fun m => (atTime sv allocOk y0 σ m).conns[i]?) (some c) n hc
      (fun m => (atTime sv allocOk y0 σ m).free = true ∧ σ m = .poll i)
      (fun hall => fair.read free n (fun m hm => ⟨c, hall m hm, r, ht⟩))
      (by
        intro m _ hm hg
        rw [atTime_succ]
        by_cases hcn : (σ m).conn? = some i
        · cases he : σ m with
          | access k =>
            rw [he] at hcn; injection hcn with hcn; subst hcn
            simp [Process.step, alive m, hm, ht]
          | finish k =>
            rw [he] at hcn; injection hcn with hcn; subst hcn
            simp [Process.step, alive m, hm, ht]
          | handshake k ok =>
            rw [he] at hcn; injection hcn with hcn; subst hcn
            simp only [Process.step, alive m, hm, ht, PTask.handshakeStep]
            rw [← ht, put_same _ hm]; simp [hm]
          | poll k =>
            rw [he] at hcn hg; injection hcn with hcn; subst hcn
            have hf : (atTime sv allocOk y0 σ m).free = false := by
              cases hf : (atTime sv allocOk y0 σ m).free with
              | false => rfl
              | true => exact absurd ⟨hf, rfl⟩ hg
            simp [Process.step, alive m, hm, ht, hf]
          | write k q =>
            rw [he] at hcn; injection hcn with hcn; subst hcn
            simp only [Process.step, alive m, hm, ht, PTask.writeStep]
            rw [← ht, put_same _ hm]; simp [hm]
          | writeErr k =>
            rw [he] at hcn; injection hcn with hcn; subst hcn
            simp only [Process.step, alive m, hm, ht, PTask.writeFail]
            rw [← ht, put_same _ hm]; simp [hm]
          | _ => rw [he] at hcn; cases hcn
        · exact step_other _ _ _ _ hm hcn)
    have hspec := turn_spec sv.feat allocOk r c.sock hok
    have hal := alive (m + 1)
    rw [atTime_succ, h4] at hal
    have hgo : ∀ {t : PTask W} {s' : Sock},
        (atTime sv allocOk y0 σ m).step sv allocOk (.poll i) =
          (atTime sv allocOk y0 σ m).put (atTime sv allocOk y0 σ m).world i c t s' →
        (atTime sv allocOk y0 σ (m + 1)).conns[i]? = some { c with task := t, sock := s' } := by
      intro t s' h
      rw [atTime_succ, h4, h]
      exact Process.put_get h2 _ _ _
    cases hturn : r.turn sv.feat allocOk c.sock with
    | waits r' s' =>
      rw [hturn] at hspec
      obtain ⟨hok', heq, hlt⟩ := hspec
      have hlt : s'.bytes.length < c.sock.bytes.length := by
        rcases hlt with h | ⟨-, -, h⟩
        · exact h
        · exact absurd h hp
      obtain ⟨m', c', g1, g2, g3⟩ := ih s'.bytes.length (by omega) (m + 1) { c with task := .reading r', sock := s' } r'
        (hgo (by simp [Process.step, alive m, h2, ht, h3, hturn])) rfl hok' rfl (by simp only [heq]; exact hp)
      exact ⟨m', c', by omega, g2, g3⟩
    | request req s' =>
      exact ⟨m + 1, _, by omega, hgo (by simp only [Process.step, alive m, h2, ht, h3, hturn]; rfl), .inl ⟨req, rfl⟩⟩
    | bad s' =>
      refine ⟨m + 1, _, by omega, hgo (by simp only [Process.step, alive m, h2, ht, h3, hturn]; rfl), .inr ?_⟩
      simp only
      cases sv.write (atTime sv allocOk y0 σ m).world (.page .badRequest) with
      | ok out => exact .inl ⟨out, rfl⟩
      | panic => exact .inr rfl
    | panicked s' =>
      exact ⟨m + 1, _, by omega, hgo (by simp only [Process.step, alive m, h2, ht, h3, hturn]; rfl), .inr (.inr rfl)⟩
    | abort =>
      simp [Process.step, alive m, h2, ht, h3, hturn] at hal

/-- A handshake ends. -/
theorem handshake_live (alive : ∀ n, (atTime sv allocOk y0 σ n).dead = false) (i : Nat)
    (fair : FairTask sv allocOk y0 σ i) (free : FreeAgain sv allocOk y0 σ) (n : Nat) (c : PConn W)
    (hc : (atTime sv allocOk y0 σ n).conns[i]? = some c) (ht : c.task = .handshake) :
    ∃ m, n ≤ m ∧ ∃ ok, σ m = .handshake i ok ∧
      (atTime sv allocOk y0 σ (m + 1)).conns[i]? = some { c with task := if ok then .reading (.head []) else .refused } := by
  obtain ⟨m, h1, h2, h3, ok, h4⟩ := leaves (fun m => (atTime sv allocOk y0 σ m).conns[i]?) (some c) n hc
    (fun m => (atTime sv allocOk y0 σ m).free = true ∧ ∃ ok, σ m = .handshake i ok)
    (fun hall => fair.handshake free n (fun m hm => ⟨c, hall m hm, ht⟩))
    (by
      intro m _ hm hg
      rw [atTime_succ]
      by_cases hcn : (σ m).conn? = some i
      · cases he : σ m with
        | access k =>
          rw [he] at hcn; injection hcn with hcn; subst hcn
          simp [Process.step, alive m, hm, ht]
        | finish k =>
          rw [he] at hcn; injection hcn with hcn; subst hcn
          simp [Process.step, alive m, hm, ht]
        | handshake k ok =>
          rw [he] at hcn hg; injection hcn with hcn; subst hcn
          have hf : (atTime sv allocOk y0 σ m).free = false := by
            cases hf : (atTime sv allocOk y0 σ m).free with
            | false => rfl
            | true => exact absurd ⟨hf, ok, rfl⟩ hg
          simp [Process.step, alive m, hm, ht, hf]
        | poll k =>
          rw [he] at hcn; injection hcn with hcn; subst hcn
          simp [Process.step, alive m, hm, ht]
        | write k q =>
          rw [he] at hcn; injection hcn with hcn; subst hcn
          simp only [Process.step, alive m, hm, ht, PTask.writeStep]
          rw [← ht, put_same _ hm]; simp [hm]
        | writeErr k =>
          rw [he] at hcn; injection hcn with hcn; subst hcn
          simp only [Process.step, alive m, hm, ht, PTask.writeFail]
          rw [← ht, put_same _ hm]; simp [hm]
        | _ => rw [he] at hcn; cases hcn
      · exact step_other _ _ _ _ hm hcn)
  refine ⟨m, h1, ok, h4, ?_⟩
  rw [atTime_succ, h4]
  simp only [Process.step, alive m, h2, h3, ht, PTask.handshakeStep]
  exact Process.put_get h2 _ _ _

end

/-- as many places as there are indices with the property -/
theorem countP_le_of_subset {α : Type u} (P : α → Bool) (l : List α) :
    ∀ B : List Nat, (∀ (j : Nat) (a : α), l[j]? = some a → P a = true → j ∈ B) → l.countP P ≤ B.length := by
  induction l with
  | nil => intro B _; simp
  | cons x l ih =>
    intro B h
    have h' := ih ((B.filter (· ≠ 0)).map Nat.pred) (by
      intro j a hj ha
      have := h (j + 1) a (by simpa using hj) ha
      exact List.mem_map.2 ⟨j + 1, List.mem_filter.2 ⟨this, by simp⟩, rfl⟩)
    rw [List.length_map] at h'
    rw [List.countP_cons]
    by_cases hx : P x = true
    · rw [if_pos hx]
      have h0 : 0 ∈ B := h 0 x (by simp) hx
      have : (B.filter (· ≠ 0)).length < B.length := List.length_filter_lt_length_iff_exists.2 ⟨0, h0, by simp⟩
      omega
    · rw [if_neg hx]
      have := List.length_filter_le (fun n : Nat => decide (n ≠ 0)) B
      omega

theorem step_workers (y : Process W) (e : Happening W) : (y.step sv allocOk e).workers = y.workers := by
  unfold Process.step
  split
  · rfl
  · cases e with
    | connect tls s => simp only; split <;> rfl
    | acceptErr tls => simp only; split <;> (try split) <;> rfl
    | env f => rfl
    | exit => simp only; split <;> rfl
    | handshake k ok => simp only; split <;> (try split) <;> rfl
    | poll k => simp only; split <;> (try split) <;> (try split) <;> (try split) <;> rfl
    | access k => simp only; split <;> (try split) <;> (try split) <;> rfl
    | finish k => simp only; split <;> (try split) <;> (try split) <;> rfl
    | write k n => simp only; split <;> (try split) <;> rfl
    | writeErr k => simp only; split <;> (try split) <;> rfl

theorem atTime_workers (y0 : Process W) (σ : Nat → Happening W) (n : Nat) :
    (atTime sv allocOk y0 σ n).workers = y0.workers := by
  induction n with
  | zero => rfl
  | succ n ih => rw [atTime_succ, step_workers, ih]

theorem taken_prefix {a b : List (Happening W)} (h : a <+: b) (plainOn tlsOn : Bool) :
    taken plainOn tlsOn a <+: taken plainOn tlsOn b := by
  obtain ⟨c, rfl⟩ := h
  induction a generalizing plainOn tlsOn with
  | nil => exact List.nil_prefix
  | cons e a ih =>
    cases e with
    | connect tls s =>
      simp only [List.cons_append, taken]
      cases tls <;> cases plainOn <;> cases tlsOn <;>
        simp only [if_true, if_false, Bool.false_eq_true] <;>
        first | exact List.cons_prefix_cons.2 ⟨rfl, ih _ _⟩ | exact ih _ _
    | acceptErr tls =>
      simp only [List.cons_append, taken]
      split <;> exact ih _ _
    | _ => simp only [List.cons_append, taken]; exact ih _ _

/-- a connection breaks only when a write fails -/
theorem broken_step (y : Process W) (e : Happening W) (i : Nat) (c' : PConn W) (out : Bytes)
    (h : (y.step sv allocOk e).conns[i]? = some c') (ht : c'.task = .broken out) :
    e = .writeErr i ∨ ∃ c, y.conns[i]? = some c ∧ c.task = .broken out := by
  by_cases he : e = .writeErr i
  · exact .inl he
  cases hold : y.conns[i]? with
  | none =>
    obtain ⟨s, -, h2⟩ := conn_new y e i c' hold h
    rw [h2] at ht
    cases hx : c'.tls <;> simp [hx] at ht
  | some c =>
    by_cases hsame : (y.step sv allocOk e).conns[i]? = some c
    · rw [hsame] at h
      injection h with h
      subst h
      exact .inr ⟨c, rfl, ht⟩
    · by_cases hcn : e.conn? = some i
      · have hput : ∀ {w : W} {t : PTask W} {s : Sock}, (y.put w i c t s).conns[i]? = some c' → t = .broken out := by
          intro w t s h
          rw [Process.put_get hold] at h
          injection h with h
          subst h
          exact ht
        have hresp : ∀ r : Res Bytes, PTask.respond (W := W) r ≠ .broken out := by
          intro r; cases r <;> simp [PTask.respond]
        cases hd : y.dead with
        | true => exact absurd (by simp [Process.step, hd, hold]) hsame
        | false =>
          right
          refine absurd ?_ (fun hf : False => hf)
          cases e with
          | handshake k ok =>
            injection hcn with hcn; subst hcn
            simp only [Process.step, hd, hold, Bool.false_eq_true, if_false] at h hsame
            split at h
            · have := hput h
              cases hx : c.task <;> rw [hx] at this <;> first | cases this | skip
              · cases ok <;> cases this
              · rename_i hf
                rw [if_pos hf, hx] at hsame
                simp only [PTask.handshakeStep] at hsame
                exact hsame (by rw [← hx, put_same _ hold]; exact hold)
            · rename_i hf
              rw [if_neg hf] at hsame
              exact hsame hold
          | poll k =>
            injection hcn with hcn; subst hcn
            simp only [Process.step, hd, hold, Bool.false_eq_true, if_false] at h hsame
            cases hx : c.task <;> simp only [hx] at h hsame <;> try exact hsame hold
            split at h
            · split at h
              · cases hput h
              · cases hput h
              · exact hresp _ (hput h)
              · cases hput h
              · simp_all
            · simp_all
          | access k =>
            injection hcn with hcn; subst hcn
            simp only [Process.step, hd, hold, Bool.false_eq_true, if_false] at h hsame
            cases hx : c.task <;> simp only [hx] at h hsame <;> try exact hsame hold
            split at h
            · cases hput h
            · simp_all
          | finish k =>
            injection hcn with hcn; subst hcn
            simp only [Process.step, hd, hold, Bool.false_eq_true, if_false] at h hsame
            cases hx : c.task <;> simp only [hx] at h hsame <;> try exact hsame hold
            split at h
            · exact hresp _ (hput h)
            · cases hput h
            · simp_all
          | write k n =>
            injection hcn with hcn; subst hcn
            simp only [Process.step, hd, hold, Bool.false_eq_true, if_false] at h hsame
            split at h
            · have := hput h
              cases hx : c.task <;> rw [hx] at this <;> first | cases this | skip
              · simp only [PTask.writeStep] at this
                split at this <;> cases this
              · rename_i hf
                rw [if_pos hf, hx] at hsame
                simp only [PTask.writeStep] at hsame
                exact hsame (by rw [← hx, put_same _ hold]; exact hold)
            · rename_i hf
              rw [if_neg hf] at hsame
              exact hsame hold
          | writeErr k => injection hcn with hcn; subst hcn; exact he rfl
          | _ => cases hcn
      · exact absurd (step_other _ _ _ _ hold hcn) hsame

theorem never_broken {y0 : Process W} {σ : Nat → Happening W} (h0 : y0.conns = []) {i : Nat}
    (hu : ∀ n, Unharmed i (σ n)) (n : Nat) (c : PConn W) (hc : (atTime sv allocOk y0 σ n).conns[i]? = some c)
    (out : Bytes) : c.task ≠ .broken out := by
  induction n generalizing c with
  | zero => have : (atTime sv allocOk y0 σ 0).conns = [] := h0
            rw [this] at hc; cases hc
  | succ n ih =>
    intro ht
    rw [atTime_succ] at hc
    rcases broken_step _ _ _ _ _ hc ht with h | ⟨c0, h1, h2⟩
    · exact (hu n).1 h
    · exact ih c0 h1 h2

theorem never_refused {y0 : Process W} {σ : Nat → Happening W} (h0 : y0.conns = []) {i : Nat}
    (hu : ∀ n, Unharmed i (σ n)) (n : Nat) (c : PConn W) (hc : (atTime sv allocOk y0 σ n).conns[i]? = some c) :
    c.task ≠ .refused := by
  induction n generalizing c with
  | zero => have : (atTime sv allocOk y0 σ 0).conns = [] := h0
            rw [this] at hc; cases hc
  | succ n ih =>
    intro ht
    rw [atTime_succ] at hc
    cases hold : (atTime sv allocOk y0 σ n).conns[i]? with
    | none =>
      obtain ⟨s, -, h2⟩ := conn_new _ _ i c hold hc
      rw [h2] at ht
      cases hx : c.tls <;> simp [hx] at ht
    | some x =>
      rcases conn_step (sv := sv) (allocOk := allocOk) _ (σ n) i x hold with h | ⟨ok, he, -, h⟩ | ⟨t, s', h, -, -, -, h4⟩
      · rw [h] at hc
        injection hc with hc
        subst hc
        exact ih x hold ht
      · rw [h] at hc
        injection hc with hc
        subst hc
        cases ok with
        | true => simp at ht
        | false => exact (hu n).2 he
      · rw [h] at hc
        injection hc with hc
        subst hc
        exact h4 ht

/-- Where every allocation succeeds no completed read ends the process. -/
theorem turn_no_abort (feat : Features) {allocOk : Nat → Bool} (h : ∀ k, allocOk k = true) (r : Reading) (s : Sock) :
    r.turn feat allocOk s ≠ .abort := by
  have hb : ∀ hs l b s, Reading.withBody feat hs l b s ≠ .abort := by
    intro hs l b s
    unfold Reading.withBody
    split <;> exact fun e => by cases e
  have hh : ∀ a b rem s, Reading.withHead feat allocOk a b rem s ≠ .abort := by
    intro a b rem s
    unfold Reading.withHead
    simp only [h, Bool.not_true, Bool.false_eq_true, if_false]
    repeat' split
    all_goals first | exact hb _ _ _ _ | exact fun e => by cases e
  unfold Reading.turn
  simp only [h, Bool.not_true, Bool.false_eq_true, if_false]
  repeat' split
  all_goals first | exact hb _ _ _ _ | exact hh _ _ _ _ | exact fun e => by cases e

/-- Where every allocation succeeds only the end of `listen` ends the process. -/
theorem alive_step {allocOk : Nat → Bool} (h : ∀ k, allocOk k = true) (y : Process W) (e : Happening W) (hy : y.dead = false)
    (he : e ≠ .exit) : (y.step sv allocOk e).dead = false := by
  have hput : ∀ (k : Nat) (x : PConn W) (w : W) (t : PTask W) (s : Sock), (y.put w k x t s).dead = false :=
    fun _ _ _ _ _ => hy
  unfold Process.step
  rw [hy]
  simp only [Bool.false_eq_true, if_false]
  cases e with
  | exit => exact absurd rfl he
  | poll i =>
    simp only
    split
    · split
      · split
        · split
          all_goals first | exact hput _ _ _ _ _ | (rename_i ha; exact absurd ha (turn_no_abort _ h _ _))
        · exact hy
      · exact hy
    · exact hy
  | env f => rfl
  | connect tls s => simp only; split <;> first | rfl | exact hy
  | acceptErr tls => simp only; split <;> (try split) <;> first | rfl | exact hy
  | handshake i ok => simp only; repeat' split
                      all_goals first | exact hput _ _ _ _ _ | exact hy
  | access i => simp only; repeat' split
                all_goals first | exact hput _ _ _ _ _ | exact hy
  | finish i => simp only; repeat' split
                all_goals first | exact hput _ _ _ _ _ | exact hy
  | write i n => simp only; repeat' split
                 all_goals first | exact hput _ _ _ _ _ | exact hy
  | writeErr i => simp only; repeat' split
                  all_goals first | exact hput _ _ _ _ _ | exact hy

end Octane
