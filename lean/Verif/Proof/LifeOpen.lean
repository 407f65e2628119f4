import Verif.Proof.LifeLive
import Verif.Props.Startup
/-
How the two listeners of an application come to be open.
-/
namespace Octane
open Spec
universe u
variable {W : Type u}

namespace Life
variable {cfg : BootCfg} {sv : PServer W} {allocOk : Nat → Bool}

/-- how many steps the caller's task is away from its accept loop -/
def callRank : SysCall → Nat
  | .socket => 6 | .nonblocking => 5 | .bind => 4 | .listen => 3 | .reuse => 2 | .fromStd => 1

def mainRank : MainAt → Nat
  | .begin => 8 | .callback => 7 | .opening c => callRank c | _ => 0

/-- the same for the TLS task, when it has been spawned -/
def tlsRank : TlsAt → Nat
  | .off => 8 | .opening c => callRank c + 1 | .acceptor => 1 | _ => 0

/-- nothing has gone wrong for the caller's task -/
structure Fine (y : Life W) : Prop where
  alive : y.proc.dead = false
  plain : y.proc.plain ≠ .ended
  failed : y.boot.main ≠ .failed
  panicked : y.boot.main ≠ .panicked

theorem clash_of (hp : PortsDiffer cfg) (ht : cfg.tls = true) : Boot.clash cfg = false := by
  have := hp ht
  unfold Boot.clash
  by_cases hx : cfg.port = cfg.sslPort
  · simp [this hx]
  · simp [hx]

theorem main_succeeds (hp : PortsDiffer cfg) {y : Life W} (hf : Fits cfg y) (hh : Holds cfg y) (c : SysCall) :
    Boot.succeeds cfg y.boot.tlsHas c true = true := by
  cases ht : cfg.tls with
  | true => simp [Boot.succeeds, clash_of hp ht]
  | false =>
    have h1 := hf.noTls ht
    have h2 : y.proc.tls = .off := hf.tls.2 (by rw [h1]; rintro (h | h | h) <;> cases h)
    have h3 : y.boot.tlsHas = false := by
      cases hx : y.boot.tlsHas with
      | false => rfl
      | true => have := hh.tls.1 hx; rw [h1, h2] at this; simp at this
    simp [Boot.succeeds, h3]

theorem main_tls (b : Boot) (ok : Bool) : (b.step cfg (.tls ok)).main = b.main := by
  simp only [Boot.step, Boot.stepTls]
  repeat' split
  all_goals rfl

theorem rank_next (c c' : SysCall) (h : c.next = some c') : callRank c' + 1 = callRank c := by
  cases c <;> cases h <;> rfl

theorem rank_last (c : SysCall) (h : c.next = none) : callRank c = 1 := by
  cases c <;> first | rfl | cases h

/-- A step of the caller's task brings it nearer to its accept loop. -/
theorem main_step (hp : PortsDiffer cfg) {y : Life W} (hf : Fits cfg y) (hh : Holds cfg y) (hy : Fine y) :
    (y.boot.step cfg (.main true)).main ≠ .failed ∧ (y.boot.step cfg (.main true)).main ≠ .panicked ∧
    mainRank (y.boot.step cfg (.main true)).main = mainRank y.boot.main - 1 := by
  have hs := main_succeeds hp hf hh
  simp only [Boot.step, Boot.stepMain]
  cases hm : y.boot.main with
  | opening c =>
    simp only [hs, if_true]
    cases hn : c.next with
    | none => simp [mainRank, rank_last c hn]
    | some c' => simp [mainRank, ← rank_next c c' hn]
  | failed => exact absurd hm hy.failed
  | panicked => exact absurd hm hy.panicked
  | _ => simp [mainRank, callRank, hm]

/-- One event, when none of the calls of the caller's task fails. -/
theorem fine_step (hp : PortsDiffer cfg) (halloc : ∀ k, allocOk k = true) {y : Life W} (hf : Fits cfg y)
    (hh : Holds cfg y) (hy : Fine y) (e : LifeEvent W) (h1 : e ≠ .boot (.main false))
    (h2 : e ≠ .happens (.acceptErr false)) :
    Fine (y.step cfg sv allocOk e) ∧
    mainRank (y.step cfg sv allocOk e).boot.main ≤ mainRank y.boot.main ∧
    (e = .boot (.main true) → mainRank (y.step cfg sv allocOk e).boot.main = mainRank y.boot.main - 1) := by
  have hf' := fits_step (sv := sv) (allocOk := allocOk) hf e
  have hplain : ∀ z : Life W, Fits cfg z → z.boot.main ≠ .failed → z.boot.main ≠ .panicked →
      z.boot.main ≠ .accepting → z.proc.plain ≠ .ended := by
    intro z hz a b c h
    have := hz.plain.2 (by rintro (h | h | h) <;> contradiction)
    rw [h] at this; cases this
  cases e with
  | boot e =>
    have hb : (y.step cfg sv allocOk (.boot e)).boot = y.boot.step cfg e := by simp [step, hy.alive]
    have hd : (y.step cfg sv allocOk (.boot e)).proc.dead = false := by simp [step, hy.alive]
    have hpl : (y.step cfg sv allocOk (.boot e)).proc.plain =
        plainAfter y.boot.main (y.boot.step cfg e).main y.proc.plain := by simp [step, hy.alive]
    have hpl' : (y.boot.step cfg e).main ≠ .failed → (y.boot.step cfg e).main ≠ .panicked →
        plainAfter y.boot.main (y.boot.step cfg e).main y.proc.plain ≠ .ended := by
      intro a b
      unfold plainAfter
      split
      · exact hy.plain
      · split <;> first | contradiction | exact hy.plain | (simp; done)
    cases e with
    | main ok =>
      cases ok with
      | false => exact absurd rfl h1
      | true =>
        obtain ⟨a, b, c⟩ := main_step hp hf hh hy
        refine ⟨⟨hd, by rw [hpl]; exact hpl' a b, by rw [hb]; exact a, by rw [hb]; exact b⟩, ?_⟩
        rw [hb, c]; exact ⟨by omega, fun _ => rfl⟩
    | tls ok =>
      have hm := main_tls (cfg := cfg) y.boot ok
      refine ⟨⟨hd, ?_, by rw [hb, hm]; exact hy.failed, by rw [hb, hm]; exact hy.panicked⟩, ?_⟩
      · rw [hpl]; exact hpl' (by rw [hm]; exact hy.failed) (by rw [hm]; exact hy.panicked)
      · rw [hb, hm]; exact ⟨Nat.le_refl _, by simp⟩
  | happens e =>
    have hb : (y.step cfg sv allocOk (.happens e)).boot.main = y.boot.main := by simp [step, hy.alive, release]
    have hq : (y.step cfg sv allocOk (.happens e)).proc = y.proc.step sv allocOk e := by simp [step, hy.alive]
    refine ⟨⟨?_, ?_, by rw [hb]; exact hy.failed, by rw [hb]; exact hy.panicked⟩, by rw [hb]; exact ⟨Nat.le_refl _, by simp⟩⟩
    · rw [hq]
      by_cases he : e = .exit
      · subst he
        simp only [Process.step, hy.alive, Bool.false_eq_true, if_false, if_neg hy.plain]
      · exact alive_step halloc _ _ hy.alive he
    · rw [hq]
      by_cases he : ∃ tls, e = .acceptErr tls
      · obtain ⟨tls, rfl⟩ := he
        cases tls with
        | false => exact absurd rfl h2
        | true =>
          have : (y.proc.step sv allocOk (.acceptErr true)).plain = y.proc.plain := by
            simp only [Process.step]
            repeat' split
            all_goals simp_all
          rw [this]; exact hy.plain
      · rw [(Process.step_listeners (sv := sv) (allocOk := allocOk) y.proc e fun t h => he ⟨t, h⟩).1]
        exact hy.plain

theorem fine_at (hp : PortsDiffer cfg) (halloc : ∀ k, allocOk k = true) (w0 : W) (workers : Nat)
    (σ : Nat → LifeEvent W) (h1 : ∀ n, σ n ≠ .boot (.main false)) (h2 : ∀ n, σ n ≠ .happens (.acceptErr false)) (n : Nat) :
    Fine (lifeAt cfg sv allocOk (start w0 workers) σ n) := by
  induction n with
  | zero => exact ⟨rfl, by simp [lifeAt, start, run], by simp [lifeAt, start, run, Boot.init], by simp [lifeAt, start, run, Boot.init]⟩
  | succ n ih =>
    rw [lifeAt_succ]
    exact (fine_step hp halloc (fits_at w0 workers σ n) (holds_run (fits_start w0 workers) (holds_start w0 workers) _) ih _
      (h1 n) (h2 n)).1

/-- What never grows and falls again and again until it is 0 becomes 0. -/
theorem sinks (r : Nat → Nat) (hle : ∀ n, r (n + 1) ≤ r n) (hlt : ∀ n, r n ≠ 0 → ∃ m, n ≤ m ∧ r (m + 1) < r m) :
    ∃ n, ∀ m, n ≤ m → r m = 0 := by
  have mono : ∀ n k, r (n + k) ≤ r n := by
    intro n k
    induction k with
    | zero => exact Nat.le_refl _
    | succ k ih => exact Nat.le_trans (hle (n + k)) ih
  have go : ∀ b n, r n ≤ b → ∃ n, r n = 0 := by
    intro b
    induction b with
    | zero => intro n h; exact ⟨n, by omega⟩
    | succ b ih =>
      intro n h
      by_cases h0 : r n = 0
      · exact ⟨n, h0⟩
      · obtain ⟨m, hm, hr⟩ := hlt n h0
        have := mono n (m - n)
        rw [show n + (m - n) = m by omega] at this
        exact ih (m + 1) (by omega)
  obtain ⟨n, hn⟩ := go (r 0) 0 (Nat.le_refl _)
  refine ⟨n, fun m hm => ?_⟩
  have := mono n (m - n)
  rw [show n + (m - n) = m by omega] at this
  omega

/-- nothing has gone wrong for the TLS task -/
structure TlsFine (y : Life W) : Prop where
  tls : y.proc.tls ≠ .ended
  warned : y.boot.tls ≠ .warned
  panicked : y.boot.tls ≠ .panicked
  spawned : y.boot.main ≠ .begin → y.boot.tls ≠ .off

theorem tls_main (b : Boot) (ok : Bool) (h : b.main ≠ .begin) : (b.step cfg (.main ok)).tls = b.tls := by
  simp only [Boot.step, Boot.stepMain]
  repeat' split
  all_goals first | rfl | contradiction

theorem main_begin (b : Boot) (ok : Bool) : (b.step cfg (.main ok)).main ≠ .begin := by
  simp only [Boot.step, Boot.stepMain]
  repeat' split
  all_goals simp_all

/-- A step of the TLS task brings it nearer to its accept loop. -/
theorem tls_step (hc : Boot.clash cfg = false) (ha : cfg.acceptor = .ok true) (b : Boot) (hw : b.tls ≠ .warned)
    (hpn : b.tls ≠ .panicked) :
    (b.step cfg (.tls true)).tls ≠ .warned ∧ (b.step cfg (.tls true)).tls ≠ .panicked ∧
    (b.tls ≠ .off → (b.step cfg (.tls true)).tls ≠ .off ∧ tlsRank (b.step cfg (.tls true)).tls = tlsRank b.tls - 1) ∧
    (b.tls = .off → (b.step cfg (.tls true)).tls = .off) := by
  have hs : ∀ x c, Boot.succeeds cfg x c true = true := by intro x c; simp [Boot.succeeds, hc]
  simp only [Boot.step, Boot.stepTls]
  cases hm : b.tls with
  | opening c =>
    simp only [hs, if_true]
    cases hn : c.next with
    | none => simp [tlsRank, rank_last c hn]
    | some c' => simp [tlsRank, ← rank_next c c' hn]
  | warned => exact absurd hm hw
  | panicked => exact absurd hm hpn
  | _ => simp [tlsRank, hm, ha]

theorem tlsFine_step (hp : PortsDiffer cfg) (ht : cfg.tls = true) (ha : cfg.acceptor = .ok true) {y : Life W}
    (hf : Fits cfg y) (hd : y.proc.dead = false) (hy : TlsFine y) (e : LifeEvent W) (h1 : e ≠ .boot (.tls false))
    (h2 : e ≠ .happens (.acceptErr true)) :
    TlsFine (y.step cfg sv allocOk e) ∧
    tlsRank (y.step cfg sv allocOk e).boot.tls ≤ tlsRank y.boot.tls ∧
    (e = .boot (.tls true) → y.boot.main ≠ .begin → tlsRank y.boot.tls ≠ 0 →
      tlsRank (y.step cfg sv allocOk e).boot.tls < tlsRank y.boot.tls) := by
  cases e with
  | boot e =>
    have hb : (y.step cfg sv allocOk (.boot e)).boot = y.boot.step cfg e := by simp [step, hd]
    have hpl : (y.step cfg sv allocOk (.boot e)).proc.tls =
        tlsAfter y.boot.tls (y.boot.step cfg e).tls y.proc.tls := by simp [step, hd]
    have hpl' : (y.boot.step cfg e).tls ≠ .warned → (y.boot.step cfg e).tls ≠ .panicked →
        tlsAfter y.boot.tls (y.boot.step cfg e).tls y.proc.tls ≠ .ended := by
      intro a b
      unfold tlsAfter
      split
      · exact hy.tls
      · split <;> first | contradiction | exact hy.tls | (simp; done)
    cases e with
    | tls ok =>
      cases ok with
      | false => exact absurd rfl h1
      | true =>
        obtain ⟨a, b, c, d⟩ := tls_step (clash_of hp ht) ha y.boot hy.warned hy.panicked
        refine ⟨⟨by rw [hpl]; exact hpl' a b, by rw [hb]; exact a, by rw [hb]; exact b, ?_⟩, ?_, ?_⟩
        · rw [hb, main_tls]; intro hm; exact (c (hy.spawned hm)).1
        · rw [hb]
          by_cases ho : y.boot.tls = .off
          · rw [d ho, ho]; exact Nat.le_refl _
          · rw [(c ho).2]; omega
        · intro _ hm hr
          rw [hb, (c (hy.spawned hm)).2]; omega
    | main ok =>
      by_cases hm : y.boot.main = .begin
      · have ho := hf.begun hm
        have e1 : (y.boot.step cfg (.main ok)).tls = .opening .socket := by
          simp [Boot.step, Boot.stepMain, hm, ht]
        refine ⟨⟨?_, by rw [hb, e1]; simp, by rw [hb, e1]; simp, by rw [hb, e1]; simp⟩, ?_, by simp⟩
        · rw [hpl]; exact hpl' (by rw [e1]; simp) (by rw [e1]; simp)
        · rw [hb, e1, ho]; simp [tlsRank, callRank]
      · have e1 := tls_main (cfg := cfg) y.boot ok hm
        refine ⟨⟨?_, by rw [hb, e1]; exact hy.warned, by rw [hb, e1]; exact hy.panicked, ?_⟩, ?_, by simp⟩
        · rw [hpl]; exact hpl' (by rw [e1]; exact hy.warned) (by rw [e1]; exact hy.panicked)
        · rw [hb, e1]; intro _; exact hy.spawned hm
        · rw [hb, e1]; exact Nat.le_refl _
  | happens e =>
    have hb : (y.step cfg sv allocOk (.happens e)).boot.tls = y.boot.tls := by simp [step, hd, release]
    have hb' : (y.step cfg sv allocOk (.happens e)).boot.main = y.boot.main := by simp [step, hd, release]
    have hq : (y.step cfg sv allocOk (.happens e)).proc = y.proc.step sv allocOk e := by simp [step, hd]
    refine ⟨⟨?_, by rw [hb]; exact hy.warned, by rw [hb]; exact hy.panicked, by rw [hb, hb']; exact hy.spawned⟩,
      by rw [hb]; exact Nat.le_refl _, by simp⟩
    rw [hq]
    by_cases he : ∃ tls, e = .acceptErr tls
    · obtain ⟨tls, rfl⟩ := he
      cases tls with
      | true => exact absurd rfl h2
      | false =>
        have : (y.proc.step sv allocOk (.acceptErr false)).tls = y.proc.tls := by
          simp only [Process.step]
          repeat' split
          all_goals simp_all
        rw [this]; exact hy.tls
    · rw [(Process.step_listeners (sv := sv) (allocOk := allocOk) y.proc e fun t h => he ⟨t, h⟩).2]
      exact hy.tls

end Life

end Octane
