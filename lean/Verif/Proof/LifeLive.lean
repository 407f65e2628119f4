import Verif.Spec.LifeLive
import Verif.Proof.Life
import Verif.Proof.ProcessLive
/-
Infinite executions of a whole application, as infinite executions of the process.
-/
namespace Octane
open Spec
universe u
variable {W : Type u} {cfg : BootCfg} {sv : PServer W} {allocOk : Nat → Bool}

theorem lifeAt_succ (y : Life W) (σ : Nat → LifeEvent W) (n : Nat) :
    lifeAt cfg sv allocOk y σ (n + 1) = (lifeAt cfg sv allocOk y σ n).step cfg sv allocOk (σ n) := by
  simp [lifeAt, List.range_succ, Life.run_append, Life.run]

theorem lifeAt_add (y : Life W) (σ : Nat → LifeEvent W) (n k : Nat) :
    lifeAt cfg sv allocOk y σ (n + k) =
      (lifeAt cfg sv allocOk y σ n).run cfg sv allocOk (((List.range k).map (n + ·)).map σ) := by
  rw [lifeAt, List.range_add, List.map_append, Life.run_append]; rfl

namespace Life

theorem happened_append (y : Life W) (es es' : List (LifeEvent W)) :
    happened cfg sv allocOk y (es ++ es') =
      happened cfg sv allocOk y es ++ happened cfg sv allocOk (y.run cfg sv allocOk es) es' := by
  induction es generalizing y with
  | nil => rfl
  | cons e es ih =>
    cases e with
    | boot e => simp only [List.cons_append, happened, ih, run_cons]
    | happens e =>
      simp only [List.cons_append, happened, ih, run_cons]
      split <;> rfl

/-- What happens in the process: where nothing happens in it, nothing is changed. -/
def shadow (y : Life W) : LifeEvent W → Happening W
  | .boot _ => .env id
  | .happens e => if CanHappen y.proc e then e else .env id

/-- the same for a list of events -/
def shadows (cfg : BootCfg) (sv : PServer W) (allocOk : Nat → Bool) : Life W → List (LifeEvent W) → List (Happening W)
  | _, [] => []
  | y, e :: es => y.shadow e :: shadows cfg sv allocOk (y.step cfg sv allocOk e) es

theorem shadows_append (y : Life W) (es es' : List (LifeEvent W)) :
    shadows cfg sv allocOk y (es ++ es') =
      shadows cfg sv allocOk y es ++ shadows cfg sv allocOk (y.run cfg sv allocOk es) es' := by
  induction es generalizing y with
  | nil => rfl
  | cons e es ih => simp only [List.cons_append, shadows, ih, run_cons]

theorem taken_shadows (a b : Bool) (y : Life W) (es : List (LifeEvent W)) :
    taken a b (shadows cfg sv allocOk y es) = taken a b (happened cfg sv allocOk y es) := by
  induction es generalizing y a b with
  | nil => rfl
  | cons e es ih =>
    cases e with
    | boot e => simp only [shadows, shadow, happened, taken, ih]
    | happens e =>
      simp only [shadows, shadow, happened]
      split
      · cases e <;> simp only [taken, ih]
      · simp only [taken, ih]

theorem env_id (p : Process W) : p.step sv allocOk (.env id) = p := by
  unfold Process.step
  split <;> rfl

theorem ahead_shadow {p t : Bool} {y : Life W} (hf : Fits cfg y) (e : LifeEvent W)
    (h : Foresees p t (y.step cfg sv allocOk e).boot) :
    (ahead cfg p t y.proc).step sv allocOk (y.shadow e) = ahead cfg p t (y.step cfg sv allocOk e).proc := by
  cases e with
  | boot e => rw [shadow, env_id, ahead_boot hf e h]
  | happens e =>
    rw [shadow]
    split
    · rename_i hc; exact ahead_happens hf e hc
    · rename_i hc; rw [env_id, ahead_cannot (p := p) (t := t) e hc]

theorem fits_at (w0 : W) (workers : Nat) (σ : Nat → LifeEvent W) (n : Nat) :
    Fits cfg (lifeAt cfg sv allocOk (start w0 workers) σ n) := fits_run (fits_start w0 workers) _

/-- What the caller's task has come to, it stays at. -/
theorem main_at (w0 : W) (workers : Nat) (σ : Nat → LifeEvent W) (n k : Nat)
    (h : (lifeAt cfg sv allocOk (start w0 workers) σ n).boot.main = .accepting) :
    (lifeAt cfg sv allocOk (start w0 workers) σ (n + k)).boot.main = .accepting := by
  have := foresees_self (lifeAt cfg sv allocOk (start w0 workers) σ (n + k)).boot
  rw [lifeAt_add] at this
  have := (foresees_run_back _ (fits_at (sv := sv) (allocOk := allocOk) w0 workers σ n) this).main h
  rw [lifeAt_add]
  simpa using this

/-- What the TLS task has come to, it stays at. -/
theorem tls_at (w0 : W) (workers : Nat) (σ : Nat → LifeEvent W) (n k : Nat)
    (h : (lifeAt cfg sv allocOk (start w0 workers) σ n).boot.tls = .accepting) :
    (lifeAt cfg sv allocOk (start w0 workers) σ (n + k)).boot.tls = .accepting := by
  have := foresees_self (lifeAt cfg sv allocOk (start w0 workers) σ (n + k)).boot
  rw [lifeAt_add] at this
  have := (foresees_run_back _ (fits_at (sv := sv) (allocOk := allocOk) w0 workers σ n) this).tls h
  rw [lifeAt_add]
  simpa using this

/-- How the opening of the listeners ends can be foreseen. -/
theorem foreseen (w0 : W) (workers : Nat) (σ : Nat → LifeEvent W) :
    ∃ p t, ∀ n, Foresees p t (lifeAt cfg sv allocOk (start w0 workers) σ n).boot := by
  have key : ∀ f : Nat → Bool, (∀ n k, f n = true → f (n + k) = true) → ∃ p N, ∀ n, N ≤ n → f n = p := by
    intro f hf
    by_cases h : ∃ n, f n = true
    · obtain ⟨n, h⟩ := h
      refine ⟨true, n, fun m hm => ?_⟩
      have := hf n (m - n) h
      rwa [show n + (m - n) = m by omega] at this
    · refine ⟨false, 0, fun m _ => ?_⟩
      cases hx : f m with
      | false => rfl
      | true => exact absurd ⟨m, hx⟩ h
  obtain ⟨p, N, hp⟩ := key (fun n => (lifeAt cfg sv allocOk (start w0 workers) σ n).boot.main == .accepting)
    (fun n k h => by simp only [beq_iff_eq] at h ⊢; exact main_at w0 workers σ n k h)
  obtain ⟨t, M, ht⟩ := key (fun n => (lifeAt cfg sv allocOk (start w0 workers) σ n).boot.tls == .accepting)
    (fun n k h => by simp only [beq_iff_eq] at h ⊢; exact tls_at w0 workers σ n k h)
  refine ⟨p, t, fun n => ?_⟩
  have := foresees_self (lifeAt cfg sv allocOk (start w0 workers) σ (n + (N + M))).boot
  have h1 := hp (n + (N + M)) (by omega)
  have h2 := ht (n + (N + M)) (by omega)
  rw [h1, h2, lifeAt_add] at this
  exact foresees_run_back _ (fits_at (sv := sv) (allocOk := allocOk) w0 workers σ n) this

/-- the events of the process in an infinite execution -/
def shadowAt (cfg : BootCfg) (sv : PServer W) (allocOk : Nat → Bool) (y : Life W) (σ : Nat → LifeEvent W) (n : Nat) :
    Happening W := (lifeAt cfg sv allocOk y σ n).shadow (σ n)

theorem shadowAt_list (y : Life W) (σ : Nat → LifeEvent W) (n : Nat) :
    (List.range n).map (shadowAt cfg sv allocOk y σ) = shadows cfg sv allocOk y ((List.range n).map σ) := by
  induction n with
  | zero => rfl
  | succ n ih =>
    rw [List.range_succ, List.map_append, List.map_append, shadows_append, ih]
    rfl

theorem atTime_shadow {p t : Bool} (w0 : W) (workers : Nat) (σ : Nat → LifeEvent W)
    (hfor : ∀ n, Foresees p t (lifeAt cfg sv allocOk (start w0 workers) σ n).boot) (n : Nat) :
    atTime sv allocOk (Process.start w0 workers cfg.tls t p) (shadowAt cfg sv allocOk (start w0 workers) σ) n =
      ahead cfg p t (lifeAt cfg sv allocOk (start w0 workers) σ n).proc := by
  induction n with
  | zero => exact (ahead_start p t w0 workers).symm
  | succ n ih =>
    rw [atTime_succ, ih, lifeAt_succ]
    exact ahead_shadow (fits_at w0 workers σ n) _ (by rw [← lifeAt_succ]; exact hfor (n + 1))

theorem taken_shadow {p t : Bool} (w0 : W) (workers : Nat) (σ : Nat → LifeEvent W)
    (hfor : ∀ n, Foresees p t (lifeAt cfg sv allocOk (start w0 workers) σ n).boot) (n : Nat) :
    taken p (cfg.tls && t) ((List.range n).map (shadowAt cfg sv allocOk (start w0 workers) σ)) =
      clientsAt cfg sv allocOk (start w0 workers) σ n := by
  rw [shadowAt_list, taken_shadows, clientsAt,
    ← taken_happened (cfg := cfg) (sv := sv) (allocOk := allocOk) _ (fits_start w0 workers) (hfor n), ahead_start]
  congr 1
  · cases p <;> rfl
  · cases cfg.tls <;> cases t <;> rfl

end Life
end Octane
