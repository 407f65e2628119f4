import Verif.Spec.Life
import Verif.Proof.ProcessRun
import Verif.Proof.Handshake
/-
The whole life of an application and the process of `Model/Process.lean`.
-/
namespace Octane
open Spec
universe u
variable {W : Type u}

/-- The same process with other listeners. -/
def Process.withListeners (p : Process W) (a b : Listener) : Process W := { p with plain := a, tls := b }

/-- What does not concern the listeners does not depend on them. -/
theorem Process.step_withListeners (sv : PServer W) (allocOk : Nat → Bool) (p : Process W) (a b : Listener)
    (e : Happening W) (h1 : ∀ tls s, e ≠ .connect tls s) (h2 : ∀ tls, e ≠ .acceptErr tls) (h3 : e ≠ .exit) :
    (p.withListeners a b).step sv allocOk e = (p.step sv allocOk e).withListeners a b := by
  have hl := Process.step_listeners (sv := sv) (allocOk := allocOk) p e h2
  cases hd : p.dead with
  | true => simp [Process.step, Process.withListeners, hd]
  | false =>
    cases e with
    | connect tls s => exact absurd rfl (h1 _ _)
    | acceptErr tls => exact absurd rfl (h2 _)
    | exit => exact absurd rfl h3
    | env f => simp [Process.step, Process.withListeners, hd]
    | _ =>
      simp only [Process.step, Process.withListeners, hd, Process.free, Process.put, Bool.false_eq_true, if_false]
      repeat' split
      all_goals first | rfl | simp_all

namespace Life
variable (cfg : BootCfg) (sv : PServer W) (allocOk : Nat → Bool)

theorem run_nil (y : Life W) : y.run cfg sv allocOk [] = y := rfl

theorem run_cons (y : Life W) (e : LifeEvent W) (es : List (LifeEvent W)) :
    y.run cfg sv allocOk (e :: es) = (y.step cfg sv allocOk e).run cfg sv allocOk es := rfl

theorem run_append (y : Life W) (es es' : List (LifeEvent W)) :
    y.run cfg sv allocOk (es ++ es') = (y.run cfg sv allocOk es).run cfg sv allocOk es' := by
  simp [run, List.foldl_append]

/-- the caller's task is past the opening of its port, one way or the other -/
def MainOver (m : MainAt) : Prop := m = .accepting ∨ m = .failed ∨ m = .panicked

/-- the same of the TLS task -/
def TlsOver (t : TlsAt) : Prop := t = .accepting ∨ t = .warned ∨ t = .panicked

/-- How the start-up and the listeners belong together. -/
structure Fits (y : Life W) : Prop where
  plain : y.proc.plain = .off ↔ ¬ MainOver y.boot.main
  ended : y.boot.main = .failed ∨ y.boot.main = .panicked → y.proc.plain = .ended
  tls : y.proc.tls = .off ↔ ¬ TlsOver y.boot.tls
  tlsEnded : y.boot.tls = .warned ∨ y.boot.tls = .panicked → y.proc.tls = .ended
  noTls : cfg.tls = false → y.boot.tls = .off
  begun : y.boot.main = .begin → y.boot.tls = .off
  calls : y.boot.calls = if y.boot.main = .begin ∨ y.boot.main = .callback then 0 else 1
  acceptor : y.boot.tls = .accepting → cfg.acceptor = .ok true
  plainClients : ∀ c ∈ y.proc.conns, c.tls = false → y.boot.main = .accepting
  tlsClients : ∀ c ∈ y.proc.conns, c.tls = true → y.boot.tls = .accepting

variable {cfg sv allocOk}

theorem fits_start (w0 : W) (workers : Nat) : Fits cfg (start w0 workers) := by
  constructor <;> simp [start, Boot.init, MainOver, TlsOver]

/-- A listener stays as it is, or its accept loop ends. -/
theorem listener_step (p : Process W) (e : Happening W) :
    ((p.step sv allocOk e).plain = p.plain ∨ (p.plain = .listening ∧ (p.step sv allocOk e).plain = .ended)) ∧
    ((p.step sv allocOk e).tls = p.tls ∨ (p.tls = .listening ∧ (p.step sv allocOk e).tls = .ended)) := by
  by_cases he : ∃ tls, e = .acceptErr tls
  · obtain ⟨tls, rfl⟩ := he
    unfold Process.step Process.listener
    cases tls <;> simp <;> split <;> (try split) <;> simp_all
  · have := Process.step_listeners (sv := sv) (allocOk := allocOk) p e fun tls hx => he ⟨tls, hx⟩
    exact ⟨.inl this.1, .inl this.2⟩

/-- A connection was there before, or its listener is open. -/
theorem conn_from (p : Process W) (e : Happening W) (c : PConn W) (hc : c ∈ (p.step sv allocOk e).conns) :
    (∃ c0 ∈ p.conns, c0.tls = c.tls) ∨ p.listener c.tls = .listening := by
  obtain ⟨k, hk⟩ := List.getElem?_of_mem hc
  cases hold : p.conns[k]? with
  | none =>
    obtain ⟨s, rfl, h2⟩ := conn_new p e k c hold hk
    by_cases hl : p.listener c.tls = .listening
    · exact .inr hl
    · have : p.step sv allocOk (.connect c.tls s) = p := by
        simp only [Process.step, if_neg hl]
        split <;> rfl
      rw [this, hold] at hk
      cases hk
  | some c0 =>
    refine .inl ⟨c0, List.mem_of_getElem? hold, ?_⟩
    rcases conn_step (sv := sv) (allocOk := allocOk) p e k c0 hold with h | ⟨ok, -, -, h⟩ | ⟨t, s', h, -⟩ <;>
      rw [h] at hk <;> injection hk with hk <;> subst hk <;> rfl

theorem fits_boot {y : Life W} (h : Fits cfg y) (e : BootEvent) :
    Fits cfg (y.step cfg sv allocOk (.boot e)) := by
  unfold step
  split
  · exact h
  · obtain ⟨⟨calls, main, tls, mh, th⟩, ⟨w, k, pl, tl, cs, d⟩⟩ := y
    obtain ⟨h1, h2, h3, h4, h5, h6, h7, h8, h9, h10⟩ := h
    simp only [MainOver, TlsOver] at *
    cases e with
    | main ok =>
      simp only [Boot.step, Boot.stepMain]
      cases main with
      | begin =>
        have h6 := h6 rfl
        subst h6
        cases ht : cfg.tls <;>
        constructor <;> simp_all [plainAfter, tlsAfter, MainOver, TlsOver] <;> assumption
      | callback => cases ok <;> constructor <;> simp_all [plainAfter, tlsAfter, MainOver, TlsOver] <;> assumption
      | opening c =>
        simp only
        split
        · cases c <;> constructor <;> simp_all [plainAfter, tlsAfter, MainOver, TlsOver, SysCall.next] <;> assumption
        · constructor <;> simp_all [plainAfter, tlsAfter, MainOver, TlsOver] <;> assumption
      | _ => constructor <;> simp_all [plainAfter, tlsAfter, MainOver, TlsOver] <;> assumption
    | tls ok =>
      simp only [Boot.step, Boot.stepTls]
      cases tls with
      | opening c =>
        simp only
        split
        · cases c <;> constructor <;> simp_all [plainAfter, tlsAfter, MainOver, TlsOver, SysCall.next] <;> assumption
        · constructor <;> simp_all [plainAfter, tlsAfter, MainOver, TlsOver] <;> assumption
      | acceptor =>
        simp only
        split <;> constructor <;> simp_all [plainAfter, tlsAfter, MainOver, TlsOver] <;> assumption
      | _ => constructor <;> simp_all [plainAfter, tlsAfter, MainOver, TlsOver] <;> assumption

theorem fits_happens {y : Life W} (h : Fits cfg y) (e : Happening W) :
    Fits cfg (y.step cfg sv allocOk (.happens e)) := by
  unfold step
  split
  · exact h
  · obtain ⟨h1, h2, h3, h4, h5, h6, h7, h8, h9, h10⟩ := h
    obtain ⟨l1, l2⟩ := listener_step (sv := sv) (allocOk := allocOk) y.proc e
    have hopen : y.proc.plain = .listening → y.boot.main = .accepting := by
      intro hp
      have : MainOver y.boot.main := by
        refine Classical.byContradiction fun hn => ?_
        rw [h1.2 hn] at hp; cases hp
      rcases this with h | h
      · exact h
      · rw [h2 h] at hp; cases hp
    have hopen' : y.proc.tls = .listening → y.boot.tls = .accepting := by
      intro hp
      have : TlsOver y.boot.tls := by
        refine Classical.byContradiction fun hn => ?_
        rw [h3.2 hn] at hp; cases hp
      rcases this with h | h
      · exact h
      · rw [h4 h] at hp; cases hp
    constructor
    · simp only [release]
      rcases l1 with l | ⟨l, l'⟩
      · rw [l]; exact h1
      · rw [l', ← h1, l]; simp
    · simp only [release]
      rcases l1 with l | ⟨l, l'⟩
      · rw [l]; exact h2
      · intro _; exact l'
    · simp only [release]
      rcases l2 with l | ⟨l, l'⟩
      · rw [l]; exact h3
      · rw [l', ← h3, l]; simp
    · simp only [release]
      rcases l2 with l | ⟨l, l'⟩
      · rw [l]; exact h4
      · intro _; exact l'
    · exact h5
    · exact h6
    · exact h7
    · exact h8
    · intro c hc ht
      rcases conn_from y.proc e c hc with ⟨c0, m, e0⟩ | hl
      · exact h9 c0 m (e0.trans ht)
      · rw [ht] at hl; exact hopen hl
    · intro c hc ht
      rcases conn_from y.proc e c hc with ⟨c0, m, e0⟩ | hl
      · exact h10 c0 m (e0.trans ht)
      · rw [ht] at hl; exact hopen' hl

theorem fits_step {y : Life W} (h : Fits cfg y) (e : LifeEvent W) : Fits cfg (y.step cfg sv allocOk e) := by
  cases e with
  | boot e => exact fits_boot h e
  | happens e => exact fits_happens h e

theorem fits_run {y : Life W} (h : Fits cfg y) (es : List (LifeEvent W)) : Fits cfg (y.run cfg sv allocOk es) := by
  induction es generalizing y with
  | nil => exact h
  | cons e es ih => exact ih (fits_step h e)

/-- The process as it would be if the listeners had been opened, or had failed to open, at once. -/
def ahead (cfg : BootCfg) (p t : Bool) (y : Process W) : Process W :=
  y.withListeners (if y.plain = .off then (if p then .listening else .ended) else y.plain)
    (if cfg.tls then (if y.tls = .off then (if t then .listening else .ended) else y.tls) else .off)

/-- `p` and `t` are how the opening of the listeners ends. -/
structure Foresees (p t : Bool) (b : Boot) : Prop where
  main : b.main = .accepting → p = true
  mainNot : b.main = .failed ∨ b.main = .panicked → p = false
  tls : b.tls = .accepting → t = true
  tlsNot : b.tls = .warned ∨ b.tls = .panicked → t = false

theorem main_over_step (b : Boot) (e : BootEvent) (h : MainOver b.main) : (b.step cfg e).main = b.main := by
  cases e with
  | main ok => rcases h with h | h | h <;> simp [Boot.step, Boot.stepMain, h]
  | tls ok =>
    simp only [Boot.step, Boot.stepTls]
    repeat' split
    all_goals rfl

theorem tls_over_step (b : Boot) (e : BootEvent) (h : TlsOver b.tls) (hb : b.main ≠ .begin) :
    (b.step cfg e).tls = b.tls := by
  cases e with
  | tls ok => rcases h with h | h | h <;> simp [Boot.step, Boot.stepTls, h]
  | main ok =>
    simp only [Boot.step, Boot.stepMain]
    repeat' split
    all_goals first | rfl | exact absurd ‹_› hb

theorem foresees_back {p t : Bool} {y : Life W} (hf : Fits cfg y) (e : LifeEvent W)
    (h : Foresees p t (y.step cfg sv allocOk e).boot) : Foresees p t y.boot := by
  unfold step at h
  split at h
  · exact h
  · cases e with
    | happens e => exact ⟨h.1, h.2, h.3, h.4⟩
    | boot e =>
      have hm : ∀ m, MainOver m → y.boot.main = m → (y.boot.step cfg e).main = m := by
        intro m h1 h2; rw [main_over_step _ _ (h2 ▸ h1), h2]
      have ht : ∀ m, TlsOver m → y.boot.tls = m → (y.boot.step cfg e).tls = m := by
        intro m h1 h2
        rw [tls_over_step _ _ (h2 ▸ h1) ?_, h2]
        intro hb
        have := hf.begun hb
        rw [h2] at this; subst this
        rcases h1 with h | h | h <;> cases h
      constructor
      · intro hx; exact h.1 (hm _ (.inl rfl) hx)
      · rintro (hx | hx)
        · exact h.2 (.inl (hm _ (.inr (.inl rfl)) hx))
        · exact h.2 (.inr (hm _ (.inr (.inr rfl)) hx))
      · intro hx; exact h.3 (ht _ (.inl rfl) hx)
      · rintro (hx | hx)
        · exact h.4 (.inl (ht _ (.inr (.inl rfl)) hx))
        · exact h.4 (.inr (ht _ (.inr (.inr rfl)) hx))

theorem foresees_run_back {p t : Bool} (es : List (LifeEvent W)) {y : Life W} (hf : Fits cfg y)
    (h : Foresees p t (y.run cfg sv allocOk es).boot) : Foresees p t y.boot := by
  induction es generalizing y with
  | nil => exact h
  | cons e es ih => exact foresees_back hf e (ih (fits_step hf e) h)

theorem ahead_boot {p t : Bool} {y : Life W} (hf : Fits cfg y) (e : BootEvent)
    (h : Foresees p t (y.step cfg sv allocOk (.boot e)).boot) :
    ahead cfg p t (y.step cfg sv allocOk (.boot e)).proc = ahead cfg p t y.proc := by
  have hf' := fits_boot (sv := sv) (allocOk := allocOk) hf e
  revert h hf'
  unfold step
  split
  · intro _ _; rfl
  · simp only
    intro h hf'
    have e1 : plainAfter y.boot.main (y.boot.step cfg e).main y.proc.plain = y.proc.plain ∨
        (y.proc.plain = .off ∧ plainAfter y.boot.main (y.boot.step cfg e).main y.proc.plain =
          (if p then .listening else .ended)) := by
      by_cases hm : MainOver y.boot.main
      · left; rw [main_over_step _ _ hm]; simp [plainAfter]
      · have hoff := hf.plain.2 hm
        unfold plainAfter
        split
        · exact .inl rfl
        · split
          · rename_i hx; exact .inr ⟨hoff, by rw [h.1 hx]; rfl⟩
          · rename_i hx; exact .inr ⟨hoff, by rw [h.2 (.inl hx)]; rfl⟩
          · rename_i hx; exact .inr ⟨hoff, by rw [h.2 (.inr hx)]; rfl⟩
          · exact .inl rfl
    have e2 : tlsAfter y.boot.tls (y.boot.step cfg e).tls y.proc.tls = y.proc.tls ∨
        (y.proc.tls = .off ∧ tlsAfter y.boot.tls (y.boot.step cfg e).tls y.proc.tls =
          (if t then .listening else .ended)) := by
      by_cases hm : TlsOver y.boot.tls
      · left
        rw [tls_over_step _ _ hm ?_]
        · simp [tlsAfter]
        · intro hb
          have := hf.begun hb
          rw [this] at hm
          rcases hm with h | h | h <;> cases h
      · have hoff := hf.tls.2 hm
        unfold tlsAfter
        split
        · exact .inl rfl
        · split
          · rename_i hx; exact .inr ⟨hoff, by rw [h.3 hx]; rfl⟩
          · rename_i hx; exact .inr ⟨hoff, by rw [h.4 (.inl hx)]; rfl⟩
          · rename_i hx; exact .inr ⟨hoff, by rw [h.4 (.inr hx)]; rfl⟩
          · exact .inl rfl
    unfold ahead Process.withListeners
    simp only
    have hp : ∀ (a b : Listener) (x : Bool), (a = b ∨ (b = .off ∧ a = if x then .listening else .ended)) →
        (if a = .off then (if x then Listener.listening else .ended) else a) =
        (if b = .off then (if x then .listening else .ended) else b) := by
      rintro a b x (rfl | ⟨rfl, rfl⟩)
      · rfl
      · cases x <;> simp
    rw [hp _ _ _ e1, hp _ _ _ e2]

/-- What cannot happen changes nothing. -/
theorem step_cannot (p : Process W) (e : Happening W) (h : ¬ CanHappen p e) : p.step sv allocOk e = p := by
  unfold Process.step
  split
  · rfl
  · cases e <;> simp_all [CanHappen]

theorem ahead_happens {p t : Bool} {y : Life W} (hf : Fits cfg y) (e : Happening W) (hc : CanHappen y.proc e) :
    (ahead cfg p t y.proc).step sv allocOk e = ahead cfg p t (y.step cfg sv allocOk (.happens e)).proc := by
  have hstep : (y.step cfg sv allocOk (.happens e)).proc = y.proc.step sv allocOk e := by
    unfold step
    split
    · simp [Process.step, *]
    · rfl
  have htls : cfg.tls = false → y.proc.tls = .off := by
    intro h
    refine hf.tls.2 ?_
    rw [hf.noTls h]
    rintro (h | h | h) <;> cases h
  rw [hstep]
  by_cases h1 : (∀ tls s, e ≠ .connect tls s) ∧ (∀ tls, e ≠ .acceptErr tls) ∧ e ≠ .exit
  · obtain ⟨l1, l2⟩ := Process.step_listeners (sv := sv) (allocOk := allocOk) y.proc e h1.2.1
    unfold ahead
    rw [Process.step_withListeners sv allocOk _ _ _ _ h1.1 h1.2.1 h1.2.2, l1, l2]
  · cases hd : y.proc.dead with
    | true => simp [Process.step, ahead, Process.withListeners, hd]
    | false =>
      cases e with
      | connect tls s =>
        cases tls with
        | true =>
          have hl : y.proc.tls = .listening := hc.2
          cases ht : cfg.tls with
          | false => rw [htls ht] at hl; cases hl
          | true => simp [Process.step, ahead, Process.withListeners, Process.listener, hd, hl, ht]
        | false =>
          have hl : y.proc.plain = .listening := hc.2
          simp [Process.step, ahead, Process.withListeners, Process.listener, hd, hl]
      | acceptErr tls =>
        cases tls with
        | true =>
          have hl : y.proc.tls = .listening := hc.2
          cases ht : cfg.tls with
          | false => rw [htls ht] at hl; cases hl
          | true => simp [Process.step, ahead, Process.withListeners, Process.listener, hd, hl, ht]
        | false =>
          have hl : y.proc.plain = .listening := hc.2
          simp [Process.step, ahead, Process.withListeners, Process.listener, hd, hl]
      | exit =>
        have hl : y.proc.plain = .ended := hc.2
        simp [Process.step, ahead, Process.withListeners, hd, hl]
      | _ => exact absurd ⟨by simp, by simp, by simp⟩ h1

theorem ahead_cannot {p t : Bool} {y : Life W} (e : Happening W) (hc : ¬ CanHappen y.proc e) :
    (y.step cfg sv allocOk (.happens e)).proc = y.proc := by
  unfold step
  split
  · rfl
  · exact step_cannot _ _ hc

/-- What happens in an application happens in a process whose listeners were opened at once. -/
theorem ahead_run {p t : Bool} (es : List (LifeEvent W)) {y : Life W} (hf : Fits cfg y)
    (h : Foresees p t (y.run cfg sv allocOk es).boot) :
    (ahead cfg p t y.proc).run sv allocOk (happened cfg sv allocOk y es) =
      ahead cfg p t (y.run cfg sv allocOk es).proc := by
  induction es generalizing y with
  | nil => rfl
  | cons e es ih =>
    have hb := foresees_run_back es (fits_step hf e) h
    rw [run_cons]
    cases e with
    | boot e =>
      rw [happened, ← ih (fits_step hf _) h, ahead_boot hf e hb]
    | happens e =>
      rw [happened]
      split
      · rename_i hc
        rw [Process.run_cons, ahead_happens hf e hc, ih (fits_step hf _) h]
      · rename_i hc
        rw [← ih (fits_step hf _) h, ahead_cannot (p := p) (t := t) e hc]

theorem ahead_start (p t : Bool) (w0 : W) (workers : Nat) :
    ahead cfg p t (start w0 workers).proc = Process.start w0 workers cfg.tls t p := by
  cases ht : cfg.tls <;> simp [ahead, start, Process.withListeners, Process.start, ht]

/-- how the opening ends, as far as it has -/
theorem foresees_self (b : Boot) : Foresees (b.main == .accepting) (b.tls == .accepting) b := by
  constructor <;> simp <;> (try (rintro (h | h) <;> simp [h]))

/-- Of what has happened every client is one that is accepted. -/
theorem taken_happened {p t : Bool} (es : List (LifeEvent W)) {y : Life W} (hf : Fits cfg y)
    (h : Foresees p t (y.run cfg sv allocOk es).boot) :
    taken ((ahead cfg p t y.proc).plain == .listening) ((ahead cfg p t y.proc).tls == .listening)
      (happened cfg sv allocOk y es) = (happened cfg sv allocOk y es).filterMap Spec.Happening.client? := by
  induction es generalizing y with
  | nil => rfl
  | cons e es ih =>
    have hb := foresees_run_back es (fits_step hf e) h
    have ih := ih (fits_step hf e) h
    cases e with
    | boot e =>
      rw [happened]
      rw [ahead_boot hf e hb] at ih
      exact ih
    | happens e =>
      rw [happened]
      split
      · rename_i hc
        rw [← ahead_happens hf e hc] at ih
        have hlis : ∀ tls, y.proc.listener tls = .listening → (ahead cfg p t y.proc).listener tls = .listening := by
          intro tls hl
          cases tls with
          | true =>
            have hl : y.proc.tls = .listening := hl
            cases ht : cfg.tls with
            | true => simp [ahead, Process.withListeners, Process.listener, hl, ht]
            | false =>
              have : y.proc.tls = .off := by
                refine hf.tls.2 ?_
                rw [hf.noTls ht]
                rintro (h | h | h) <;> cases h
              rw [this] at hl; cases hl
          | false =>
            have hl : y.proc.plain = .listening := hl
            simp [ahead, Process.withListeners, Process.listener, hl]
        have hdead : (ahead cfg p t y.proc).dead = false := hc.1
        cases e with
        | connect tls s =>
          have hl := hlis tls hc.2
          obtain ⟨l1, l2⟩ := Process.step_listeners (sv := sv) (allocOk := allocOk) (ahead cfg p t y.proc)
            (.connect tls s) (by simp)
          rw [l1, l2] at ih
          cases tls
          · have hl : (ahead cfg p t y.proc).plain = .listening := hl
            simp [taken, Spec.Happening.client?, hl] at ih ⊢
            exact ih
          · have hl : (ahead cfg p t y.proc).tls = .listening := hl
            simp [taken, Spec.Happening.client?, hl] at ih ⊢
            exact ih
        | acceptErr tls =>
          have hl := hlis tls hc.2
          cases tls
          · have hl' : (ahead cfg p t y.proc).plain = .listening := hl
            simp [Process.step, hdead, hl] at ih
            simp [taken, Spec.Happening.client?]
            exact ih
          · have hl' : (ahead cfg p t y.proc).tls = .listening := hl
            simp [Process.step, hdead, hl] at ih
            simp [taken, Spec.Happening.client?]
            exact ih
        | _ =>
          rename_i hc'
          rw [(Process.step_listeners (sv := sv) (allocOk := allocOk) (ahead cfg p t y.proc) _ (by simp)).1,
            (Process.step_listeners (sv := sv) (allocOk := allocOk) (ahead cfg p t y.proc) _ (by simp)).2] at ih
          rw [List.filterMap_cons_none (by rfl)]
          simpa [taken] using ih
      · rename_i hc
        rw [ahead_cannot (p := p) (t := t) e hc] at ih
        exact ih

theorem dead_step {y : Life W} (e : LifeEvent W) (h : y.proc.dead = true) : (y.step cfg sv allocOk e).proc.dead = true := by
  simp [step, h]

theorem dead_run {y : Life W} (es : List (LifeEvent W)) (h : y.proc.dead = true) : y.run cfg sv allocOk es = y := by
  induction es with
  | nil => rfl
  | cons e es ih => rw [run_cons]; simpa [step, h] using ih

theorem alive_of {y : Life W} (es : List (LifeEvent W)) (h : (y.run cfg sv allocOk es).proc.dead = false) :
    y.proc.dead = false := by
  cases hd : y.proc.dead with
  | false => rfl
  | true => rw [dead_run es hd, hd] at h; cases h

/-- The start-up goes as it would alone, if the listeners do not want the same port. -/
structure SameBoot (cfg : BootCfg) (b b' : Boot) : Prop where
  main : b.main = b'.main
  tls : b.tls = b'.tls
  calls : b.calls = b'.calls
  no : cfg.tls = false → b.tls = .off ∧ b.tlsHas = false ∧ b'.tlsHas = false

theorem sameBoot_step (hp : cfg.tls = true → Boot.clash cfg = false) {b b' : Boot} (h : SameBoot cfg b b') (e : BootEvent) :
    SameBoot cfg (b.step cfg e) (b'.step cfg e) := by
  obtain ⟨calls, main, tls, mh, th⟩ := b
  obtain ⟨calls', main', tls', mh', th'⟩ := b'
  obtain ⟨h1, h2, h3, h4⟩ := h
  simp only at h1 h2 h3 h4
  subst h1 h2 h3
  have hs : ∀ c ok, Boot.succeeds cfg th c ok = Boot.succeeds cfg th' c ok := by
    intro c ok
    cases ht : cfg.tls with
    | true => simp [Boot.succeeds, hp ht]
    | false => rw [(h4 ht).2.1, (h4 ht).2.2]
  cases e with
  | main ok =>
    cases main with
    | opening c =>
      simp only [Boot.step, Boot.stepMain, hs]
      split <;> exact ⟨rfl, rfl, rfl, h4⟩
    | begin =>
      refine ⟨rfl, rfl, rfl, ?_⟩
      intro ht
      simp [Boot.step, Boot.stepMain, ht, (h4 ht).2]
    | _ => exact ⟨rfl, rfl, rfl, h4⟩
  | tls ok =>
    cases ht : cfg.tls with
    | false =>
      obtain ⟨rfl, -, -⟩ := h4 ht
      exact ⟨rfl, rfl, rfl, h4⟩
    | true =>
      have hs' : ∀ a b c ok, Boot.succeeds cfg a c ok = Boot.succeeds cfg b c ok := by
        intro a b c ok
        simp [Boot.succeeds, hp ht]
      have no : ∀ {P : Prop}, cfg.tls = false → P := by intro P h; rw [ht] at h; cases h
      cases tls with
      | opening c =>
        simp only [Boot.step, Boot.stepTls, hs' mh mh']
        split <;> exact ⟨rfl, rfl, rfl, no⟩
      | acceptor =>
        simp only [Boot.step, Boot.stepTls]
        split <;> exact ⟨rfl, rfl, rfl, no⟩
      | _ => exact ⟨rfl, rfl, rfl, no⟩

theorem sameBoot_run (hp : cfg.tls = true → Boot.clash cfg = false) (es : List (LifeEvent W)) {y : Life W} {b : Boot}
    (h : SameBoot cfg y.boot b) (hd : (y.run cfg sv allocOk es).proc.dead = false) :
    SameBoot cfg (y.run cfg sv allocOk es).boot ((es.filterMap LifeEvent.boot?).foldl (Boot.step cfg) b) := by
  induction es generalizing y b with
  | nil => exact h
  | cons e es ih =>
    have ha : y.proc.dead = false := alive_of (e :: es) hd
    rw [run_cons] at hd ⊢
    cases e with
    | boot e =>
      refine ih (b := b.step cfg e) ?_ hd
      have : (y.step cfg sv allocOk (.boot e)).boot = y.boot.step cfg e := by simp [step, ha]
      rw [this]
      exact sameBoot_step hp h e
    | happens e =>
      refine ih ?_ hd
      have : (y.step cfg sv allocOk (.happens e)).boot = release y.boot y.proc (y.proc.step sv allocOk e) := by
        simp [step, ha]
      rw [this]
      exact ⟨h.1, h.2, h.3, fun ht => ⟨(h.4 ht).1, by simp [release, (h.4 ht).2.1], (h.4 ht).2.2⟩⟩

/-- Which task holds its port when. -/
structure Holds (cfg : BootCfg) (y : Life W) : Prop where
  plain : y.boot.mainHas = true ↔ y.proc.plain = .listening ∨
    y.boot.main = .opening .listen ∨ y.boot.main = .opening .reuse ∨ y.boot.main = .opening .fromStd
  tls : y.boot.tlsHas = true ↔ y.proc.tls = .listening ∨ y.boot.tls = .acceptor ∨
    y.boot.tls = .opening .listen ∨ y.boot.tls = .opening .reuse ∨ y.boot.tls = .opening .fromStd
  one : Boot.clash cfg = true → ¬ (y.boot.mainHas = true ∧ y.boot.tlsHas = true)

theorem holds_start (w0 : W) (workers : Nat) : Holds cfg (start w0 workers) := by
  constructor <;> simp [start, Boot.init]

theorem holds_step {y : Life W} (hf : Fits cfg y) (h : Holds cfg y) (e : LifeEvent W) :
    Holds cfg (y.step cfg sv allocOk e) := by
  unfold step
  split
  · exact h
  · obtain ⟨⟨calls, main, tls, mh, th⟩, p⟩ := y
    cases e with
    | happens e =>
      obtain ⟨l1, l2⟩ := listener_step (sv := sv) (allocOk := allocOk) p e
      have hopen : p.plain = .listening → main = .accepting := by
        intro hp
        have : MainOver main := by
          refine Classical.byContradiction fun hn => ?_
          rw [hf.plain.2 hn] at hp; cases hp
        rcases this with h | h
        · exact h
        · rw [hf.ended h] at hp; cases hp
      have hopen' : p.tls = .listening → tls = .accepting := by
        intro hp
        have : TlsOver tls := by
          refine Classical.byContradiction fun hn => ?_
          rw [hf.tls.2 hn] at hp; cases hp
        rcases this with h | h
        · exact h
        · rw [hf.tlsEnded h] at hp; cases hp
      obtain ⟨h1, h2, h3⟩ := h
      simp only at h1 h2 h3
      constructor
      · simp only [release]
        rcases l1 with l | ⟨l, l'⟩
        · rw [l]
          cases hpl : p.plain <;> simp_all
        · have := hopen l
          subst this
          simp [l, l']
      · simp only [release]
        rcases l2 with l | ⟨l, l'⟩
        · rw [l]
          cases hpl : p.tls <;> simp_all
        · have := hopen' l
          subst this
          simp [l, l']
      · intro hc
        have := h3 hc
        simp only [release, Bool.and_eq_true]
        exact fun hx => this ⟨hx.1.1, hx.2.1⟩
    | boot e =>
      obtain ⟨f1, f2, f3, f4, f5, f6, -, -, -, -⟩ := hf
      obtain ⟨h1, h2, h3⟩ := h
      simp only [MainOver, TlsOver] at *
      cases e with
      | main ok =>
        cases main with
        | begin =>
          have := f6 rfl
          subst this
          cases ht : cfg.tls <;>
          constructor <;> simp_all [Boot.step, Boot.stepMain, plainAfter, tlsAfter]
        | callback =>
          cases ok <;> constructor <;> simp_all [Boot.step, Boot.stepMain, plainAfter, tlsAfter]
        | opening c =>
          simp only [Boot.step, Boot.stepMain]
          split
          · rename_i hs
            cases c <;> constructor <;> simp_all [plainAfter, tlsAfter, SysCall.next, Boot.succeeds] <;> grind
          · constructor <;> simp_all [plainAfter, tlsAfter]
        | _ => constructor <;> simp_all [Boot.step, Boot.stepMain, plainAfter, tlsAfter]
      | tls ok =>
        cases tls with
        | opening c =>
          simp only [Boot.step, Boot.stepTls]
          split
          · rename_i hs
            cases c <;> constructor <;> simp_all [plainAfter, tlsAfter, SysCall.next, Boot.succeeds] <;> grind
          · constructor <;> simp_all [plainAfter, tlsAfter]
        | acceptor =>
          simp only [Boot.step, Boot.stepTls]
          split <;> constructor <;> simp_all [plainAfter, tlsAfter]
        | _ => constructor <;> simp_all [Boot.step, Boot.stepTls, plainAfter, tlsAfter]

theorem holds_run {y : Life W} (hf : Fits cfg y) (h : Holds cfg y) (es : List (LifeEvent W)) :
    Holds cfg (y.run cfg sv allocOk es) := by
  induction es generalizing y with
  | nil => exact h
  | cons e es ih => exact ih (fits_step hf e) (holds_step hf h e)

end Life
end Octane
