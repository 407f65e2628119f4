import Verif.Proof.LifeLive
import Verif.Proof.LifeOpen
import Verif.Props.Life
import Verif.Props.ProcessLive
/-
C148: an application comes to serve its clients.
-/
namespace Octane
open Spec
universe u
variable {W : Type u}

/-- The plain port comes to be open, and stays so, whatever clients and handlers do meanwhile and whatever becomes of
the TLS listener: if the caller's task goes on, its calls succeed, the two ports differ and accepting does not fail. -/
theorem C148_plain (cfg : BootCfg) (hp : PortsDiffer cfg) (sv : PServer W) (allocOk : Nat → Bool)
    (halloc : ∀ k, allocOk k = true) (w0 : W) (workers : Nat) (σ : Nat → LifeEvent W) (hgo : CallerGoesOn σ)
    (hacc : ∀ n, σ n ≠ .happens (.acceptErr false)) :
    ∃ n, ∀ m, n ≤ m →
      let y := lifeAt cfg sv allocOk (Life.start w0 workers) σ m
      y.proc.dead = false ∧ y.boot.calls = 1 ∧ y.boot.main = .accepting ∧ y.proc.plain = .listening := by
  have hfine := Life.fine_at (sv := sv) hp halloc w0 workers σ hgo.fine hacc
  have hfit := Life.fits_at (cfg := cfg) (sv := sv) (allocOk := allocOk) w0 workers σ
  have hstep := fun n => (Life.fine_step (sv := sv) hp halloc (hfit n)
    (Life.holds_run (Life.fits_start w0 workers) (Life.holds_start w0 workers) _) (hfine n) _ (hgo.fine n) (hacc n)).2
  obtain ⟨n, hn⟩ := Life.sinks (fun n => Life.mainRank (lifeAt cfg sv allocOk (Life.start w0 workers) σ n).boot.main)
    (fun n => by simp only [lifeAt_succ]; exact (hstep n).1)
    (fun n h0 => by
      by_cases hlow : ∃ m, n ≤ m ∧ Life.mainRank (lifeAt cfg sv allocOk (Life.start w0 workers) σ (m + 1)).boot.main <
        Life.mainRank (lifeAt cfg sv allocOk (Life.start w0 workers) σ m).boot.main
      · exact hlow
      · exfalso
        obtain ⟨m, hm, ok, e⟩ := hgo.again n
        have hsame : ∀ k, Life.mainRank (lifeAt cfg sv allocOk (Life.start w0 workers) σ (n + k)).boot.main ≠ 0 := by
          intro k
          induction k with
          | zero => exact h0
          | succ k ih =>
            intro hx
            exact hlow ⟨n + k, by omega, by rw [show n + k + 1 = n + (k + 1) by omega, hx]; omega⟩
        have hm0 := hsame (m - n)
        rw [show n + (m - n) = m by omega] at hm0
        cases ok with
        | false => exact hgo.fine m e
        | true =>
          refine hlow ⟨m, hm, ?_⟩
          rw [lifeAt_succ, (hstep m).2 e]; omega)
  refine ⟨n, fun m hm => ?_⟩
  have h0 : Life.mainRank _ = 0 := hn m hm
  have hf := hfine m
  have hft := hfit m
  have hmain : (lifeAt cfg sv allocOk (Life.start w0 workers) σ m).boot.main = .accepting := by
    cases hx : (lifeAt cfg sv allocOk (Life.start w0 workers) σ m).boot.main with
    | accepting => rfl
    | failed => exact absurd hx hf.failed
    | panicked => exact absurd hx hf.panicked
    | opening c => rw [hx] at h0; cases c <;> cases h0
    | _ => rw [hx] at h0; cases h0
  refine ⟨hf.alive, ?_, hmain, ?_⟩
  · rw [hft.calls, hmain]; rfl
  · cases hx : (lifeAt cfg sv allocOk (Life.start w0 workers) σ m).proc.plain with
    | listening => rfl
    | ended => exact absurd hx hf.plain
    | off => exact absurd (.inl hmain) (hft.plain.1 hx)

/-- The same for TLS, when it is compiled in and an acceptor can be made of the configured files. -/
theorem C148_tls (cfg : BootCfg) (hp : PortsDiffer cfg) (ht : cfg.tls = true) (ha : cfg.acceptor = .ok true)
    (sv : PServer W) (allocOk : Nat → Bool) (halloc : ∀ k, allocOk k = true) (w0 : W) (workers : Nat)
    (σ : Nat → LifeEvent W) (hgo : CallerGoesOn σ) (htls : TlsGoesOn σ)
    (hacc : ∀ n tls, σ n ≠ .happens (.acceptErr tls)) :
    ∃ n, ∀ m, n ≤ m →
      let y := lifeAt cfg sv allocOk (Life.start w0 workers) σ m
      y.proc.dead = false ∧ y.boot.tls = .accepting ∧ y.proc.tls = .listening := by
  have hfine := Life.fine_at (sv := sv) hp halloc w0 workers σ hgo.fine (fun n => hacc n false)
  have hfit := Life.fits_at (cfg := cfg) (sv := sv) (allocOk := allocOk) w0 workers σ
  have hok : ∀ n, Life.TlsFine (lifeAt cfg sv allocOk (Life.start w0 workers) σ n) := by
    intro n
    induction n with
    | zero => exact ⟨by simp [lifeAt, Life.start, Life.run], by simp [lifeAt, Life.start, Life.run, Boot.init],
        by simp [lifeAt, Life.start, Life.run, Boot.init], by simp [lifeAt, Life.start, Life.run, Boot.init]⟩
    | succ n ih =>
      rw [lifeAt_succ]
      exact (Life.tlsFine_step hp ht ha (hfit n) (hfine n).alive ih _ (htls.fine n) (hacc n true)).1
  have hstep := fun n => (Life.tlsFine_step (sv := sv) (allocOk := allocOk) hp ht ha (hfit n) (hfine n).alive (hok n) _
    (htls.fine n) (hacc n true)).2
  obtain ⟨n1, hn1⟩ := C148_plain cfg hp sv allocOk halloc w0 workers σ hgo (fun n => hacc n false)
  obtain ⟨n, hn⟩ := Life.sinks
    (fun n => Life.tlsRank (lifeAt cfg sv allocOk (Life.start w0 workers) σ n).boot.tls)
    (fun n => by simp only [lifeAt_succ]; exact (hstep n).1)
    (fun n h0 => by
      by_cases hlow : ∃ m, n ≤ m ∧ Life.tlsRank (lifeAt cfg sv allocOk (Life.start w0 workers) σ (m + 1)).boot.tls <
        Life.tlsRank (lifeAt cfg sv allocOk (Life.start w0 workers) σ m).boot.tls
      · exact hlow
      · exfalso
        obtain ⟨m, hm, ok, e⟩ := htls.again (n + n1)
        have hsame : ∀ k, Life.tlsRank (lifeAt cfg sv allocOk (Life.start w0 workers) σ (n + k)).boot.tls ≠ 0 := by
          intro k
          induction k with
          | zero => exact h0
          | succ k ih =>
            intro hx
            exact hlow ⟨n + k, by omega, by rw [show n + k + 1 = n + (k + 1) by omega, hx]; omega⟩
        have hm0 := hsame (m - n)
        rw [show n + (m - n) = m by omega] at hm0
        cases ok with
        | false => exact htls.fine m e
        | true =>
          refine hlow ⟨m, by omega, ?_⟩
          rw [lifeAt_succ]
          refine (hstep m).2 e ?_ hm0
          rw [(hn1 m (by omega)).2.2.1]; simp)
  refine ⟨n + n1, fun m hm => ?_⟩
  have h0 : Life.tlsRank _ = 0 := hn m (by omega)
  have hmain := (hn1 m (by omega)).2.2.1
  have hf := hok m
  have htl : (lifeAt cfg sv allocOk (Life.start w0 workers) σ m).boot.tls = .accepting := by
    cases hx : (lifeAt cfg sv allocOk (Life.start w0 workers) σ m).boot.tls with
    | accepting => rfl
    | warned => exact absurd hx hf.warned
    | panicked => exact absurd hx hf.panicked
    | opening c => rw [hx] at h0; cases h0
    | _ => rw [hx] at h0; cases h0
  refine ⟨(hfine m).alive, htl, ?_⟩
  cases hx : (lifeAt cfg sv allocOk (Life.start w0 workers) σ m).proc.tls with
  | listening => rfl
  | ended => exact absurd hx hf.tls
  | off => exact absurd (.inl htl) ((hfit m).tls.1 hx)

/-- Who comes to an open listener is accepted: the next connection is theirs. -/
theorem C148_accepted (cfg : BootCfg) (sv : PServer W) (log : List (PReg W)) (hs : SetUp sv log) (allocOk : Nat → Bool)
    (w0 : W) (workers : Nat) (σ : Nat → LifeEvent W) (n : Nat) (tls : Bool) (s : Sock)
    (hd : (lifeAt cfg sv allocOk (Life.start w0 workers) σ n).proc.dead = false)
    (hl : (lifeAt cfg sv allocOk (Life.start w0 workers) σ n).proc.listener tls = .listening)
    (he : σ n = .happens (.connect tls s)) :
    (clientsAt cfg sv allocOk (Life.start w0 workers) σ (n + 1))[
      (lifeAt cfg sv allocOk (Life.start w0 workers) σ n).proc.conns.length]? = some (tls, s) := by
  obtain ⟨_, _, h⟩ := C144_clients cfg sv log hs allocOk w0 workers ((List.range n).map σ) hd
  have hlen := h.2.2.2.2.2.2.1
  have hc : CanHappen (lifeAt cfg sv allocOk (Life.start w0 workers) σ n).proc (.connect tls s) := ⟨hd, hl⟩
  unfold clientsAt
  rw [List.range_succ, List.map_append, Life.happened_append, List.filterMap_append]
  simp only [List.map_cons, List.map_nil, he]
  change (_ ++ _)[((Life.start w0 workers).run cfg sv allocOk ((List.range n).map σ)).proc.conns.length]? = _
  rw [List.getElem?_append_right (Nat.le_of_eq hlen.symm)]
  have hc' : CanHappen ((Life.start w0 workers).run cfg sv allocOk ((List.range n).map σ)).proc (.connect tls s) := hc
  simp only [happened, if_pos hc']
  rw [hlen, Nat.sub_self]
  rfl

/-- Every connection of the application comes to its end, whenever it was accepted: C107 for the whole application.
The scheduler is fair to the tasks outside `B`, the handlers outside `B` return, and `B` has fewer members than there
are threads. -/
theorem C148_ends (cfg : BootCfg) (sv : PServer W) (log : List (PReg W)) (hs : SetUp sv log) (allocOk : Nat → Bool)
    (w0 : W) (workers : Nat) (σ : Nat → LifeEvent W)
    (alive : ∀ n, (lifeAt cfg sv allocOk (Life.start w0 workers) σ n).proc.dead = false)
    (B : List Nat) (hB : B.length < workers)
    (fair : ∀ i, i ∉ B → FairLife cfg sv allocOk (Life.start w0 workers) σ i)
    (hends : ∀ n i tls s, i ∉ B → (clientsAt cfg sv allocOk (Life.start w0 workers) σ n)[i]? = some (tls, s) →
      ∀ req, Received sv.feat.faithful sv.feat.cookies s req → (requestProg sv.feat.urlVariables log req).Ends)
    (i n0 : Nat) (tls : Bool) (s : Sock) (hi : i ∉ B)
    (hc : (clientsAt cfg sv allocOk (Life.start w0 workers) σ n0)[i]? = some (tls, s))
    (hsent : Sent sv.feat.faithful sv.feat.cookies s) :
    ∃ t n, EndedTask t ∧ LifeRemains cfg sv allocOk (Life.start w0 workers) σ i (· = t) n ∧
      ((∀ n e, σ n = .happens e → Unharmed i e) → (∃ out, t = .finished out) ∨ t = .panicked) := by
  obtain ⟨p, t, hfor⟩ := Life.foreseen (cfg := cfg) (sv := sv) (allocOk := allocOk) w0 workers σ
  have hat := Life.atTime_shadow w0 workers σ hfor
  have htk := Life.taken_shadow w0 workers σ hfor
  have hconn : ∀ n, (atTime sv allocOk (Process.start w0 workers cfg.tls t p)
      (Life.shadowAt cfg sv allocOk (Life.start w0 workers) σ) n).conns =
      (lifeAt cfg sv allocOk (Life.start w0 workers) σ n).proc.conns := fun n => by rw [hat]; rfl
  have hfree : ∀ n, (atTime sv allocOk (Process.start w0 workers cfg.tls t p)
      (Life.shadowAt cfg sv allocOk (Life.start w0 workers) σ) n).free =
      (lifeAt cfg sv allocOk (Life.start w0 workers) σ n).proc.free := fun n => by rw [hat]; rfl
  have hrem : ∀ i P n, Remains sv allocOk (Process.start w0 workers cfg.tls t p)
      (Life.shadowAt cfg sv allocOk (Life.start w0 workers) σ) i P n ↔
      LifeRemains cfg sv allocOk (Life.start w0 workers) σ i P n := by
    intro i P n
    simp only [Remains, LifeRemains, hconn]
  have hagain : FreeAgain sv allocOk (Process.start w0 workers cfg.tls t p)
      (Life.shadowAt cfg sv allocOk (Life.start w0 workers) σ) ↔ LifeFree cfg sv allocOk (Life.start w0 workers) σ := by
    simp only [FreeAgain, LifeFree, hfree]
  have hev : ∀ m (e : Happening W), σ m = .happens e → (∀ tls s, e ≠ .connect tls s) → (∀ tls, e ≠ .acceptErr tls) →
      e ≠ .exit → Life.shadowAt cfg sv allocOk (Life.start w0 workers) σ m = e := by
    intro m e he h1 h2 h3
    have : CanHappen (lifeAt cfg sv allocOk (Life.start w0 workers) σ m).proc e := by
      refine ⟨alive m, ?_⟩
      cases e <;> simp_all
    simp only [Life.shadowAt, he, Life.shadow, if_pos this]
  have fair' : ∀ i, i ∉ B → FairTask sv allocOk (Process.start w0 workers cfg.tls t p)
      (Life.shadowAt cfg sv allocOk (Life.start w0 workers) σ) i := by
    intro i hi
    have hf := fair i hi
    constructor
    · intro n req reads upd h1 h2
      obtain ⟨m, hm, e⟩ := hf.access n req reads upd ((hrem _ _ _).1 h1) h2
      exact ⟨m, hm, hev m _ e (by simp) (by simp) (by simp)⟩
    · intro n req reads h1 h2
      obtain ⟨m, hm, e⟩ := hf.finish n req reads ((hrem _ _ _).1 h1) h2
      exact ⟨m, hm, hev m _ e (by simp) (by simp) (by simp)⟩
    · intro hfr n h1
      obtain ⟨m, hm, h2, ok, e⟩ := hf.handshake (hagain.1 hfr) n ((hrem _ _ _).1 h1)
      exact ⟨m, hm, by rw [hfree]; exact h2, ok, hev m _ e (by simp) (by simp) (by simp)⟩
    · intro hfr n h1
      obtain ⟨m, hm, h2, e⟩ := hf.read (hagain.1 hfr) n ((hrem _ _ _).1 h1)
      exact ⟨m, hm, by rw [hfree]; exact h2, hev m _ e (by simp) (by simp) (by simp)⟩
    · intro hfr n h1
      obtain ⟨m, hm, h2, e⟩ := hf.write (hagain.1 hfr) n ((hrem _ _ _).1 h1)
      refine ⟨m, hm, by rw [hfree]; exact h2, ?_⟩
      rcases e with e | ⟨k, hk, e⟩
      · exact .inl (hev m _ e (by simp) (by simp) (by simp))
      · exact .inr ⟨k, hk, hev m _ e (by simp) (by simp) (by simp)⟩
  obtain ⟨t', n, h1, h2, h3⟩ := C107_ends sv log hs allocOk w0 workers cfg.tls t p
    (Life.shadowAt cfg sv allocOk (Life.start w0 workers) σ) (fun n => by rw [hat]; exact alive n) B hB fair'
    (fun n i tls s hi h => hends n i tls s hi (by rw [← htk]; exact h)) i n0 tls s hi (by rw [htk]; exact hc) hsent
  refine ⟨t', n, h1, (hrem _ _ _).1 h2, fun hu => h3 fun n => ?_⟩
  simp only [Life.shadowAt, Life.shadow]
  split
  · simp [Unharmed]
  · rename_i e he
    split
    · exact hu n e he
    · simp [Unharmed]

/-- C148: the caller's task comes to its accept loop, and from then on every client of the plain port is served. It is
accepted when it comes, and if it does not keep the server waiting its connection comes to its end, with an answer or a
panic if no write of it fails. -/
theorem C148_served (cfg : BootCfg) (hp : PortsDiffer cfg) (sv : PServer W) (log : List (PReg W)) (hs : SetUp sv log)
    (allocOk : Nat → Bool) (halloc : ∀ k, allocOk k = true) (w0 : W) (workers : Nat) (σ : Nat → LifeEvent W)
    (hgo : CallerGoesOn σ) (hacc : ∀ n, σ n ≠ .happens (.acceptErr false)) (B : List Nat) (hB : B.length < workers)
    (fair : ∀ i, i ∉ B → FairLife cfg sv allocOk (Life.start w0 workers) σ i)
    (hends : ∀ n i tls s, i ∉ B → (clientsAt cfg sv allocOk (Life.start w0 workers) σ n)[i]? = some (tls, s) →
      ∀ req, Received sv.feat.faithful sv.feat.cookies s req → (requestProg sv.feat.urlVariables log req).Ends) :
    (∃ n0, ∀ n, n0 ≤ n → (lifeAt cfg sv allocOk (Life.start w0 workers) σ n).boot.main = .accepting) ∧
    ∀ n s, (lifeAt cfg sv allocOk (Life.start w0 workers) σ n).boot.main = .accepting →
      σ n = .happens (.connect false s) → Sent sv.feat.faithful sv.feat.cookies s →
      let i := (lifeAt cfg sv allocOk (Life.start w0 workers) σ n).proc.conns.length
      i ∉ B → (∀ m e, σ m = .happens e → Unharmed i e) →
      ∃ t m, LifeRemains cfg sv allocOk (Life.start w0 workers) σ i (· = t) m ∧
        ((∃ out, t = .finished out) ∨ t = .panicked) := by
  obtain ⟨n0, h0⟩ := C148_plain cfg hp sv allocOk halloc w0 workers σ hgo hacc
  have hfine := fun n => Life.fine_at (sv := sv) hp halloc w0 workers σ hgo.fine hacc n
  refine ⟨⟨n0, fun n hn => (h0 n hn).2.2.1⟩, ?_⟩
  intro n s hn he hsent i hi hu
  have hl : (lifeAt cfg sv allocOk (Life.start w0 workers) σ n).proc.plain = .listening := by
    cases hx : (lifeAt cfg sv allocOk (Life.start w0 workers) σ n).proc.plain with
    | listening => rfl
    | ended => exact absurd hx (hfine n).plain
    | off => exact absurd (.inl hn) ((Life.fits_at (sv := sv) (allocOk := allocOk) w0 workers σ n).plain.1 hx)
  have hc := C148_accepted cfg sv log hs allocOk w0 workers σ n false s (hfine n).alive hl he
  obtain ⟨t, m, -, h2, h3⟩ := C148_ends cfg sv log hs allocOk w0 workers σ (fun n => (hfine n).alive) B hB fair hends i
    (n + 1) false s hi hc hsent
  exact ⟨t, m, h2, h3 hu⟩

namespace LifeLiveExample
open LifeExample ParallelExample ProcessExample

/-- both listeners are opened, a client comes, and then everything has its turn again and again -/
def ever (n : Nat) : LifeEvent Nat :=
  if n < 8 then .boot (.main true)
  else if n < 15 then .boot (.tls true)
  else if n = 15 then .happens (.connect false asksP)
  else if n % 7 = 0 then .happens (.poll 0) else if n % 7 = 1 then .happens (.access 0)
  else if n % 7 = 2 then .happens (.finish 0) else if n % 7 = 3 then .happens (.write 0 5)
  else if n % 7 = 4 then .happens (.handshake 0 true) else if n % 7 = 5 then .boot (.main true) else .boot (.tls true)

theorem ever_again (n r : Nat) (hr : r < 7) : ∃ m, n ≤ m ∧ ever m =
    (if r = 0 then .happens (.poll 0) else if r = 1 then .happens (.access 0)
      else if r = 2 then .happens (.finish 0) else if r = 3 then .happens (.write 0 5)
      else if r = 4 then .happens (.handshake 0 true) else if r = 5 then .boot (.main true) else .boot (.tls true)) := by
  refine ⟨7 * (n + 3) + r, by omega, ?_⟩
  simp only [ever, if_neg (show ¬ 7 * (n + 3) + r < 8 by omega), if_neg (show ¬ 7 * (n + 3) + r < 15 by omega),
    if_neg (show ¬ 7 * (n + 3) + r = 15 by omega), show (7 * (n + 3) + r) % 7 = r by omega]

theorem ever_else (n : Nat) : ever n ≠ .boot (.main false) ∧ ever n ≠ .boot (.tls false) ∧
    (∀ tls, ever n ≠ .happens (.acceptErr tls)) ∧ (∀ e, ever n = .happens e → Unharmed 0 e) ∧
    (∀ tls s, ever n = .happens (.connect tls s) → n = 15) := by
  unfold ever
  repeat' split
  all_goals refine ⟨by simp, by simp, by simp, ?_, by simp <;> omega⟩
  all_goals intro e h; cases h <;> simp [Unharmed]

theorem goesOn : CallerGoesOn ever :=
  ⟨fun n => let ⟨m, hm, e⟩ := ever_again n 5 (by omega); ⟨m, hm, true, e⟩, fun n => (ever_else n).1⟩

theorem tlsGoesOn : TlsGoesOn ever :=
  ⟨fun n => let ⟨m, hm, e⟩ := ever_again n 6 (by omega); ⟨m, hm, true, e⟩, fun n => (ever_else n).2.1⟩

/-- the application at a time -/
def now (n : Nat) : Life Nat := lifeAt good (server sometimes) (fun _ => true) (Life.start 0 2) ever n

theorem differ : PortsDiffer good := by intro _ h; cases h

/-- the hypotheses of `C148_plain` and `C148_tls` -/
example : (∃ n, ∀ m, n ≤ m → (now m).proc.plain = .listening) ∧ ∃ n, ∀ m, n ≤ m → (now m).proc.tls = .listening := by
  obtain ⟨n, h⟩ := C148_plain good differ (server sometimes) (fun _ => true) (fun _ => rfl) 0 2 ever goesOn
    (fun n => (ever_else n).2.2.1 false)
  obtain ⟨n', h'⟩ := C148_tls good differ rfl rfl (server sometimes) (fun _ => true) (fun _ => rfl) 0 2 ever goesOn
    tlsGoesOn (fun n => (ever_else n).2.2.1)
  exact ⟨⟨n, fun m hm => (h m hm).2.2.2⟩, n', fun m hm => (h' m hm).2.2⟩

theorem few (n : Nat) : (now n).proc.conns.length ≤ 1 := by
  have hstep : ∀ n, (now (n + 1)).proc.conns.length =
      (now n).proc.conns.length + (if n = 15 then 1 else 0) ∨ (now (n + 1)).proc.conns.length = (now n).proc.conns.length := by
    intro n
    simp only [now, lifeAt_succ]
    generalize lifeAt good (server sometimes) (fun _ => true) (Life.start 0 2) ever n = y
    unfold Life.step
    split
    · exact .inr rfl
    · split
      · exact .inr rfl
      · rename_i e he
        rcases Life.kinds_step (sv := server sometimes) (allocOk := fun _ => true) y.proc e with h | ⟨tls, s, rfl, -, h⟩
        · right; simpa [Life.kinds] using congrArg List.length h
        · left
          rw [if_pos ((ever_else n).2.2.2.2 tls s he)]
          simpa [Life.kinds] using congrArg List.length h
  have : ∀ n, (now n).proc.conns.length ≤ if n ≤ 15 then 0 else 1 := by
    intro n
    induction n with
    | zero => simp [now, lifeAt, Life.start, Life.run]
    | succ n ih =>
      have := hstep n
      split at ih <;> split <;> grind
  have := this n
  split at this <;> omega

theorem free (n : Nat) : (now n).proc.free = true := by
  have h1 := few n
  have h2 : (now n).proc.workers = 2 := by
    obtain ⟨p, t, h⟩ := Life.foreseen (cfg := good) (sv := server sometimes) (allocOk := fun _ => true) 0 2 ever
    have h3 := atTime_workers (sv := server sometimes) (allocOk := fun _ => true) (Process.start 0 2 good.tls t p)
      (Life.shadowAt good (server sometimes) (fun _ => true) (Life.start 0 2) ever) n
    rw [Life.atTime_shadow 0 2 ever h n] at h3
    exact h3
  have := List.countP_le_length (p := fun c : PConn Nat => c.task.busy) (l := (now n).proc.conns)
  simp only [Process.free, h2]
  exact decide_eq_true (by omega)

theorem fair (i : Nat) :
    FairLife good (server sometimes) (fun _ => true) (Life.start 0 2) ever i := by
  have hno : ∀ P n, LifeRemains good (server sometimes) (fun _ => true) (Life.start 0 2) ever i P n → i = 0 := by
    intro P n h
    obtain ⟨c, hc, -⟩ := h n (Nat.le_refl n)
    have := (List.getElem?_eq_some_iff.1 hc).1
    have := few n
    simp only [now] at this
    omega
  constructor
  · intro n req reads upd h _
    rw [hno _ _ h]
    exact ever_again n 1 (by omega)
  · intro n req reads h _
    rw [hno _ _ h]
    exact ever_again n 2 (by omega)
  · intro _ n h
    rw [hno _ _ h]
    obtain ⟨m, hm, e⟩ := ever_again n 4 (by omega)
    exact ⟨m, hm, free m, true, e⟩
  · intro _ n h
    rw [hno _ _ h]
    obtain ⟨m, hm, e⟩ := ever_again n 0 (by omega)
    exact ⟨m, hm, free m, e⟩
  · intro _ n h
    rw [hno _ _ h]
    obtain ⟨m, hm, e⟩ := ever_again n 3 (by omega)
    exact ⟨m, hm, free m, .inr ⟨5, by omega, e⟩⟩

theorem comes : clientsAt good (server sometimes) (fun _ => true) (Life.start 0 2) ever 16 = [(false, asksP)] := by
  decide +kernel

theorem all_ends (n i : Nat) (tls : Bool) (s : Sock)
    (h : (clientsAt good (server sometimes) (fun _ => true) (Life.start 0 2) ever n)[i]? = some (tls, s)) (q : Request)
    (hq : Received true true s q) : (requestProg true [⟨.everywhere, sometimes⟩] q).Ends := by
  have hs : s = asksP := by
    have hm := List.mem_of_getElem? h
    obtain ⟨e, he, hc⟩ := List.mem_filterMap.1 hm
    have : ∀ (es : List (LifeEvent Nat)) (y : Life Nat) (e : Happening Nat),
        e ∈ happened good (server sometimes) (fun _ => true) y es → .happens e ∈ es := by
      intro es
      induction es with
      | nil => intro y e h; cases h
      | cons x es ih =>
        intro y e h
        cases x with
        | boot x => exact List.mem_cons_of_mem _ (ih _ e h)
        | happens x =>
          rw [happened] at h
          split at h
          · rcases List.mem_cons.1 h with rfl | h
            · exact List.mem_cons_self
            · exact List.mem_cons_of_mem _ (ih _ e h)
          · exact List.mem_cons_of_mem _ (ih _ e h)
    have hin := this _ _ _ he
    obtain ⟨k, -, hk⟩ := List.mem_map.1 hin
    cases e with
    | connect tls' s' =>
      cases hc
      have h15 := (ever_else k).2.2.2.2 _ _ hk
      subst h15
      simp [ever] at hk
      exact hk.2.symm
    | _ => cases hc
  subst hs
  obtain ⟨q0, n0, h0, _⟩ := receivedP
  exact endsP true q (C104_one_request rfl h0 hq receivedP).1

/-- the hypotheses of `C148_ends`, `C148_accepted` and `C148_served`, and so the client is answered -/
example : ∃ t m, LifeRemains good (server sometimes) (fun _ => true) (Life.start 0 2) ever 0 (· = t) m ∧
    ((∃ out, t = .finished out) ∨ t = .panicked) := by
  have h15 : (now 15).boot.main = .accepting ∧ (now 15).proc.conns.length = 0 := by decide +kernel
  have := (C148_served good differ (server sometimes) _ (setUp sometimes) (fun _ => true) (fun _ => rfl) 0 2 ever goesOn
    (fun n => (ever_else n).2.2.1 false) [] (by decide) (fun i _ => fair i) (fun n i tls s _ h => all_ends n i tls s h)).2
    15 asksP h15.1 rfl (.inl (by simp [asksP]))
  rw [show (lifeAt good (server sometimes) (fun _ => true) (Life.start 0 2) ever 15).proc.conns.length = 0 from h15.2]
    at this
  exact this (by simp) (fun m e h => (ever_else m).2.2.2.1 e h)

end LifeLiveExample

end Octane
