import Verif.Proof.Life
import Verif.Props.Startup
import Verif.Props.Config
import Verif.Props.Process
import Verif.Props.Handshake
/-
C144: the whole life of an application. C145: the callback and the clients. C146: clients after `listen` has
failed.
-/
namespace Octane
open Spec
universe u
variable {W : Type u}

/-- C144: whatever happens in an application, from the call of `listen` on, the shared state, the connections and
whether it has ended are those of the process (`Model/Process.lean`) with its listeners, in which
the same happens but for what cannot happen (nobody is accepted before the listener is open). -/
theorem C144_process (cfg : BootCfg) (sv : PServer W) (allocOk : Nat → Bool) (w0 : W) (workers : Nat)
    (evs : List (LifeEvent W)) :
    let y := (Life.start w0 workers).run cfg sv allocOk evs
    let now := happened cfg sv allocOk (Life.start w0 workers) evs
    let z := (Process.start w0 workers cfg.tls (y.boot.tls == .accepting) (y.boot.main == .accepting)).run sv allocOk now
    y.proc.world = z.world ∧ y.proc.conns = z.conns ∧ y.proc.dead = z.dead ∧ y.proc.workers = z.workers ∧
    taken (y.boot.main == .accepting) (cfg.tls && (y.boot.tls == .accepting)) now = now.filterMap Happening.client? := by
  intro y now z
  have hf := Life.fits_start (cfg := cfg) w0 workers
  have hfore := Life.foresees_self y.boot
  have hrun := Life.ahead_run evs hf hfore
  rw [Life.ahead_start] at hrun
  have hz : z = Life.ahead cfg (y.boot.main == .accepting) (y.boot.tls == .accepting) y.proc := hrun
  have ht := Life.taken_happened evs hf hfore
  rw [Life.ahead_start] at ht
  rw [hz]
  refine ⟨rfl, rfl, rfl, rfl, ?_⟩
  rw [show now.filterMap Happening.client? = _ from ht.symm]
  congr 1
  · simp only [Process.start]; cases (y.boot.main == .accepting) <;> rfl
  · simp only [Process.start]; cases cfg.tls <;> cases (y.boot.tls == .accepting) <;> rfl

/-- The environment happens in it as it happens, as long as the application has not ended. -/
theorem happened_env (cfg : BootCfg) (sv : PServer W) (allocOk : Nat → Bool) (evs : List (LifeEvent W)) (y : Life W)
    (hd : (y.run cfg sv allocOk evs).proc.dead = false) :
    (happened cfg sv allocOk y evs).filterMap Happening.env? =
      (evs.filterMap LifeEvent.happening?).filterMap Happening.env? := by
  induction evs generalizing y with
  | nil => rfl
  | cons e es ih =>
    have ha : y.proc.dead = false := Life.alive_of (e :: es) hd
    have ih := ih _ hd
    cases e with
    | boot e =>
      rw [happened, List.filterMap_cons_none (by rfl)]
      exact ih
    | happens e =>
      rw [happened]
      split
      · simp only [List.filterMap_cons, LifeEvent.happening?]
        rw [ih]
      · rename_i hc
        rw [ih]
        have : Happening.env? e = none := by
          cases e <;> first | rfl | (exact absurd ⟨ha, trivial⟩ hc)
        simp [LifeEvent.happening?, this]

/-- So everything proved of the process (C104 to C107) is true of the application; here C104: the shared state
is what one program for every connection whose request has been read makes of it, these taking turns,
and every client is sent what came of the program of the request in its own bytes. The clients are those that
came while their listener was open. -/
theorem C144_clients (cfg : BootCfg) (sv : PServer W) (log : List (PReg W)) (hs : SetUp sv log) (allocOk : Nat → Bool)
    (w0 : W) (workers : Nat) (evs : List (LifeEvent W))
    (hd : ((Life.start w0 workers).run cfg sv allocOk evs).proc.dead = false) :
    let y := ((Life.start w0 workers).run cfg sv allocOk evs).proc
    let clients := (happened cfg sv allocOk (Life.start w0 workers) evs).filterMap Happening.client?
    ∃ (pevs : List (PEvent W)) (order : List Nat),
      let z := SSys.run (requestProg sv.feat.urlVariables log) sv.write ⟨w0, workers, []⟩ pevs
      y.world = z.world ∧
      pevs.filterMap PEvent.env? = (evs.filterMap LifeEvent.happening?).filterMap Happening.env? ∧
      order.Nodup ∧ order.length = z.jobs.length ∧ order.length = (pevs.filterMap PEvent.arrive?).length ∧
      (∀ (j i : Nat), order[j]? = some i → ∃ tls s req, clients[i]? = some (tls, s) ∧
        (pevs.filterMap PEvent.arrive?)[j]? = some req ∧ Received sv.feat.faithful sv.feat.cookies s req) ∧
      y.conns.length = clients.length ∧
      ∀ (i : Nat) (c : PConn W), y.conns[i]? = some c → ∃ s, clients[i]? = some (c.tls, s) ∧
        StandsFor sv z order i s.bytes c.task := by
  obtain ⟨h1, h2, h3, h4, h5⟩ := C144_process cfg sv allocOk w0 workers evs
  have henv := happened_env cfg sv allocOk evs _ hd
  intro y clients
  rw [h3] at hd
  have := C104_process sv log hs allocOk w0 workers _ _ _ _ hd
  simp only [h5, henv] at this
  simp only [y, clients]
  rw [h1, h2]
  exact this

/-- Clients of the plain port are accepted after the callback has returned and the port was opened only. -/
theorem C144_plain (cfg : BootCfg) (sv : PServer W) (allocOk : Nat → Bool) (w0 : W) (workers : Nat)
    (evs : List (LifeEvent W)) :
    let y := (Life.start w0 workers).run cfg sv allocOk evs
    ∀ c ∈ y.proc.conns, c.tls = false → y.boot.main = .accepting ∧ y.boot.calls = 1 := by
  intro y c hc ht
  have hf := Life.fits_run (sv := sv) (allocOk := allocOk) (Life.fits_start (cfg := cfg) w0 workers) evs
  have hm := hf.plainClients c hc ht
  refine ⟨hm, ?_⟩
  have := hf.calls
  rw [hm] at this
  exact this

/-- Clients are accepted over TLS only when it is compiled in and the files last configured are good: the key
file and the certificate file the settings end with after any history of configuration calls. -/
theorem C144_tls {Key Cert : Type} (L : TlsLib Key Cert) (ops : List AppOp) (feature : Bool) (port : Nat) (sv : PServer W)
    (allocOk : Nat → Bool) (w0 : W) (workers : Nat) (evs : List (LifeEvent W)) :
    let settings := (ops.foldl runApp OctaneSettings.new).settings
    let y := (Life.start w0 workers).run (bootCfg L settings feature port) sv allocOk evs
    ∀ c ∈ y.proc.conns, c.tls = true → feature = true ∧
      ∃ kb cb key ks chain, L.file (lastWrite AppOp.key? [] ops) = some kb ∧ L.rsaKeys kb = some (key :: ks) ∧
        L.file (lastWrite AppOp.cert? [] ops) = some cb ∧ L.certs cb = some chain ∧ L.fits chain key = true := by
  intro settings y c hc ht
  have hf := Life.fits_run (sv := sv) (allocOk := allocOk)
    (Life.fits_start (cfg := bootCfg L settings feature port) w0 workers) evs
  have hm := hf.tlsClients c hc ht
  have hacc := hf.acceptor hm
  refine ⟨?_, ?_⟩
  · cases hfe : feature with
    | true => rfl
    | false =>
      have := hf.noTls (by simp [bootCfg, hfe])
      rw [hm] at this; cases this
  · have : ∃ chain key, L.rustlsAcceptor settings = .ok (some (chain, key)) := by
      simp only [bootCfg] at hacc
      cases ha : L.rustlsAcceptor settings with
      | panic => rw [ha] at hacc; cases hacc
      | ok a =>
        cases a with
        | none => rw [ha] at hacc; cases hacc
        | some a => exact ⟨a.1, a.2, rfl⟩
    obtain ⟨chain, key, ha⟩ := this
    obtain ⟨kb, cb, ks, h1, h2, h3, h4, h5⟩ := (C66_acceptor L settings chain key).1 ha
    have hh := C50_history ops
    exact ⟨kb, cb, key, ks, chain, by rw [← hh.2.1]; exact h1, h2, by rw [← hh.2.2.1]; exact h3, h4, h5⟩

/-- As long as it has not ended, the start-up of the application goes as in `Model/Startup.lean`, whatever its clients do
meanwhile, when the two ports are different: C64, C65 and C66 are true of it. -/
theorem C144_startup (cfg : BootCfg) (hp : Spec.PortsDiffer cfg) (sv : PServer W) (allocOk : Nat → Bool) (w0 : W)
    (workers : Nat) (evs : List (LifeEvent W))
    (hd : ((Life.start w0 workers).run cfg sv allocOk evs).proc.dead = false) :
    let y := (Life.start w0 workers).run cfg sv allocOk evs
    let b := Boot.run cfg (evs.filterMap LifeEvent.boot?)
    y.boot.main = b.main ∧ y.boot.tls = b.tls ∧ y.boot.calls = b.calls := by
  have h0 : Life.SameBoot cfg (Life.start w0 workers).boot Boot.init :=
    ⟨rfl, rfl, rfl, fun _ => ⟨rfl, rfl, rfl⟩⟩
  have hp' : cfg.tls = true → Boot.clash cfg = false := by
    intro ht
    have := hp ht
    unfold Boot.clash
    by_cases hx : cfg.port = cfg.sslPort
    · simp [this hx]
    · simp [hx]
  have := Life.sameBoot_run hp' evs h0 hd
  exact ⟨this.1, this.2, this.3⟩

/-- Of the settings only those of SSL count: keep-alive and the number of worker threads change nothing. -/
theorem C144_settings {Key Cert : Type} (L : TlsLib Key Cert) (s s' : OctaneConfig) (h : s.ssl = s'.ssl) (feature : Bool)
    (port : Nat) (sv : PServer W) (allocOk : Nat → Bool) (w0 : W) (workers : Nat) (evs : List (LifeEvent W)) :
    (Life.start w0 workers).run (bootCfg L s feature port) sv allocOk evs =
      (Life.start w0 workers).run (bootCfg L s' feature port) sv allocOk evs := by
  have : bootCfg L s feature port = bootCfg L s' feature port := by
    simp only [bootCfg, TlsLib.rustlsAcceptor, TlsLib.getKey, TlsLib.getCert, h]
  rw [this]

/-- A listener is open exactly as long as its task holds the port and no longer opens it; when accepting has failed, or opening,
the port is free. -/
theorem C144_ports (cfg : BootCfg) (sv : PServer W) (allocOk : Nat → Bool) (w0 : W) (workers : Nat)
    (evs : List (LifeEvent W)) :
    let y := (Life.start w0 workers).run cfg sv allocOk evs
    (y.proc.plain = .listening → y.boot.main = .accepting ∧ y.boot.mainHas = true) ∧
    (y.proc.plain = .ended → y.boot.mainHas = false) ∧
    (y.proc.tls = .listening → y.boot.tls = .accepting ∧ y.boot.tlsHas = true) ∧
    (y.proc.tls = .ended → y.boot.tlsHas = false) := by
  intro y
  have hf := Life.fits_run (sv := sv) (allocOk := allocOk) (Life.fits_start (cfg := cfg) w0 workers) evs
  have hh := Life.holds_run (sv := sv) (allocOk := allocOk) (Life.fits_start (cfg := cfg) w0 workers)
    (Life.holds_start w0 workers) evs
  have hm : y.proc.plain ≠ .off → Life.MainOver y.boot.main := fun hn =>
    Classical.byContradiction fun hx => hn (hf.plain.2 hx)
  have ht : y.proc.tls ≠ .off → Life.TlsOver y.boot.tls := fun hn =>
    Classical.byContradiction fun hx => hn (hf.tls.2 hx)
  refine ⟨fun h => ⟨?_, hh.plain.2 (.inl h)⟩, fun h => ?_, fun h => ⟨?_, hh.tls.2 (.inl h)⟩, fun h => ?_⟩
  · rcases hm (by rw [h]; simp) with h' | h'
    · exact h'
    · have := hf.ended h'; rw [this] at h; cases h
  · cases hb : y.boot.mainHas with
    | false => rfl
    | true =>
      have hm := hm (by rw [h]; simp)
      rcases hh.plain.1 hb with h' | h' | h' | h'
      · have h'' : y.proc.plain = .listening := h'; rw [h] at h''; cases h''
      all_goals
        have h'' : y.boot.main = _ := h'
        rw [h''] at hm
        rcases hm with hm | hm | hm <;> cases hm
  · rcases ht (by rw [h]; simp) with h' | h'
    · exact h'
    · have := hf.tlsEnded h'; rw [this] at h; cases h
  · cases hb : y.boot.tlsHas with
    | false => rfl
    | true =>
      have ht := ht (by rw [h]; simp)
      rcases hh.tls.1 hb with h' | h' | h' | h' | h'
      · have h'' : y.proc.tls = .listening := h'; rw [h] at h''; cases h''
      all_goals
        have h'' : y.boot.tls = _ := h'
        rw [h''] at ht
        rcases ht with ht | ht | ht <;> cases ht

/-- When the TLS port last configured is the one given to `listen`, never both listeners are open. -/
theorem C144_one_port {Key Cert : Type} (L : TlsLib Key Cert) (ops : List AppOp) (feature : Bool) (port : Nat)
    (hp : lastWrite AppOp.port? 443 ops = port) (h0 : port ≠ 0) (sv : PServer W) (allocOk : Nat → Bool) (w0 : W)
    (workers : Nat) (evs : List (LifeEvent W)) :
    let settings := (ops.foldl runApp OctaneSettings.new).settings
    let y := (Life.start w0 workers).run (bootCfg L settings feature port) sv allocOk evs
    ¬ (y.proc.plain = .listening ∧ y.proc.tls = .listening) := by
  rintro settings y ⟨h1, h2⟩
  have hports := C144_ports (bootCfg L settings feature port) sv allocOk w0 workers evs
  have hh := Life.holds_run (sv := sv) (allocOk := allocOk)
    (Life.fits_start (cfg := bootCfg L settings feature port) w0 workers) (Life.holds_start w0 workers) evs
  refine hh.one ?_ ⟨(hports.1 h1).2, (hports.2.2.1 h2).2⟩
  have : settings.ssl.port = port := (C50_history ops).2.2.2.1.trans hp
  simp [Boot.clash, bootCfg, this, h0]

/-- The full claim of C145: nobody is accepted before the callback has been called. -/
def C145_statement : Prop :=
  ∀ (cfg : BootCfg) (sv : PServer Nat) (allocOk : Nat → Bool) (w0 workers : Nat) (evs : List (LifeEvent Nat)),
    let y := (Life.start w0 workers).run cfg sv allocOk evs
    y.proc.conns ≠ [] → y.boot.calls = 1

/-- C145 for clients of the plain port: they are accepted after the callback has been called, and has returned. -/
theorem C145_plain_partial (cfg : BootCfg) (sv : PServer W) (allocOk : Nat → Bool) (w0 : W) (workers : Nat)
    (evs : List (LifeEvent W)) :
    let y := (Life.start w0 workers).run cfg sv allocOk evs
    (∃ c ∈ y.proc.conns, c.tls = false) → y.boot.calls = 1 := by
  rintro y ⟨c, hc, ht⟩
  exact (C144_plain cfg sv allocOk w0 workers evs c hc ht).2

namespace Life

/-- the events that open the TLS listener, before the callback -/
def opensTls : List (LifeEvent W) := .boot (.main true) :: List.replicate 7 (.boot (.tls true))

theorem opensTls_run (cfg : BootCfg) (ht : cfg.tls = true) (ha : cfg.acceptor = .ok true) (sv : PServer W)
    (allocOk : Nat → Bool) (w0 : W) (workers : Nat) :
    (start w0 workers).run cfg sv allocOk opensTls =
      ⟨⟨0, .callback, .accepting, false, true⟩, ⟨w0, workers, .off, .listening, [], false⟩⟩ := by
  simp [run, opensTls, List.replicate, start, step, Boot.init, Boot.step, Boot.stepMain, Boot.stepTls, ht, ha,
    plainAfter, tlsAfter, Boot.succeeds, SysCall.next]

/-- the TLS listener is never open without both -/
theorem no_tls (cfg : BootCfg) (h : ¬ (cfg.tls = true ∧ cfg.acceptor = .ok true)) {y : Life W} (hf : Fits cfg y) :
    y.boot.tls ≠ .accepting := by
  intro hx
  refine h ⟨?_, hf.acceptor hx⟩
  cases ht : cfg.tls with
  | true => rfl
  | false =>
    have := hf.noTls ht
    rw [hx] at this; cases this

end Life

/-- When C145 is true: exactly when the TLS listener cannot open, because TLS is not compiled in or no acceptor
can be made of the configured files. -/
theorem C145_iff (cfg : BootCfg) (sv : PServer W) (allocOk : Nat → Bool) (w0 : W) (workers : Nat) :
    (∀ evs : List (LifeEvent W), let y := (Life.start w0 workers).run cfg sv allocOk evs
      y.proc.conns ≠ [] → y.boot.calls = 1) ↔ ¬ (cfg.tls = true ∧ cfg.acceptor = .ok true) := by
  constructor
  · rintro h ⟨ht, ha⟩
    have := h (Life.opensTls ++ [.happens (.connect true ⟨[], .eof⟩)])
    simp only [Life.run_append, Life.opensTls_run cfg ht ha] at this
    simp [Life.run, Life.step, Process.step, Process.listener, Life.release] at this
  · intro h evs y hy
    have hf := Life.fits_run (sv := sv) (allocOk := allocOk) (Life.fits_start (cfg := cfg) w0 workers) evs
    obtain ⟨c, hc⟩ := List.exists_mem_of_ne_nil _ hy
    cases hct : c.tls with
    | false => exact C145_plain_partial cfg sv allocOk w0 workers evs ⟨c, hc, hct⟩
    | true => exact absurd (hf.tlsClients c hc hct) (Life.no_tls cfg h hf)

/-- The full claim of C146: when `listen` has come to its end, because the port could not be opened, accepting failed or
the callback panicked, nobody is accepted any more. -/
def C146_statement : Prop :=
  ∀ (cfg : BootCfg) (sv : PServer Nat) (allocOk : Nat → Bool) (w0 workers : Nat) (evs es : List (LifeEvent Nat)),
    let y := (Life.start w0 workers).run cfg sv allocOk evs
    y.proc.plain = .ended → (y.run cfg sv allocOk es).proc.conns.length = y.proc.conns.length

namespace Life
variable {cfg : BootCfg} {sv : PServer W} {allocOk : Nat → Bool}

/-- the kinds of the connections, in order -/
def kinds (p : Process W) : List Bool := p.conns.map (·.tls)

theorem kinds_step (p : Process W) (e : Happening W) : kinds (p.step sv allocOk e) = kinds p ∨
    ∃ tls s, e = .connect tls s ∧ p.listener tls = .listening ∧ kinds (p.step sv allocOk e) = kinds p ++ [tls] := by
  have hset : ∀ (i : Nat) (c : PConn W) (t : PTask W) (s : Sock), p.conns[i]? = some c →
      (p.conns.set i { c with task := t, sock := s }).map (·.tls) = p.conns.map (·.tls) := by
    intro i c t s h
    apply List.ext_getElem?
    intro k
    simp only [List.getElem?_map, List.getElem?_set]
    split
    · rename_i hk
      subst hk
      rw [h]
      split <;> simp
      rename_i hl
      exact hl (List.getElem?_eq_some_iff.1 h).1
    · rfl
  cases hd : p.dead with
  | true => left; simp [Process.step, hd]
  | false =>
    cases e with
    | connect tls s =>
      by_cases hl : p.listener tls = .listening
      · exact .inr ⟨tls, s, rfl, hl, by simp [Process.step, hd, hl, kinds]⟩
      · left; simp [Process.step, hd, hl]
    | acceptErr tls =>
      left
      simp only [Process.step, hd]
      repeat' split
      all_goals first | rfl | simp_all
    | _ =>
      left
      simp only [Process.step, hd, kinds, Process.put]
      repeat' split
      all_goals first | rfl | (exact hset _ _ _ _ (by assumption)) | simp_all

/-- once the plain listener is over, it stays so -/
theorem ended_step {y : Life W} (hf : Fits cfg y) (h : y.proc.plain = .ended) (e : LifeEvent W) :
    (y.step cfg sv allocOk e).proc.plain = .ended := by
  unfold step
  split
  · exact h
  · cases e with
    | happens e =>
      rcases (listener_step (sv := sv) (allocOk := allocOk) y.proc e).1 with h' | ⟨h', _⟩
      · exact h'.trans h
      · rw [h] at h'; cases h'
    | boot e =>
      have hm : MainOver y.boot.main := by
        refine Classical.byContradiction fun hn => ?_
        rw [hf.plain.2 hn] at h; cases h
      simp only [main_over_step _ _ hm, plainAfter, if_true]
      exact h

theorem kinds_ended {y : Life W} (hf : Fits cfg y) (h : y.proc.plain = .ended) (es : List (LifeEvent W)) :
    ∃ k, kinds (y.run cfg sv allocOk es).proc = kinds y.proc ++ List.replicate k true := by
  induction es generalizing y with
  | nil => exact ⟨0, by simp [run]⟩
  | cons e es ih =>
    obtain ⟨k, hk⟩ := ih (fits_step hf e) (ended_step (sv := sv) (allocOk := allocOk) hf h e)
    rw [run_cons, hk]
    have : kinds (y.step cfg sv allocOk e).proc = kinds y.proc ∨
        kinds (y.step cfg sv allocOk e).proc = kinds y.proc ++ [true] := by
      unfold step
      split
      · exact .inl rfl
      · cases e with
        | boot e => exact .inl rfl
        | happens e =>
          rcases kinds_step (sv := sv) (allocOk := allocOk) y.proc e with h' | ⟨tls, s, rfl, hl, h'⟩
          · exact .inl h'
          · cases tls with
            | true => exact .inr h'
            | false =>
              have hl : y.proc.plain = .listening := hl
              rw [h] at hl; cases hl
    rcases this with h' | h'
    · exact ⟨k, by rw [h']⟩
    · exact ⟨k + 1, by rw [h', List.append_assoc]; rfl⟩

end Life

/-- C146 for the plain port: when `listen` has come to its end, only TLS clients can still be added to those
accepted. -/
theorem C146_plain_partial (cfg : BootCfg) (sv : PServer W) (allocOk : Nat → Bool) (w0 : W) (workers : Nat)
    (evs es : List (LifeEvent W)) :
    let y := (Life.start w0 workers).run cfg sv allocOk evs
    y.proc.plain = .ended →
      ∃ k, (y.run cfg sv allocOk es).proc.conns.map (·.tls) = y.proc.conns.map (·.tls) ++ List.replicate k true := by
  intro y h
  exact Life.kinds_ended (Life.fits_run (Life.fits_start (cfg := cfg) w0 workers) evs) h es

/-- `listen` has come to its end in this sense when it has returned an error for the port or its callback has panicked,
and when accepting has failed. -/
theorem C146_ends (cfg : BootCfg) (sv : PServer W) (allocOk : Nat → Bool) (w0 : W) (workers : Nat)
    (evs : List (LifeEvent W)) :
    let y := (Life.start w0 workers).run cfg sv allocOk evs
    (y.boot.main = .failed ∨ y.boot.main = .panicked → y.proc.plain = .ended) ∧
    (y.proc.dead = false → y.proc.plain = .listening →
      (y.step cfg sv allocOk (.happens (.acceptErr false))).proc.plain = .ended) := by
  intro y
  refine ⟨(Life.fits_run (Life.fits_start (cfg := cfg) w0 workers) evs).ended, ?_⟩
  intro hd hl
  simp [Life.step, hd, Process.step, Process.listener, hl]

/-- Only when the program ends nothing happens any more. -/
theorem C146_exit (cfg : BootCfg) (sv : PServer W) (allocOk : Nat → Bool) (w0 : W) (workers : Nat)
    (evs es : List (LifeEvent W)) :
    let y := (Life.start w0 workers).run cfg sv allocOk evs
    y.proc.plain = .ended →
      ((y.step cfg sv allocOk (.happens .exit)).run cfg sv allocOk es).proc.conns = y.proc.conns ∧
      ((y.step cfg sv allocOk (.happens .exit)).run cfg sv allocOk es).proc.world = y.proc.world := by
  intro y h
  have hd : (y.step cfg sv allocOk (.happens .exit)).proc.dead = true := by
    unfold Life.step
    split
    · assumption
    · rename_i hx
      simp only [Process.step, if_neg hx, if_pos h]
  rw [Life.dead_run es hd]
  unfold Life.step
  split
  · exact ⟨rfl, rfl⟩
  · rename_i hx
    simp [Process.step, hx, h]

/-- When C146 is true: exactly when the TLS listener cannot open. -/
theorem C146_iff (cfg : BootCfg) (sv : PServer W) (allocOk : Nat → Bool) (w0 : W) (workers : Nat) :
    (∀ evs es : List (LifeEvent W), let y := (Life.start w0 workers).run cfg sv allocOk evs
      y.proc.plain = .ended → (y.run cfg sv allocOk es).proc.conns.length = y.proc.conns.length) ↔
    ¬ (cfg.tls = true ∧ cfg.acceptor = .ok true) := by
  constructor
  · rintro h ⟨ht, ha⟩
    have := h (Life.opensTls ++ [.boot (.main false)]) [.happens (.connect true ⟨[], .eof⟩)]
    simp only [Life.run_append, Life.opensTls_run cfg ht ha] at this
    simp [Life.run, Life.step, Process.step, Process.listener, Life.release, Boot.step, Boot.stepMain,
      Life.plainAfter, Life.tlsAfter] at this
  · intro h evs es y hy
    have hf := Life.fits_run (sv := sv) (allocOk := allocOk) (Life.fits_start (cfg := cfg) w0 workers) evs
    obtain ⟨k, hk⟩ := Life.kinds_ended (sv := sv) (allocOk := allocOk) hf hy es
    have hf' := Life.fits_run (sv := sv) (allocOk := allocOk) hf es
    have hk0 : k = 0 := by
      cases k with
      | zero => rfl
      | succ k =>
        have hm : true ∈ Life.kinds (y.run cfg sv allocOk es).proc := by rw [hk]; simp [List.replicate_succ]
        obtain ⟨c, hc, hct⟩ := List.mem_map.1 hm
        exact absurd (hf'.tlsClients c hc hct) (Life.no_tls cfg h hf')
    subst hk0
    have := congrArg List.length hk
    simpa [Life.kinds] using this

namespace LifeExample
open ParallelExample ProcessExample

/-- an application with TLS and good files -/
def good : BootCfg := ⟨80, 443, true, .ok true⟩

/-- a TLS client that is accepted and answered before the callback has been called -/
def early : List (LifeEvent Nat) :=
  Life.opensTls ++ [.happens (.connect true asksP), .happens (.handshake 0 true), .happens (.poll 0), .happens (.finish 0),
    .happens (.write 0 1000)]

/-- has the whole answer been sent? -/
def answered (c : PConn Nat) : Bool :=
  match c.task with
  | .finished sent => sent != []
  | _ => false

/-- it has its whole answer, and the callback has not been called -/
theorem early_run : let y := (Life.start 0 2).run good (server sometimes) (fun _ => true) early
    y.boot.calls = 0 ∧ y.boot.main = .callback ∧ y.proc.dead = false ∧ y.proc.conns.map answered = [true] := by
  decide +kernel

end LifeExample

open LifeExample ParallelExample ProcessExample

/-- The full claim is false: a TLS client can be accepted, and has been answered in `LifeExample.early`, before the
callback is called. -/
theorem C145_counterexample : ¬ C145_statement := by
  intro h
  have h1 := early_run
  have := h good (server sometimes) (fun _ => true) 0 2 early
    (by intro hx; have := h1.2.2.2; rw [hx] at this; cases this)
  rw [h1.1] at this
  cases this

namespace LifeExample

/-- the port of `listen` is taken; a TLS client comes after that, and is answered -/
def late : List (LifeEvent Nat) := Life.opensTls ++ List.replicate 3 (.boot (.main true)) ++ [.boot (.main false)]

def comes : List (LifeEvent Nat) :=
  [.happens (.connect true asksP), .happens (.handshake 0 true), .happens (.poll 0), .happens (.finish 0), .happens (.write 0 1000)]

theorem late_run : let y := (Life.start 0 2).run good (server sometimes) (fun _ => true) late
    y.boot.main = .failed ∧ y.proc.plain = .ended ∧ y.proc.conns.map answered = [] ∧
    (y.run good (server sometimes) (fun _ => true) comes).proc.conns.map answered = [true] := by
  decide +kernel

end LifeExample

/-- The full claim is false: after `listen` has failed because its port is taken, a TLS client is accepted and
answered. -/
theorem C146_counterexample : ¬ C146_statement := by
  intro h
  obtain ⟨h1, h2, h3, h4⟩ := late_run
  have := h good (server sometimes) (fun _ => true) 0 2 late comes h2
  have e1 := congrArg List.length h3
  have e2 := congrArg List.length h4
  simp only [List.length_map] at e1 e2
  rw [e1, e2] at this
  cases this

namespace LifeExample

/-- an application whose two ports open, with a plain client that comes too early, one that comes in time, and
a TLS client -/
def day : List (LifeEvent Nat) :=
  Life.opensTls ++ [.happens (.connect false asksH), .happens (.env (· + 5))] ++ List.replicate 7 (.boot (.main true)) ++
    [.happens (.connect false asksP), .happens (.connect true asksP), .happens (.poll 0), .happens (.finish 0),
     .happens (.write 0 1000)]

/-- `C144_process`, `C144_clients`, `C144_plain`, `C144_startup`: the first client is not accepted, the other two are, and
the plain one of them is answered -/
example : let y := (Life.start 0 2).run good (server sometimes) (fun _ => true) day
    y.proc.dead = false ∧ y.boot.main = .accepting ∧ y.boot.calls = 1 ∧ y.proc.world = 5 ∧
    y.proc.conns.map (·.tls) = [false, true] ∧ y.proc.conns.map answered = [true, false] := by
  decide +kernel

example : (happened good (server sometimes) (fun _ => true) (Life.start 0 2) day).filterMap Spec.Happening.client? =
    [(false, asksP), (true, asksP)] := by
  decide +kernel

example : SetUp (server sometimes) [⟨.everywhere, sometimes⟩] := setUp sometimes

example : Spec.PortsDiffer good := by intro _ h; cases h

/-- `C144_tls`: a history that ends with good files, and a library that takes them -/
def files : TlsLib Nat Nat :=
  ⟨fun p => if p = c!"k" then some [1] else if p = c!"c" then some [2] else none,
    fun b => if b = [1] then some [7, 8] else none, fun b => if b = [2] then some [5] else none, fun _ k => k == 7⟩

example :
    let settings := ([AppOp.ssl 443 [], .withSslConfig ⟨c!"k", c!"c", 1⟩].foldl runApp OctaneSettings.new).settings
    let y := (Life.start 0 2).run (bootCfg files settings true 80) (server sometimes) (fun _ => true) early
    y.proc.conns.map (·.tls) = [true] ∧ y.proc.conns.map answered = [true] := by
  decide +kernel

/-- `C144_ports`: a plain listener whose accepting fails gives its port up, and the TLS listener opens on the same
port then -/
example :
    let cfg : BootCfg := ⟨443, 443, true, .ok true⟩
    let y := (Life.start 0 2).run cfg (server sometimes) (fun _ => true) (List.replicate 8 (.boot (.main true)))
    let y' := y.run cfg (server sometimes) (fun _ => true)
      (.happens (.acceptErr false) :: List.replicate 7 (.boot (.tls true)))
    y.proc.plain = .listening ∧ y.boot.mainHas = true ∧ y'.proc.plain = .ended ∧ y'.boot.mainHas = false ∧
    y'.proc.tls = .listening ∧ y'.boot.tlsHas = true := by
  decide +kernel

/-- `C144_one_port`: without a call of `ssl` the TLS port is 443 -/
example : lastWrite AppOp.port? 443 [.setKeepalive 7] = 443 := by decide

/-- `C144_settings`: settings with other threads and keep-alive -/
example : (⟨none, ⟨c!"k", c!"c", 443⟩, some 3⟩ : OctaneConfig).ssl = (⟨some 7, ⟨c!"k", c!"c", 443⟩, none⟩ : OctaneConfig).ssl := rfl

/-- `C145_iff`, `C146_iff`: both sides have cases -/
example : good.tls = true ∧ good.acceptor = .ok true := ⟨rfl, rfl⟩
example : ¬ ((⟨80, 443, true, .ok false⟩ : BootCfg).tls = true ∧ (⟨80, 443, true, .ok false⟩ : BootCfg).acceptor = .ok true) := by
  simp

/-- `C146_plain_partial`, `C146_ends`, `C146_exit`: one TLS client is added, and none after the end -/
example : let y := (Life.start 0 2).run good (server sometimes) (fun _ => true) late
    y.proc.plain = .ended ∧ (y.run good (server sometimes) (fun _ => true) comes).proc.conns.map (·.tls) = [true] ∧
    ((y.step good (server sometimes) (fun _ => true) (.happens .exit)).run good (server sometimes) (fun _ => true) comes).proc.conns.map
      (·.tls) = [] := by
  decide +kernel

end LifeExample

end Octane
