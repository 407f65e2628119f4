import Verif.Model.Startup
/-
C64 to C66: the start-up of the server, over every interleaving of the two tasks and every behaviour of
the operating system.
-/
namespace Octane
open Boot

/-! ### Lemmas -/

theorem Boot.run_snoc (cfg : BootCfg) (evs : List BootEvent) (e : BootEvent) :
    run cfg (evs ++ [e]) = step cfg (run cfg evs) e := by
  simp [run, List.foldl_append]

theorem Boot.run_induct {cfg : BootCfg} {P : Boot → Prop} (h0 : P init)
    (hs : ∀ b e, P b → P (step cfg b e)) (evs : List BootEvent) : P (run cfg evs) := by
  unfold run
  generalize init = b at h0
  induction evs generalizing b with
  | nil => exact h0
  | cons e evs ih => exact ih _ (hs b e h0)

/-- invariant tying the number of calls and the port to the place of the caller's task -/
def Boot.MainInv (b : Boot) : Prop :=
  match b.main with
  | .begin | .callback => b.calls = 0 ∧ b.mainHas = false
  | .opening c => b.calls = 1 ∧ (b.mainHas = true ↔ c ∈ [SysCall.listen, .reuse, .fromStd])
  | .accepting => b.calls = 1 ∧ b.mainHas = true
  | .failed | .panicked => b.calls = 1 ∧ b.mainHas = false

theorem Boot.mainInv_stepTls (cfg : BootCfg) (b : Boot) (ok : Bool) :
    (stepTls cfg b ok).main = b.main ∧ (stepTls cfg b ok).calls = b.calls ∧
      (stepTls cfg b ok).mainHas = b.mainHas := by
  unfold stepTls
  split
  · split <;> simp
  · split <;> simp
  · simp

theorem Boot.mainInv (cfg : BootCfg) (evs : List BootEvent) : MainInv (run cfg evs) := by
  apply run_induct
  · simp [MainInv, init]
  · intro b e hb
    cases e with
    | tls ok =>
      obtain ⟨h1, h2, h3⟩ := mainInv_stepTls cfg b ok
      unfold MainInv at hb ⊢
      simp only [step, h1, h2, h3]
      exact hb
    | main ok =>
      obtain ⟨calls, m, t, mh, th⟩ := b
      cases m with
      | opening c =>
        simp only [step, stepMain]
        cases c <;> simp only [MainInv] at hb <;> obtain ⟨h1, h2⟩ := hb <;> subst h1 <;>
          split <;> simp_all [MainInv, SysCall.next]
      | callback => cases ok <;> simp_all [step, stepMain, MainInv]
      | _ => simp_all [step, stepMain, MainInv]

/-! ## C64 -/

/-- The event `e` is the one at which the callback is called. -/
def Spec.CallsBack (cfg : BootCfg) (evs : List BootEvent) (e : BootEvent) : Prop :=
  (run cfg (evs ++ [e])).calls ≠ (run cfg evs).calls

/-- The full claim of C64: the callback is called at most once, and when it is called the port is open. -/
def C64_statement : Prop :=
  ∀ (cfg : BootCfg) (evs : List BootEvent), (run cfg evs).calls ≤ 1 ∧
    ∀ e, Spec.CallsBack cfg evs e → (run cfg evs).mainHas = true

/-- C64 without the second half: in every execution the callback is called at most once; it has been
called when the server accepts, and also when opening the port failed. -/
theorem C64_once_partial (cfg : BootCfg) (evs : List BootEvent) :
    (run cfg evs).calls ≤ 1 ∧
      ((run cfg evs).main = .accepting ∨ (run cfg evs).main = .failed → (run cfg evs).calls = 1) := by
  have h := Boot.mainInv cfg evs
  generalize run cfg evs = b at h ⊢
  obtain ⟨calls, m, t, mh, th⟩ := b
  cases m <;> simp_all [MainInv]

/-- Whenever the callback is called, the port is not open yet, and it still can happen that it never
will be. -/
theorem C64_too_early (cfg : BootCfg) (evs : List BootEvent) (e : BootEvent)
    (h : Spec.CallsBack cfg evs e) :
    (run cfg evs).mainHas = false ∧ (run cfg (evs ++ [e])).mainHas = false ∧
      ∃ more, ∀ more', (run cfg (evs ++ [e] ++ more ++ more')).main ∈ [.failed, .panicked] := by
  have inv := Boot.mainInv cfg evs
  unfold Spec.CallsBack at h
  rw [run_snoc] at h
  have stay : ∀ (l : List BootEvent) (b : Boot), b.main ∈ [MainAt.failed, .panicked] →
      (l.foldl (step cfg) b).main ∈ [MainAt.failed, .panicked] := by
    intro l
    induction l with
    | nil => intro b hb; exact hb
    | cons e l ih =>
      intro b hb
      refine ih _ ?_
      cases e with
      | tls ok => simpa only [step, (mainInv_stepTls cfg b ok).1] using hb
      | main ok =>
        simp only [List.mem_cons, List.not_mem_nil, or_false] at hb
        rcases hb with hb | hb <;> simp [step, stepMain, hb]
  have happ : ∀ l, run cfg (evs ++ l) = l.foldl (step cfg) (run cfg evs) := by
    intro l; simp [run, List.foldl_append]
  refine ⟨?_, ?_, [.main false], ?_⟩
  · generalize run cfg evs = b at h inv
    cases e with
    | tls ok => exact absurd (mainInv_stepTls cfg b ok).2.1 h
    | main ok =>
      obtain ⟨calls, m, t, mh, th⟩ := b
      cases m with
      | callback => exact inv.2
      | opening c => simp only [step, stepMain] at h; split at h <;> simp at h
      | _ => simp [step, stepMain] at h
  · rw [run_snoc]
    generalize run cfg evs = b at h inv
    cases e with
    | tls ok => exact absurd (mainInv_stepTls cfg b ok).2.1 h
    | main ok =>
      obtain ⟨calls, m, t, mh, th⟩ := b
      cases m with
      | callback => exact inv.2
      | opening c => simp only [step, stepMain] at h; split at h <;> simp at h
      | _ => simp [step, stepMain] at h
  · intro more'
    rw [List.append_assoc, List.append_assoc, happ, List.foldl_append, List.foldl_append]
    apply stay
    generalize run cfg evs = b at h inv
    cases e with
    | tls ok => exact absurd (mainInv_stepTls cfg b ok).2.1 h
    | main ok =>
      obtain ⟨calls, m, t, mh, th⟩ := b
      cases m with
      | callback => cases ok <;> simp [step, stepMain, succeeds]
      | opening c => simp only [step, stepMain] at h; split at h <;> simp at h
      | _ => simp [step, stepMain] at h

theorem C64_counterexample : ¬ C64_statement := by
  intro h
  have h1 := (h ⟨8080, 443, false, .ok true⟩ [.main true]).2 (.main true) (by unfold Spec.CallsBack; decide)
  exact absurd h1 (by decide)

example : Spec.CallsBack ⟨8080, 443, true, .ok true⟩ [.main true, .tls true] (.main true) := by
  unfold Spec.CallsBack; decide
example : (run ⟨8080, 443, false, .ok true⟩ (List.replicate 8 (.main true))).main = .accepting := by decide
example : (run ⟨8080, 443, false, .ok true⟩ [.main true, .main true, .main true, .main true, .main false]).main =
    .failed := by decide

/-! ## C65 -/

/-- what the operating system answered to the caller's task, in order (the first answer is not looked
at, the second is the callback, then come the calls that open the port) -/
def Spec.mainAnswers (evs : List BootEvent) : List Bool :=
  evs.filterMap fun | .main ok => some ok | .tls _ => none

/-- the two listeners do not want the same port -/
def Spec.PortsDiffer (cfg : BootCfg) : Prop := cfg.tls = true → cfg.port = cfg.sslPort → cfg.port = 0

/-- The full claim of C65: whether the plain listener opens depends on the answers to its own calls
only: if all succeed it opens, whatever happens to the TLS listener. -/
def C65_statement : Prop :=
  ∀ (cfg : BootCfg) (evs : List BootEvent) (l : List Bool),
    Spec.mainAnswers evs = List.replicate 8 true ++ l → (run cfg evs).main = .accepting

/-- without a TLS feature the TLS task is never there -/
theorem Boot.tls_off {cfg : BootCfg} (h : cfg.tls = false) (evs : List BootEvent) :
    (run cfg evs).tls = .off ∧ (run cfg evs).tlsHas = false := by
  apply run_induct (P := fun b => b.tls = .off ∧ b.tlsHas = false)
  · simp [init]
  · rintro ⟨calls, m, t, mh, th⟩ e ⟨h1, h2⟩
    simp only at h1 h2
    subst h1 h2
    cases e with
    | tls ok => simp [step, stepTls]
    | main ok =>
      cases m with
      | opening c => simp only [step, stepMain]; split <;> simp
      | _ => simp [step, stepMain, h]

/-- what the caller's task does when it is alone -/
def Boot.mainAlone (oks : List Bool) : MainAt × Bool :=
  match oks with
  | [] => (.begin, false)
  | _ :: oks => match oks with
    | [] => (.callback, false)
    | false :: _ => (.panicked, false)
    | true :: oks => go .socket false oks
where
  go (c : SysCall) (has : Bool) : List Bool → MainAt × Bool
    | [] => (.opening c, has)
    | false :: _ => (.failed, false)
    | true :: oks => match c.next with
      | some c' => go c' (has || c == .bind) oks
      | none => (.accepting, true)

theorem Boot.run_alone {cfg : BootCfg} (h : Spec.PortsDiffer cfg) (evs : List BootEvent) :
    ((run cfg evs).main, (run cfg evs).mainHas) = mainAlone (Spec.mainAnswers evs) := by
  -- a step of the caller's task never meets a clash
  have nc : ∀ evs c ok, succeeds cfg (run cfg evs).tlsHas c ok = ok := by
    intro evs c ok
    unfold succeeds
    cases ht : cfg.tls with
    | false => simp [(tls_off ht evs).2]
    | true =>
      have : clash cfg = false := by
        unfold clash
        by_cases hp : cfg.port = cfg.sslPort
        · simp [h ht hp]
        · simp [hp]
      simp [this]
  -- extend one event at a time
  have goSnoc : ∀ oks c has ok, mainAlone.go c has (oks ++ [ok]) =
      (match mainAlone.go c has oks with
        | (.opening c', has') =>
          if ok then ((match c'.next with | some c'' => .opening c'' | none => .accepting),
            has' || c' == .bind || c' == .fromStd)
          else (.failed, false)
        | r => r) := by
    intro oks
    induction oks with
    | nil => intro c has ok; cases ok <;> cases c <;> cases has <;> rfl
    | cons o oks ih =>
      intro c has ok
      cases o with
      | false => rfl
      | true =>
        simp only [List.cons_append, mainAlone.go]
        cases hn : c.next with
        | none => rfl
        | some c' => simp only [ih]
  have goInv : ∀ oks c has, (has = true ↔ c ∈ [SysCall.listen, .reuse, .fromStd]) →
      ∀ c' has', mainAlone.go c has oks = (.opening c', has') →
        (has' = true ↔ c' ∈ [SysCall.listen, .reuse, .fromStd]) := by
    intro oks
    induction oks with
    | nil => intro c has h c' has' e; simp only [mainAlone.go, Prod.mk.injEq, MainAt.opening.injEq] at e; obtain ⟨rfl, rfl⟩ := e; exact h
    | cons o oks ih =>
      intro c has h c' has' e
      cases o with
      | false => simp [mainAlone.go] at e
      | true =>
        simp only [mainAlone.go] at e
        cases hn : c.next with
        | none => simp [hn] at e
        | some c'' =>
          simp only [hn] at e
          refine ih c'' _ ?_ c' has' e
          cases c <;> simp_all [SysCall.next] <;> subst hn <;> simp
  have goNot : ∀ oks c has, (mainAlone.go c has oks).1 ≠ .begin ∧ (mainAlone.go c has oks).1 ≠ .callback := by
    intro oks
    induction oks with
    | nil => intro c has; simp [mainAlone.go]
    | cons o oks ih =>
      intro c has
      cases o with
      | false => simp [mainAlone.go]
      | true =>
        simp only [mainAlone.go]
        cases c.next with
        | none => simp
        | some c' => exact ih c' _
  have rev : ∀ n (evs : List BootEvent), evs.length = n →
      ((run cfg evs).main, (run cfg evs).mainHas) = mainAlone (Spec.mainAnswers evs) := by
    intro n
    induction n with
    | zero => intro evs hl; rw [List.length_eq_zero_iff.1 hl]; rfl
    | succ n ih =>
      intro evs hl
      have hne : evs ≠ [] := by rintro rfl; simp at hl
      rw [← List.dropLast_concat_getLast hne]
      generalize hd : evs.dropLast = ds
      have hdl : ds.length = n := by rw [← hd]; simp; omega
      have ihd := ih ds hdl
      have inv := Boot.mainInv cfg ds
      have ncd := nc ds
      rw [run_snoc]
      cases evs.getLast hne with
      | tls ok =>
        obtain ⟨h1, -, h3⟩ := mainInv_stepTls cfg (run cfg ds) ok
        have : Spec.mainAnswers (ds ++ [.tls ok]) = Spec.mainAnswers ds := by
          simp [Spec.mainAnswers, List.filterMap_append]
        simp only [step, h1, h3, this]
        exact ihd
      | main ok =>
        have : Spec.mainAnswers (ds ++ [.main ok]) = Spec.mainAnswers ds ++ [ok] := by
          simp [Spec.mainAnswers, List.filterMap_append]
        rw [this]
        generalize Spec.mainAnswers ds = oks at ihd
        generalize run cfg ds = b at ihd inv ncd
        obtain ⟨calls, m, t, mh, th⟩ := b
        simp only at ihd ncd
        match oks, ihd with
        | [], ihd => simp only [mainAlone, Prod.mk.injEq] at ihd; obtain ⟨rfl, rfl⟩ := ihd; rfl
        | [o], ihd =>
          simp only [mainAlone, Prod.mk.injEq] at ihd
          obtain ⟨rfl, rfl⟩ := ihd
          cases ok <;> rfl
        | o :: false :: oks, ihd =>
          simp only [mainAlone, Prod.mk.injEq] at ihd
          obtain ⟨rfl, rfl⟩ := ihd
          rfl
        | o :: true :: oks, ihd =>
          simp only [mainAlone, List.cons_append] at ihd ⊢
          rw [goSnoc]
          rw [← ihd]
          cases m with
          | opening c =>
            simp only [step, stepMain, ncd]
            cases ok with
            | false => simp
            | true =>
              have := goInv oks .socket false (by simp) c mh ihd.symm
              cases c <;> simp_all [SysCall.next]
          | begin => exact absurd (congrArg Prod.fst ihd).symm (goNot oks .socket false).1
          | callback => exact absurd (congrArg Prod.fst ihd).symm (goNot oks .socket false).2
          | _ => rfl
  exact rev _ evs rfl

/-- C65 when the ports differ (or no TLS feature is compiled in): the state of the plain listener is a
function of the answers to its own calls, in every interleaving, and is the same for every behaviour of
the TLS side, other TLS port, other key files, or no TLS at all. -/
theorem C65_independent_partial (cfg cfg' : BootCfg) (h : Spec.PortsDiffer cfg) (h' : Spec.PortsDiffer cfg')
    (evs evs' : List BootEvent) (he : Spec.mainAnswers evs = Spec.mainAnswers evs') :
    (run cfg evs).main = (run cfg' evs').main ∧ (run cfg evs).mainHas = (run cfg' evs').mainHas := by
  have e := run_alone h evs
  have e' := run_alone h' evs'
  rw [he, ← e', Prod.mk.injEq] at e
  exact e

/-- C65 when the ports differ: if the callback returns and the system grants every call, the plain
listener opens, whatever happens on the TLS side. -/
theorem C65_opens_partial (cfg : BootCfg) (h : Spec.PortsDiffer cfg) (evs : List BootEvent) (l : List Bool)
    (he : Spec.mainAnswers evs = List.replicate 8 true ++ l) :
    (run cfg evs).main = .accepting ∧ (run cfg evs).mainHas = true := by
  have e := run_alone h evs
  rw [he] at e
  have : mainAlone (List.replicate 8 true ++ l) = (.accepting, true) := rfl
  rw [this, Prod.mk.injEq] at e
  exact e

/-- how many calls come after this one -/
def Boot.callsAfter : SysCall → Nat
  | .socket => 5
  | .nonblocking => 4
  | .bind => 3
  | .listen => 2
  | .reuse => 1
  | .fromStd => 0

/-- C65 when the ports differ: `listen` returns an error exactly when one of the six calls that open
the plain port was refused after the ones before it were granted. -/
theorem C65_error_iff_partial (cfg : BootCfg) (h : Spec.PortsDiffer cfg) (evs : List BootEvent) :
    (run cfg evs).main = .failed ↔
      ∃ o j l, j < 6 ∧ Spec.mainAnswers evs = o :: true :: List.replicate j true ++ false :: l := by
  have e := congrArg Prod.fst (run_alone h evs)
  simp only at e
  rw [e]
  generalize Spec.mainAnswers evs = oks
  have go1 : ∀ n c has l, callsAfter c = n →
      ((mainAlone.go c has l).1 = .failed ↔ ∃ j l', j ≤ n ∧ l = List.replicate j true ++ false :: l') := by
    intro n
    induction n with
    | zero =>
      intro c has l hc
      cases c <;> cases hc
      match l with
      | [] => simp [mainAlone.go]
      | false :: l => simp only [mainAlone.go, true_iff]; exact ⟨0, l, by omega, rfl⟩
      | true :: l =>
        simp only [mainAlone.go, SysCall.next]
        constructor
        · intro h; cases h
        · rintro ⟨j, l', hj, e⟩
          obtain rfl : j = 0 := by omega
          simp at e
    | succ n ih =>
      intro c has l hc
      match l with
      | [] => simp [mainAlone.go]
      | false :: l => simp only [mainAlone.go, true_iff]; exact ⟨0, l, by omega, rfl⟩
      | true :: l =>
        have step : ∀ c', c.next = some c' → callsAfter c' = n → ((mainAlone.go c has (true :: l)).1 = .failed ↔
              ∃ j l', j ≤ n + 1 ∧ true :: l = List.replicate j true ++ false :: l') := by
          intro c' hn hc'
          simp only [mainAlone.go, hn]
          rw [ih c' _ l hc']
          constructor
          · rintro ⟨j, l', hj, rfl⟩
            exact ⟨j + 1, l', by omega, by simp [List.replicate_succ]⟩
          · rintro ⟨j, l', hj, e⟩
            cases j with
            | zero => simp at e
            | succ j =>
              rw [List.replicate_succ, List.cons_append, List.cons.injEq] at e
              exact ⟨j, l', by omega, e.2⟩
        cases c with
        | fromStd => cases hc
        | _ =>
          obtain rfl : _ = n := Nat.succ.inj hc
          exact step _ rfl rfl
  match oks with
  | [] => simp [mainAlone]
  | [o] => simp [mainAlone]
  | o :: false :: oks => simp [mainAlone]
  | o :: true :: oks =>
    simp only [mainAlone]
    rw [go1 5 .socket false oks rfl]
    constructor
    · rintro ⟨j, l', hj, rfl⟩; exact ⟨o, j, l', by omega, rfl⟩
    · rintro ⟨o', j, l', hj, e⟩
      simp only [List.cons_append, List.cons.injEq] at e
      exact ⟨j, l', by omega, e.2.2⟩

/-- With one port for both, never both listeners hold it: one of them does not open. -/
theorem C65_never_both (cfg : BootCfg) (hp : cfg.port = cfg.sslPort) (h0 : cfg.port ≠ 0)
    (evs : List BootEvent) : ¬ ((run cfg evs).mainHas = true ∧ (run cfg evs).tlsHas = true) := by
  have hc : clash cfg = true := by simp [clash, hp]; rw [← hp]; exact h0
  apply run_induct (P := fun b => ¬ (b.mainHas = true ∧ b.tlsHas = true))
  · simp [init]
  · rintro ⟨calls, m, t, mh, th⟩ e h
    cases e with
    | main ok =>
      cases m with
      | opening c => cases c <;> cases ok <;> cases mh <;> cases th <;> simp_all [step, stepMain, succeeds]
      | _ => simpa [step, stepMain] using h
    | tls ok =>
      cases t with
      | opening c => cases c <;> cases ok <;> cases mh <;> cases th <;> simp_all [step, stepTls, succeeds]
      | acceptor => simp only [step, stepTls]; split <;> simp_all
      | _ => simpa [step, stepTls] using h

/-- what the TLS task holds at each place -/
def Boot.TlsHolds : TlsAt → Bool → Prop
  | .off, h | .warned, h | .panicked, h => h = false
  | .opening c, h => (h = true ↔ c ∈ [SysCall.listen, .reuse, .fromStd])
  | .acceptor, h | .accepting, h => h = true

theorem Boot.tlsInv (cfg : BootCfg) (evs : List BootEvent) :
    ((run cfg evs).main = .begin → (run cfg evs).tls = .off) ∧
      TlsHolds (run cfg evs).tls (run cfg evs).tlsHas := by
  apply run_induct (P := fun b => (b.main = .begin → b.tls = .off) ∧ TlsHolds b.tls b.tlsHas)
  · simp [init, TlsHolds]
  · rintro ⟨calls, m, t, mh, th⟩ e ⟨h0, h⟩
    cases e with
    | main ok =>
      cases m with
      | begin =>
        have : t = .off := h0 rfl
        subst this
        have : th = false := h
        subst this
        refine ⟨by simp [step, stepMain], ?_⟩
        cases hc : cfg.tls <;> simp [step, stepMain, TlsHolds, hc]
      | callback => exact ⟨by cases ok <;> simp [step, stepMain], h⟩
      | opening c =>
        by_cases hs : succeeds cfg th c ok = true
        · refine ⟨?_, by simpa [step, stepMain, hs] using h⟩
          cases c <;> simp [step, stepMain, hs, SysCall.next]
        · exact ⟨by simp [step, stepMain, hs], by simpa [step, stepMain, hs] using h⟩
      | _ => exact ⟨h0, h⟩
    | tls ok =>
      cases t with
      | opening c =>
        refine ⟨fun hb => ?_, ?_⟩
        · have : m = .begin := by rw [← hb]; exact (mainInv_stepTls cfg ⟨calls, m, .opening c, mh, th⟩ ok).1.symm
          exact absurd (h0 this) nofun
        · by_cases hs : succeeds cfg mh c ok = true
          · simp only [TlsHolds] at h
            cases c <;> simp_all [step, stepTls, SysCall.next, TlsHolds]
          · simp [step, stepTls, hs, TlsHolds]
      | acceptor =>
        refine ⟨fun hb => ?_, ?_⟩
        · have : m = .begin := by rw [← hb]; exact (mainInv_stepTls cfg ⟨calls, m, .acceptor, mh, th⟩ ok).1.symm
          exact absurd (h0 this) nofun
        · have : th = true := h
          subst this
          rcases ha : cfg.acceptor with (_ | _) | _ <;> simp [step, stepTls, ha, TlsHolds]
      | _ => exact ⟨h0, h⟩

/-- In every execution, a listener that accepts holds its port, and a task that has ended (or was never
started) holds none: what it opened is closed. -/
theorem C65_ports (cfg : BootCfg) (evs : List BootEvent) :
    ((run cfg evs).main = .accepting → (run cfg evs).mainHas = true) ∧
    ((run cfg evs).main ∈ [.begin, .callback, .failed, .panicked] → (run cfg evs).mainHas = false) ∧
    ((run cfg evs).tls = .accepting → (run cfg evs).tlsHas = true) ∧
    ((run cfg evs).tls ∈ [.off, .warned, .panicked] → (run cfg evs).tlsHas = false) := by
  have hm := mainInv cfg evs
  unfold MainInv at hm
  have ht := (tlsInv cfg evs).2
  unfold TlsHolds at ht
  refine ⟨?_, ?_, ?_, ?_⟩
  · intro h; rw [h] at hm; exact hm.2
  · intro h
    simp only [List.mem_cons, List.not_mem_nil, or_false] at h
    rcases h with h | h | h | h <;> (rw [h] at hm; exact hm.2)
  · intro h; rw [h] at ht; exact ht
  · intro h
    simp only [List.mem_cons, List.not_mem_nil, or_false] at h
    rcases h with h | h | h <;> (rw [h] at ht; exact ht)

/-- So once the TLS task has ended, the plain listener opens even on the same port, if the system lets it. -/
theorem C65_after_tls (cfg : BootCfg) (evs : List BootEvent)
    (h : (run cfg evs).tls ∈ [.warned, .panicked]) (hm : (run cfg evs).main = .callback) :
    (run cfg (evs ++ List.replicate 7 (.main true))).main = .accepting := by
  have ht := (C65_ports cfg evs).2.2.2 (List.mem_cons_of_mem _ h)
  unfold run at *
  rw [List.foldl_append]
  generalize evs.foldl (step cfg) init = b at *
  obtain ⟨calls, m, t, mh, th⟩ := b
  simp only at hm ht
  subst hm ht
  simp [List.replicate, step, stepMain, succeeds, SysCall.next]

/-- The full claim is false: with the TLS port equal to the plain port, the TLS task may get the port
first, and then `listen` fails although the system refused nothing. -/
theorem C65_counterexample : ¬ C65_statement := by
  intro h
  have := h ⟨443, 443, true, .ok true⟩
    (.main true :: List.replicate 3 (.tls true) ++ List.replicate 7 (.main true)) [] rfl
  exact absurd this (by decide)

/-- In the same situation the other order serves plain HTTP: the outcome is a race. -/
theorem C65_race : (run ⟨443, 443, true, .ok true⟩
      (.main true :: List.replicate 3 (.tls true) ++ List.replicate 7 (.main true))).main = .failed ∧
    (run ⟨443, 443, true, .ok true⟩
      (List.replicate 8 (.main true) ++ List.replicate 3 (.tls true))).main = .accepting := by decide

example : Spec.PortsDiffer ⟨80, 443, true, .panic⟩ := by simp [Spec.PortsDiffer]
example : (run ⟨80, 443, true, .panic⟩ (.main true :: List.replicate 7 (.tls true) ++
    List.replicate 7 (.main true))) = ⟨1, .accepting, .panicked, true, false⟩ := by decide

/-- one port for both, and no good TLS configuration -/
example : (run ⟨80, 80, true, .ok false⟩ (.main true :: List.replicate 7 (.tls true))).tls = .warned ∧
    (run ⟨80, 80, true, .ok false⟩ (.main true :: List.replicate 7 (.tls true))).main = .callback := by decide

/-! ## C66 -/

section
variable {Key Cert : Type}

/-- The configured files give this certificate chain and this key: the first RSA key of the key file,
fitting the chain of the certificate file. -/
def Spec.TlsFiles (L : TlsLib Key Cert) (settings : OctaneConfig) (chain : List Cert) (key : Key) : Prop :=
  ∃ kb cb ks, L.file settings.ssl.key = some kb ∧ L.rsaKeys kb = some (key :: ks) ∧
    L.file settings.ssl.cert = some cb ∧ L.certs cb = some chain ∧ L.fits chain key = true

/-- The full claim of C66: TLS is served with exactly the configured key and certificates, and
anything wrong with them is reported as an error. -/
def C66_statement : Prop :=
  ∀ (Key Cert : Type) (L : TlsLib Key Cert) (settings : OctaneConfig),
    (∀ chain key, L.rustlsAcceptor settings = .ok (some (chain, key)) ↔
      Spec.TlsFiles L settings chain key) ∧
    ((∀ chain key, ¬ Spec.TlsFiles L settings chain key) → L.rustlsAcceptor settings = .ok none)

/-- C66, first half, for all files: the acceptor is made exactly from the configured files. -/
theorem C66_acceptor (L : TlsLib Key Cert) (settings : OctaneConfig) (chain : List Cert) (key : Key) :
    L.rustlsAcceptor settings = .ok (some (chain, key)) ↔ Spec.TlsFiles L settings chain key := by
  unfold Spec.TlsFiles TlsLib.rustlsAcceptor TlsLib.getKey TlsLib.getCert
  cases hk : L.file settings.ssl.key with
  | none => simp
  | some kb =>
    cases hr : L.rsaKeys kb with
    | none => simp [hr]
    | some ks =>
      cases ks with
      | nil => simp [hr]
      | cons k ks =>
        cases hc : L.file settings.ssl.cert with
        | none => simp [hr]
        | some cb =>
          cases hs : L.certs cb with
          | none => simp [hr, hs]
          | some chain' =>
            cases hf : L.fits chain' k with
            | false =>
              simp only [Option.bind_some, hr, hs, hf]
              constructor
              · intro h; simp at h
              · rintro ⟨kb', cb', ks', h1, h2, h3, h4, h5⟩
                simp only [Option.some.injEq] at h1 h3
                subst h1 h3
                rw [hr] at h2
                rw [hs] at h4
                simp only [Option.some.injEq, List.cons.injEq] at h2 h4
                obtain ⟨rfl, -⟩ := h2
                subst h4
                rw [hf] at h5
                cases h5
            | true =>
              simp only [Option.bind_some, hr, hs, hf, if_true, Res.ok.injEq, Option.some.injEq,
                Prod.mk.injEq]
              constructor
              · rintro ⟨rfl, rfl⟩
                exact ⟨kb, cb, ks, rfl, hr, rfl, hs, hf⟩
              · rintro ⟨kb', cb', ks', h1, h2, h3, h4, h5⟩
                subst h1 h3
                rw [hr] at h2
                rw [hs] at h4
                simp only [Option.some.injEq, List.cons.injEq] at h2 h4
                exact ⟨h4, h2.1⟩

/-- Making the acceptor panics exactly when the key file is readable and has no RSA key in it. -/
theorem C66_panic_iff (L : TlsLib Key Cert) (settings : OctaneConfig) :
    L.rustlsAcceptor settings = .panic ↔
      ∃ kb, L.file settings.ssl.key = some kb ∧ L.rsaKeys kb = some [] := by
  unfold TlsLib.rustlsAcceptor TlsLib.getKey
  cases hk : L.file settings.ssl.key with
  | none => simp
  | some kb =>
    cases hr : L.rsaKeys kb with
    | none => simp [hr]
    | some ks =>
      cases ks with
      | nil => simp [hr]
      | cons k ks =>
        simp only [Option.bind_some, hr]
        constructor
        · intro h
          split at h
          · cases h
          · split at h <;> cases h
        · rintro ⟨kb', h1, h2⟩
          injection h1 with h1
          subst h1
          rw [hr] at h2
          simp at h2

/-- C66, second half, when the key file is unreadable or malformed or has an RSA key: anything wrong
is an error. -/
theorem C66_error_partial (L : TlsLib Key Cert) (settings : OctaneConfig)
    (hk : ∀ kb, L.file settings.ssl.key = some kb → L.rsaKeys kb ≠ some [])
    (h : ∀ chain key, ¬ Spec.TlsFiles L settings chain key) : L.rustlsAcceptor settings = .ok none := by
  cases hr : L.rustlsAcceptor settings with
  | panic =>
    obtain ⟨kb, h1, h2⟩ := (C66_panic_iff L settings).1 hr
    exact absurd h2 (hk kb h1)
  | ok o =>
    cases o with
    | none => rfl
    | some p => exact absurd ((C66_acceptor L settings p.1 p.2).1 hr) (h _ _)

/-- With OpenSSL: the acceptor is made from the configured files or not at all, and nothing panics. -/
theorem C66_openssl (method : Bool) (useKey useChain : Str → Bool) (settings : OctaneConfig)
    (files : Str × Str) :
    opensslAcceptor method useKey useChain settings = some files ↔
      files = (settings.ssl.key, settings.ssl.cert) ∧ method = true ∧
        useKey settings.ssl.key = true ∧ useChain settings.ssl.cert = true := by
  unfold opensslAcceptor
  cases method <;> cases useKey settings.ssl.key <;> cases useChain settings.ssl.cert <;>
    simp [eq_comm]

/-- Without a good configuration no TLS connection is ever accepted: in no execution does the TLS task
get to its accept loop. -/
theorem C66_never_accepts (L : TlsLib Key Cert) (settings : OctaneConfig) (port : Nat) (tls : Bool)
    (hn : ∀ chain key, ¬ Spec.TlsFiles L settings chain key) (evs : List BootEvent) :
    (run ⟨port, settings.ssl.port, tls, (L.rustlsAcceptor settings).bind fun a => .ok a.isSome⟩
      evs).tls ≠ .accepting := by
  have h : ((L.rustlsAcceptor settings).bind fun a => Res.ok a.isSome) ≠ .ok true := by
    intro he
    cases hr : L.rustlsAcceptor settings with
    | panic => rw [hr] at he; cases he
    | ok o =>
      cases o with
      | none => rw [hr] at he; cases he
      | some p => exact hn _ _ ((C66_acceptor L settings p.1 p.2).1 hr)
  generalize (L.rustlsAcceptor settings).bind (fun a => Res.ok a.isSome) = acc at h
  apply run_induct (P := fun b => b.tls ≠ .accepting)
  · simp [init]
  · rintro ⟨calls, m, t, mh, th⟩ e hb
    cases e with
    | main ok =>
      cases m with
      | opening c => simp only [step, stepMain]; split <;> exact hb
      | begin => simp only [step, stepMain]; split <;> simp
      | _ => exact hb
    | tls ok =>
      cases t with
      | opening c =>
        simp only [step, stepTls]
        split
        · split <;> simp
        · simp
      | acceptor =>
        simp only [step, stepTls]
        split
        · contradiction
        · simp
        · simp
      | _ => exact hb

/-- what the operating system answered to the TLS task, in order: its steps after the caller's first
one, which spawns it -/
def Spec.tlsAnswers (evs : List BootEvent) : List Bool :=
  (evs.dropWhile fun | .main _ => false | .tls _ => true).filterMap fun | .main _ => none | .tls ok => some ok

/-- the TLS task alone -/
def Boot.tlsAlone (acc : Res Bool) : TlsAt → Bool → TlsAt
  | .opening c, true => match c.next with | some c' => .opening c' | none => .acceptor
  | .opening _, false => .warned
  | .acceptor, _ => match acc with | .ok true => .accepting | .ok false => .warned | .panic => .panicked
  | t, _ => t

theorem Boot.tls_of_main (cfg : BootCfg) (b : Boot) (ok : Bool) (h : b.main ≠ .begin) :
    (stepMain cfg b ok).tls = b.tls ∧ (stepMain cfg b ok).main ≠ .begin := by
  obtain ⟨calls, m, t, mh, th⟩ := b
  cases m with
  | begin => exact absurd rfl h
  | callback => cases ok <;> simp [stepMain]
  | opening c =>
    simp only [stepMain]
    split
    · cases c <;> simp [SysCall.next]
    · simp
  | _ => exact ⟨rfl, h⟩

theorem Boot.no_clash {cfg : BootCfg} (h : Spec.PortsDiffer cfg) (ht : cfg.tls = true) (b : Bool)
    (c : SysCall) (ok : Bool) : succeeds cfg b c ok = ok := by
  have : clash cfg = false := by
    unfold clash
    by_cases hp : cfg.port = cfg.sslPort
    · simp [h ht hp]
    · simp [hp]
  simp [succeeds, this]

theorem Boot.stepTls_alone {cfg : BootCfg} (h : Spec.PortsDiffer cfg) (ht : cfg.tls = true) (b : Boot)
    (ok : Bool) : (stepTls cfg b ok).tls = tlsAlone cfg.acceptor b.tls ok := by
  obtain ⟨calls, m, t, mh, th⟩ := b
  cases t with
  | opening c => cases ok <;> cases c <;> simp [stepTls, tlsAlone, no_clash h ht, SysCall.next]
  | acceptor => rcases ha : cfg.acceptor with (_ | _) | _ <;> simp [stepTls, tlsAlone, ha]
  | _ => rfl

theorem Boot.run_tls {cfg : BootCfg} (h : Spec.PortsDiffer cfg) (ht : cfg.tls = true)
    (evs : List BootEvent) (hm : ∃ ok, .main ok ∈ evs) :
    (run cfg evs).tls = (Spec.tlsAnswers evs).foldl (tlsAlone cfg.acceptor) (.opening .socket) := by
  have later : ∀ (evs : List BootEvent) (b : Boot), b.main ≠ .begin →
      (evs.foldl (step cfg) b).tls = (evs.filterMap fun
        | BootEvent.main _ => none | .tls ok => some ok).foldl (tlsAlone cfg.acceptor) b.tls := by
    intro evs
    induction evs with
    | nil => intro b _; rfl
    | cons e evs ih =>
      intro b hb
      cases e with
      | main ok =>
        obtain ⟨h1, h2⟩ := tls_of_main cfg b ok hb
        rw [List.foldl_cons, ih _ (by simpa [step] using h2)]
        simp [step, h1]
      | tls ok =>
        rw [List.foldl_cons, ih _ (by
          have := (mainInv_stepTls cfg b ok).1
          simpa only [step, this] using hb)]
        simp [step, stepTls_alone h ht]
  have first : ∀ evs : List BootEvent, (∃ ok, .main ok ∈ evs) →
      (evs.foldl (step cfg) init).tls =
        (Spec.tlsAnswers evs).foldl (tlsAlone cfg.acceptor) (.opening .socket) := by
    intro evs
    induction evs with
    | nil => rintro ⟨ok, h⟩; cases h
    | cons e evs ih =>
      rintro ⟨ok, hm⟩
      cases e with
      | main ok' =>
        rw [List.foldl_cons, later _ _ (by simp [step, stepMain, init])]
        simp [step, stepMain, init, ht, Spec.tlsAnswers]
      | tls ok' =>
        have : step cfg init (.tls ok') = init := rfl
        rw [List.foldl_cons, this, ih ⟨ok, by simpa using hm⟩]
        simp [Spec.tlsAnswers]
  exact first evs hm

theorem Boot.answers_shape : ∀ (n : Nat) (as : List Bool),
    (∃ j, j ≤ n ∧ as = List.replicate j true) ∨
    (∃ j l, j < n ∧ as = List.replicate j true ++ false :: l) ∨
    (∃ o l, as = List.replicate n true ++ o :: l)
  | _, [] => .inl ⟨0, Nat.zero_le _, rfl⟩
  | 0, o :: l => .inr (.inr ⟨o, l, rfl⟩)
  | n + 1, false :: l => .inr (.inl ⟨0, l, Nat.succ_pos _, rfl⟩)
  | n + 1, true :: l => by
    rcases answers_shape n l with ⟨j, hj, rfl⟩ | ⟨j, l', hj, rfl⟩ | ⟨o, l', rfl⟩
    · exact .inl ⟨j + 1, by omega, by simp [List.replicate_succ]⟩
    · exact .inr (.inl ⟨j + 1, l', by omega, by simp [List.replicate_succ]⟩)
    · exact .inr (.inr ⟨o, l', by simp [List.replicate_succ]⟩)

theorem Boot.tlsAlone_end (acc : Res Bool) (t : TlsAt) (ht : t ∈ [TlsAt.accepting, .warned, .panicked])
    (l : List Bool) : l.foldl (tlsAlone acc) t = t := by
  induction l with
  | nil => rfl
  | cons o l ih =>
    have : tlsAlone acc t o = t := by
      simp only [List.mem_cons, List.not_mem_nil, or_false] at ht
      rcases ht with rfl | rfl | rfl <;> rfl
    rw [List.foldl_cons, this, ih]

/-- The TLS task to the end, when the ports differ. It accepts exactly when the system granted the six
calls that open its port and the configured files are good; it ends with a warning exactly when a call
was refused or the files are bad but not in the way that panics; it panics exactly when the port was
opened and the key file has no RSA key in it. -/
theorem C66_task (L : TlsLib Key Cert) (settings : OctaneConfig) (port : Nat) (cfg : BootCfg)
    (hcfg : cfg = ⟨port, settings.ssl.port, true, (L.rustlsAcceptor settings).bind fun a => .ok a.isSome⟩)
    (hp : Spec.PortsDiffer cfg) (evs : List BootEvent) (hm : ∃ ok, .main ok ∈ evs) :
    let opened := ∃ o l, Spec.tlsAnswers evs = List.replicate 6 true ++ o :: l
    let refused := ∃ j l, j < 6 ∧ Spec.tlsAnswers evs = List.replicate j true ++ false :: l
    let good := ∃ chain key, Spec.TlsFiles L settings chain key
    let keyless := ∃ kb, L.file settings.ssl.key = some kb ∧ L.rsaKeys kb = some []
    ((run cfg evs).tls = .accepting ↔ opened ∧ good) ∧
    ((run cfg evs).tls = .warned ↔ refused ∨ opened ∧ ¬ good ∧ ¬ keyless) ∧
    ((run cfg evs).tls = .panicked ↔ opened ∧ keyless) := by
  intro opened refused good keyless
  have ht : cfg.tls = true := by rw [hcfg]
  rw [run_tls hp ht evs hm]
  have hacc : cfg.acceptor = (L.rustlsAcceptor settings).bind fun a => .ok a.isSome := by rw [hcfg]
  have hgood : good ↔ cfg.acceptor = .ok true := by
    rw [hacc]
    constructor
    · rintro ⟨chain, key, h⟩
      rw [(C66_acceptor L settings chain key).2 h]; rfl
    · intro h
      cases hr : L.rustlsAcceptor settings with
      | panic => rw [hr] at h; simp at h
      | ok a =>
        cases a with
        | none => rw [hr] at h; simp at h
        | some ck => exact ⟨ck.1, ck.2, (C66_acceptor L settings ck.1 ck.2).1 hr⟩
  have hkey : keyless ↔ cfg.acceptor = .panic := by
    rw [hacc]
    refine (C66_panic_iff L settings).symm.trans ?_
    cases hr : L.rustlsAcceptor settings <;> simp
  have onOpened : ∀ o l, (List.replicate 6 true ++ o :: l).foldl (tlsAlone cfg.acceptor) (.opening .socket) =
      (match cfg.acceptor with | .ok true => .accepting | .ok false => .warned | .panic => .panicked) := by
    intro o l
    have : (List.replicate 6 true).foldl (tlsAlone cfg.acceptor) (.opening .socket) = .acceptor := rfl
    rw [List.foldl_append, this, List.foldl_cons]
    rcases cfg.acceptor with (_ | _) | _ <;> exact tlsAlone_end _ _ (by simp [tlsAlone]) l
  have onRefused : ∀ j l, j < 6 →
      (List.replicate j true ++ false :: l).foldl (tlsAlone cfg.acceptor) (.opening .socket) = .warned := by
    intro j l hj
    rw [List.foldl_append, List.foldl_cons]
    have : ∃ c, (List.replicate j true).foldl (tlsAlone cfg.acceptor) (.opening .socket) = .opening c := by
      match j, hj with
      | 0, _ | 1, _ | 2, _ | 3, _ | 4, _ | 5, _ => exact ⟨_, rfl⟩
    obtain ⟨c, hc⟩ := this
    rw [hc]
    exact tlsAlone_end _ _ (by simp [tlsAlone]) l
  have onShort : ∀ j, j ≤ 6 →
      (List.replicate j true).foldl (tlsAlone cfg.acceptor) (.opening .socket) ∉
        [TlsAt.accepting, .warned, .panicked] := by
    intro j hj
    match j, hj with
    | 0, _ | 1, _ | 2, _ | 3, _ | 4, _ | 5, _ | 6, _ => simp [List.replicate, tlsAlone, SysCall.next]
  have key : ∀ t ∈ [TlsAt.accepting, .warned, .panicked],
      ((Spec.tlsAnswers evs).foldl (tlsAlone cfg.acceptor) (.opening .socket) = t ↔
        (refused ∧ t = .warned) ∨ (opened ∧ t = (match cfg.acceptor with
          | .ok true => TlsAt.accepting | .ok false => .warned | .panic => .panicked))) := by
    intro t htm
    constructor
    · intro h
      rcases answers_shape 6 (Spec.tlsAnswers evs) with ⟨j, hj, e⟩ | ⟨j, l, hj, e⟩ | ⟨o, l, e⟩
      · rw [e] at h; exact absurd (h ▸ htm) (onShort j hj)
      · rw [e, onRefused j l hj] at h; exact .inl ⟨⟨j, l, hj, e⟩, h.symm⟩
      · rw [e, onOpened o l] at h; exact .inr ⟨⟨o, l, e⟩, h.symm⟩
    · rintro (⟨⟨j, l, hj, e⟩, rfl⟩ | ⟨⟨o, l, e⟩, rfl⟩)
      · rw [e, onRefused j l hj]
      · rw [e, onOpened o l]
  refine ⟨?_, ?_, ?_⟩
  · rw [key _ (by simp), hgood]
    rcases cfg.acceptor with (_ | _) | _ <;> simp
  · rw [key _ (by simp), hgood, hkey]
    rcases cfg.acceptor with (_ | _) | _ <;> simp
  · rw [key _ (by simp), hkey]
    rcases cfg.acceptor with (_ | _) | _ <;> simp

/-- The full claim is false: a key file without an RSA key (for example a PKCS#8 key) is a panic. -/
theorem C66_counterexample : ¬ C66_statement := by
  intro h
  have h2 := (h Unit Unit ⟨fun _ => some [], fun _ => some [], fun _ => some [()], fun _ _ => true⟩
    OctaneConfig.new).2 (by rintro chain key ⟨kb, cb, ks, -, h, -⟩; simp at h)
  exact absurd h2 (by simp [TlsLib.rustlsAcceptor, TlsLib.getKey])

example : Spec.TlsFiles (Key := Nat) (Cert := Nat)
    ⟨fun p => if p = c!"k" then some [1] else if p = c!"c" then some [2] else none,
      fun b => if b = [1] then some [7, 8] else none, fun b => if b = [2] then some [5] else none,
      fun _ k => k == 7⟩ ⟨none, ⟨c!"k", c!"c", 443⟩, none⟩ [5] 7 :=
  ⟨[1], [2], [8], by decide, by decide, by decide, by decide, by decide⟩

/-- an execution in which the TLS task opens its port and makes its acceptor while the caller waits in
the callback -/
example : Spec.PortsDiffer ⟨80, 443, true, .ok false⟩ ∧
    Spec.tlsAnswers (.tls false :: .main true :: List.replicate 7 (.tls true)) =
      List.replicate 6 true ++ [true] := ⟨by simp [Spec.PortsDiffer], rfl⟩

end

end Octane
