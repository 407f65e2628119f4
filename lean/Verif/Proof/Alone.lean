import Verif.Proof.ProcessRun
/-
A rule for what holds of every connection of the process by itself, whatever the others do.
-/
namespace Octane
open Spec
universe u
variable {W : Type u}

/-- `P s0 s t` is kept by everything that can happen to a connection: `s0` is what its client sends, `s` what is
left of it, `t` the task. -/
structure ConnRule (sv : PServer W) (allocOk : Nat → Bool) (P : Sock → Sock → PTask W → Prop) : Prop where
  fresh : ∀ s, P s s (.reading (.head []))
  tls : ∀ s, P s s .handshake
  shake : ∀ s0 s t ok, P s0 s t → P s0 s (t.handshakeStep ok)
  turn : ∀ s0 s r, P s0 s (.reading r) → match r.turn sv.feat allocOk s with
    | .waits r' s' => P s0 s' (.reading r')
    | .request req s' => P s0 s' (.handling req [])
    | .bad s' => ∀ w, P s0 s' (.respond (sv.write w (.page .badRequest)))
    | .panicked s' => P s0 s' .panicked
    | .abort => True
  access : ∀ s0 s req reads upd w, P s0 s (.handling req reads) → sv.stage req reads = .wants upd →
    P s0 s (.handling req (reads ++ [w]))
  replies : ∀ s0 s req reads r w, P s0 s (.handling req reads) → sv.stage req reads = .replies r →
    P s0 s (.respond (sv.write w r))
  panics : ∀ s0 s req reads, P s0 s (.handling req reads) → sv.stage req reads = .panicked → P s0 s .panicked
  write : ∀ s0 s t n, P s0 s t → P s0 s (t.writeStep n)
  fail : ∀ s0 s t, P s0 s t → P s0 s t.writeFail

/-- it holds of all connections -/
structure AllConns (P : Sock → Sock → PTask W → Prop) (S : List (Bool × Sock)) (y : Process W) : Prop where
  len : S.length = y.conns.length
  conns : ∀ (i : Nat) (c : PConn W), y.conns[i]? = some c → ∃ s0, S[i]? = some (c.tls, s0) ∧ P s0 c.sock c.task

variable {sv : PServer W} {allocOk : Nat → Bool} {P : Sock → Sock → PTask W → Prop}

theorem AllConns.put {S : List (Bool × Sock)} {y : Process W} (h : AllConns P S y) {i : Nat} {c : PConn W}
    (hc : y.conns[i]? = some c) (w : W) (t : PTask W) (s : Sock) (ht : ∀ s0, P s0 c.sock c.task → P s0 s t) :
    AllConns P S (y.put w i c t s) := by
  refine ⟨by simpa [Process.put] using h.len, fun k x hk => ?_⟩
  simp only [Process.put, List.getElem?_set] at hk
  split at hk
  · rename_i hki
    subst hki
    split at hk
    · injection hk with hk
      subst hk
      obtain ⟨s0, g1, g2⟩ := h.conns i c hc
      exact ⟨s0, g1, ht s0 g2⟩
    · cases hk
  · exact h.conns k x hk

theorem AllConns.step (hP : ConnRule sv allocOk P) {S : List (Bool × Sock)} {y : Process W} (h : AllConns P S y)
    (hd : y.dead = false) (e : Happening W) : AllConns P (S ++ takes y e) (y.step sv allocOk e) := by
  have h' : AllConns P (S ++ []) y := by simpa using h
  unfold Process.step
  rw [if_neg (by simp [hd])]
  cases e with
  | connect tls s =>
    simp only [takes]
    split
    · refine ⟨by simp [h.len], fun k x hk => ?_⟩
      by_cases hlt : k < y.conns.length
      · rw [List.getElem?_append_left hlt] at hk
        obtain ⟨s0, g1, g2⟩ := h.conns k x hk
        exact ⟨s0, by rw [List.getElem?_append_left (by rw [h.len]; exact hlt)]; exact g1, g2⟩
      · rw [List.getElem?_append_right (by omega)] at hk
        cases hkk : k - y.conns.length with
        | zero =>
          rw [hkk] at hk
          simp only [List.getElem?_cons_zero, Option.some.injEq] at hk
          subst hk
          refine ⟨s, ?_, ?_⟩
          · rw [List.getElem?_append_right (by rw [h.len]; omega), h.len, hkk]; rfl
          · cases tls
            · exact hP.fresh s
            · exact hP.tls s
        | succ m => rw [hkk] at hk; simp at hk
    · exact h'
  | acceptErr tls =>
    simp only [takes]
    split
    · split <;> exact ⟨h'.len, h'.conns⟩
    · exact h'
  | handshake i ok =>
    simp only [takes, List.append_nil]
    split
    · split
      · rename_i c hc _
        exact h.put hc _ _ _ fun s0 hp => hP.shake _ _ _ _ hp
      · exact h
    · exact h
  | poll i =>
    simp only [takes, List.append_nil]
    split
    · rename_i c hc
      split
      · rename_i r hr
        split
        · have ht := fun s0 (hp : P s0 c.sock c.task) => hP.turn s0 c.sock r (by rw [← hr]; exact hp)
          split
          · rename_i hx
            simp only [hx] at ht
            exact h.put hc _ _ _ ht
          · rename_i hx
            simp only [hx] at ht
            exact h.put hc _ _ _ ht
          · rename_i hx
            simp only [hx] at ht
            exact h.put hc _ _ _ fun s0 hp => ht s0 hp _
          · rename_i hx
            simp only [hx] at ht
            exact h.put hc _ _ _ ht
          · exact ⟨h.len, h.conns⟩
        · exact h
      · exact h
    · exact h
  | access i =>
    simp only [takes, List.append_nil]
    split
    · rename_i c hc
      split
      · rename_i req reads hr
        split
        · rename_i upd hs
          exact h.put hc _ _ _ fun s0 hp => hP.access _ _ _ _ _ _ (by rw [← hr]; exact hp) hs
        · exact h
      · exact h
    · exact h
  | finish i =>
    simp only [takes, List.append_nil]
    split
    · rename_i c hc
      split
      · rename_i req reads hr
        split
        · rename_i r hs
          exact h.put hc _ _ _ fun s0 hp => hP.replies _ _ _ _ _ _ (by rw [← hr]; exact hp) hs
        · rename_i hs
          exact h.put hc _ _ _ fun s0 hp => hP.panics _ _ _ _ (by rw [← hr]; exact hp) hs
        · exact h
      · exact h
    · exact h
  | write i n =>
    simp only [takes, List.append_nil]
    split
    · rename_i c hc
      split
      · exact h.put hc _ _ _ fun s0 hp => hP.write _ _ _ _ hp
      · exact h
    · exact h
  | writeErr i =>
    simp only [takes, List.append_nil]
    split
    · rename_i c hc
      split
      · exact h.put hc _ _ _ fun s0 hp => hP.fail _ _ _ hp
      · exact h
    · exact h
  | env f => simp only [takes, List.append_nil]; exact ⟨h.len, h.conns⟩
  | exit =>
    simp only [takes, List.append_nil]
    split
    · exact ⟨h.len, h.conns⟩
    · exact h

theorem AllConns.run (hP : ConnRule sv allocOk P) (evs : List (Happening W)) {S : List (Bool × Sock)} {y : Process W}
    (h : AllConns P S y) (hd : (y.run sv allocOk evs).dead = false) :
    AllConns P (S ++ taken (y.plain = .listening) (y.tls = .listening) evs) (y.run sv allocOk evs) := by
  induction evs generalizing S y with
  | nil => simpa [taken, Process.run] using h
  | cons e evs ih =>
    rw [Process.run_cons] at hd ⊢
    have hd0 : y.dead = false := Process.alive_of_run (sv := sv) (allocOk := allocOk) (es := e :: evs) y hd
    rw [taken_cons (sv := sv) (allocOk := allocOk) y hd0, ← List.append_assoc]
    exact ih (h.step hP hd0 e) hd

/-- What is kept by everything that can happen to a connection holds of all connections at all times. -/
theorem all_conns (hP : ConnRule sv allocOk P) (w0 : W) (workers : Nat) (tlsFeature tlsOk plainOk : Bool)
    (evs : List (Happening W))
    (hd : ((Process.start w0 workers tlsFeature tlsOk plainOk).run sv allocOk evs).dead = false) :
    AllConns P (taken plainOk (tlsFeature && tlsOk) evs)
      ((Process.start w0 workers tlsFeature tlsOk plainOk).run sv allocOk evs) := by
  have h : AllConns P [] (Process.start w0 workers tlsFeature tlsOk plainOk) :=
    ⟨rfl, fun i c hc => by simp [Process.start] at hc⟩
  have := h.run hP evs hd
  simp only [List.nil_append] at this
  have e : taken ((Process.start w0 workers tlsFeature tlsOk plainOk).plain = .listening)
      ((Process.start w0 workers tlsFeature tlsOk plainOk).tls = .listening) evs =
      taken plainOk (tlsFeature && tlsOk) evs := by
    cases tlsFeature <;> cases tlsOk <;> cases plainOk <;> rfl
  rw [e] at this
  exact this

end Octane
