import Verif.Spec.Live
import Verif.Props.Listen
/-
Progress of a single connection in an infinite execution, for C76.
-/
namespace Octane
open Spec

section
variable {W : Type u}

/-! ### one step of one connection -/

/-- connection `i` after an event -/
def Conn.after (sv : Server W) (w : W) (i : Nat) (c : Conn) : Event W → Conn
  | .handshake j ok => if j = i then { c with task := Sys.handshakeStep ok c.task } else c
  | .write j n => if j = i then { c with task := Sys.writeStep n c.task } else c
  | .writeErr j => if j = i then { c with task := Sys.writeFail c.task } else c
  | .poll j =>
    if j = i then
      match sv.poll w c.task c.sock with
      | some (_, t', s') => ⟨c.tls, t', s'⟩
      | none => c
    else c
  | _ => c

theorem step_after (sv : Server W) (y : Sys W) (e : Event W) (i : Nat) (c : Conn)
    (hd : (y.step sv e).dead = false) (hc : y.conns[i]? = some c) :
    (y.step sv e).conns[i]? = some (c.after sv y.world i e) := by
  have hy : y.dead = false := by
    cases h : y.dead with
    | false => rfl
    | true => rw [step_dead y h, h] at hd; exact hd
  obtain ⟨hlt, hget⟩ := List.getElem?_eq_some_iff.1 hc
  have hset : ∀ (j : Nat) (d d' : Conn), y.conns[j]? = some d →
      (y.conns.set j d')[i]? = some (if j = i then d' else c) := by
    intro j d d' _
    rw [List.getElem?_set]
    by_cases hji : j = i
    · subst hji; simp [hlt]
    · simp [hji, hc]
  unfold Sys.step at hd ⊢
  have hyn : ¬ y.dead = true := by simp [hy]
  rw [if_neg hyn] at hd ⊢
  cases e with
  | connect tls s =>
    simp only
    split
    · simp only [List.getElem?_append_left hlt]; exact hc
    · exact hc
  | acceptErr tls =>
    simp only
    split
    · split <;> exact hc
    · exact hc
  | handshake j ok =>
    simp only [Conn.after]
    cases hj : y.conns[j]? with
    | none =>
      have : j ≠ i := by rintro rfl; rw [hj] at hc; cases hc
      simp [this, hc]
    | some d =>
      simp only [Sys.setTask]
      rw [hset j d _ hj]
      by_cases hji : j = i
      · subst hji; rw [hc] at hj; cases hj; simp
      · simp [hji]
  | write j n =>
    simp only [Conn.after]
    cases hj : y.conns[j]? with
    | none =>
      have : j ≠ i := by rintro rfl; rw [hj] at hc; cases hc
      simp [this, hc]
    | some d =>
      simp only [Sys.setTask]
      rw [hset j d _ hj]
      by_cases hji : j = i
      · subst hji; rw [hc] at hj; cases hj; simp
      · simp [hji]
  | writeErr j =>
    simp only [Conn.after]
    cases hj : y.conns[j]? with
    | none =>
      have : j ≠ i := by rintro rfl; rw [hj] at hc; cases hc
      simp [this, hc]
    | some d =>
      simp only [Sys.setTask]
      rw [hset j d _ hj]
      by_cases hji : j = i
      · subst hji; rw [hc] at hj; cases hj; simp
      · simp [hji]
  | poll j =>
    simp only [Conn.after] at hd ⊢
    cases hj : y.conns[j]? with
    | none =>
      have : j ≠ i := by rintro rfl; rw [hj] at hc; cases hc
      simp [this, hc]
    | some d =>
      rw [hj] at hd
      simp only at hd ⊢
      cases hp : sv.poll y.world d.task d.sock with
      | none => rw [hp] at hd; simp at hd
      | some r =>
        simp only
        rw [hset j d _ hj]
        by_cases hji : j = i
        · subst hji; rw [hc] at hj; cases hj; simp [hp]
        · simp [hji]
  | env f => exact hc
  | exit =>
    simp only
    split <;> exact hc

/-- how far a connection is from its end -/
def Conn.rank (c : Conn) : Nat × Nat :=
  match c.task with
  | .handshake => (3, 0)
  | .head _ | .body _ _ _ _ => (2, c.sock.bytes.length)
  | .writing _ rest => (1, rest.length)
  | _ => (0, 0)

/-- the order of ranks -/
def Nearer (a b : Nat × Nat) : Prop := a.1 < b.1 ∨ a.1 = b.1 ∧ a.2 < b.2

theorem Nearer.trans {a b c : Nat × Nat} (h1 : Nearer a b) (h2 : Nearer b c) : Nearer a c := by
  unfold Nearer at *; omega

theorem Nearer.wf : WellFounded Nearer := by
  have : WellFounded (Prod.Lex (· < · : Nat → Nat → Prop) (· < · : Nat → Nat → Prop)) :=
    (Prod.lex ⟨_, Nat.lt_wfRel.wf⟩ ⟨_, Nat.lt_wfRel.wf⟩).wf
  refine Subrelation.wf (fun {a b} h => ?_) this
  obtain ⟨a1, a2⟩ := a
  obtain ⟨b1, b2⟩ := b
  rcases h with h | ⟨h, h'⟩
  · exact .left _ _ h
  · simp only at h h'; subst h; exact .right _ h'

/-- A step of a connection that must not wait for ever brings it nearer to its end or leaves it as it is;
an event it waits for brings it nearer. -/
theorem after_rank (sv : Server W) (w : W) (i : Nat) (c : Conn) (s : Sock) (e : Event W)
    (hst : Standing sv c s) (hnp : ∀ w, sv.serve w s ≠ .pending)
    (hna : e = .poll i → sv.poll w c.task c.sock ≠ none) :
    (c.after sv w i e = c ∨ Nearer (c.after sv w i e).rank c.rank) ∧
    (c.task = .handshake → (∃ ok, e = .handshake i ok) → Nearer (c.after sv w i e).rank c.rank) ∧
    (Waiting c.task → e = .poll i → Nearer (c.after sv w i e).rank c.rank) ∧
    ((∃ a b, c.task = .writing a b) → (e = .writeErr i ∨ ∃ k, 1 ≤ k ∧ e = .write i k) →
      Nearer (c.after sv w i e).rank c.rank) := by
  have hpoll : Waiting c.task → e = .poll i → Nearer (c.after sv w i e).rank c.rank := by
    rintro hw rfl
    have hsp := poll_spec sv w c.task c.sock (hst.reading hw)
    rw [hst.resume hw] at hsp
    have hr : c.rank = (2, c.sock.bytes.length) := by
      unfold Conn.rank
      cases ht : c.task <;> rw [ht] at hw <;> first | rfl | exact absurd hw id
    have hna := hna rfl
    simp only [Conn.after, if_true]
    cases hp : sv.poll w c.task c.sock with
    | none => exact absurd hp hna
    | some r =>
      obtain ⟨w', t', s'⟩ := r
      rw [hp] at hsp
      simp only
      rw [hr]
      rcases hsp with ⟨bs, h, -⟩ | ⟨h, -⟩ | ⟨h1, -, -, h2⟩
      · subst h; exact .inl Nat.one_lt_two
      · subst h; exact .inl Nat.two_pos
      · have : Conn.rank ⟨c.tls, t', s'⟩ = (2, s'.bytes.length) := by
          unfold Conn.rank
          cases t' <;> first | rfl | exact absurd h1 (by simp [Task.reading])
        rw [this]
        rcases h2 with h2 | ⟨-, -, h2⟩
        · exact .inr ⟨rfl, h2⟩
        · exact absurd h2 (hnp w)
  obtain ⟨tls, t, sock⟩ := c
  refine ⟨?_, ?_, hpoll, ?_⟩
  · cases e with
    | handshake j ok =>
      by_cases hji : j = i
      · simp only [Conn.after, hji, if_true]
        cases t <;> first | exact .inl rfl | skip
        cases ok <;> exact .inr (.inl (by simp [Conn.rank, Sys.handshakeStep]))
      · exact .inl (by simp [Conn.after, hji])
    | write j n =>
      by_cases hji : j = i
      · simp only [Conn.after, hji, if_true]
        cases t <;> first | exact .inl rfl | skip
        rename_i a b
        simp only [Sys.writeStep]
        by_cases hn : b.length ≤ n
        · rw [if_pos hn]; exact .inr (.inl (Nat.zero_lt_one))
        · rw [if_neg hn]
          by_cases h0 : n = 0
          · subst h0; exact .inl (by simp)
          · refine .inr (.inr ⟨rfl, ?_⟩)
            simp only [Conn.rank, List.length_drop]
            omega
      · exact .inl (by simp [Conn.after, hji])
    | writeErr j =>
      by_cases hji : j = i
      · simp only [Conn.after, hji, if_true]
        cases t <;> first | exact .inl rfl | exact .inr (.inl Nat.zero_lt_one)
      · exact .inl (by simp [Conn.after, hji])
    | poll j =>
      by_cases hji : j = i
      · subst hji
        by_cases hw : Waiting t
        · exact .inr (hpoll hw rfl)
        · left
          cases t <;> first | exact absurd trivial hw | simp [Conn.after, Server.poll]
      · exact .inl (by simp [Conn.after, hji])
    | _ => exact .inl rfl
  · rintro ht ⟨ok, rfl⟩
    simp only at ht
    subst ht
    simp only [Conn.after, if_true]
    cases ok <;> exact .inl (by simp [Conn.rank, Sys.handshakeStep])
  · rintro ⟨a, b, ht⟩ he
    simp only at ht
    subst ht
    rcases he with rfl | ⟨k, hk, rfl⟩
    · simp only [Conn.after, if_true]
      exact .inl Nat.zero_lt_one
    · simp only [Conn.after, if_true, Sys.writeStep]
      by_cases hn : b.length ≤ k
      · rw [if_pos hn]; exact .inl Nat.zero_lt_one
      · rw [if_neg hn]
        refine .inr ⟨rfl, ?_⟩
        simp only [Conn.rank, List.length_drop]
        omega

/-! ### infinite executions -/

theorem upTo_succ (σ : Nat → Event W) (n : Nat) : upTo σ (n + 1) = upTo σ n ++ [σ n] := by
  simp [upTo, List.range_succ]

theorem run_upTo (sv : Server W) (y : Sys W) (σ : Nat → Event W) (n : Nat) :
    y.run sv (upTo σ (n + 1)) = (y.run sv (upTo σ n)).step sv (σ n) := by
  rw [upTo_succ, run_append]; rfl

theorem accepted_prefix (p t : Bool) (a b : List (Event W)) :
    accepted p t a <+: accepted p t (a ++ b) := by
  induction a generalizing p t with
  | nil => exact List.nil_prefix
  | cons e a ih =>
    cases e with
    | connect tls s =>
      simp only [accepted, List.cons_append]
      split
      · split
        · exact List.prefix_cons_inj _ |>.2 (ih p t)
        · exact ih p t
      · split
        · exact List.prefix_cons_inj _ |>.2 (ih p t)
        · exact ih p t
    | acceptErr tls =>
      simp only [accepted, List.cons_append]
      split
      · exact ih _ _
      · exact ih _ _
    | _ => exact ih p t

theorem upTo_append (σ : Nat → Event W) (n k : Nat) : ∃ l, upTo σ (n + k) = upTo σ n ++ l := by
  induction k with
  | zero => exact ⟨[], by simp⟩
  | succ k ih =>
    obtain ⟨l, hl⟩ := ih
    exact ⟨l ++ [σ (n + k)], by rw [← Nat.add_assoc, upTo_succ, hl, List.append_assoc]⟩

theorem accepted_upTo (p t : Bool) (σ : Nat → Event W) (i a b : Nat) (x y : Bool × Sock)
    (ha : (accepted p t (upTo σ a))[i]? = some x) (hb : (accepted p t (upTo σ b))[i]? = some y) : x = y := by
  have key : ∀ n k (x : Bool × Sock), (accepted p t (upTo σ n))[i]? = some x →
      (accepted p t (upTo σ (n + k)))[i]? = some x := by
    intro n k x h
    obtain ⟨l, hl⟩ := upTo_append σ n k
    obtain ⟨r, hr⟩ := accepted_prefix p t (upTo σ n) l
    rw [hl, ← hr, List.getElem?_append_left (List.getElem?_eq_some_iff.1 h).1, h]
  have h1 := key a b x ha
  have h2 := key b a y hb
  rw [Nat.add_comm, h1] at h2
  injection h2

/-- the invariant of one connection at every moment -/
theorem inv_at (sv : Server W) (w0 : W) (tlsFeature tlsOk plainOk : Bool) (σ : Nat → Event W)
    (alive : ∀ n, ((Sys.start w0 tlsFeature tlsOk plainOk).run sv (upTo σ n)).dead = false)
    (i : Nat) (tls : Bool) (s : Sock) (n0 : Nat)
    (hi : (accepted plainOk (tlsFeature && tlsOk) (upTo σ n0))[i]? = some (tls, s)) (n : Nat) (c : Conn)
    (hc : ((Sys.start w0 tlsFeature tlsOk plainOk).run sv (upTo σ n)).conns[i]? = some c) :
    Standing sv c s := by
  have hacc : accepted ((Sys.start w0 tlsFeature tlsOk plainOk).plain = .listening)
      ((Sys.start w0 tlsFeature tlsOk plainOk).tls = .listening) (upTo σ n) =
      accepted plainOk (tlsFeature && tlsOk) (upTo σ n) := by
    cases tlsFeature <;> cases tlsOk <;> cases plainOk <;> rfl
  obtain ⟨l, h, -, -⟩ := (Inv.start (sv := sv) w0 tlsFeature tlsOk plainOk).run _ (alive n)
  rw [hacc] at h
  simp only [List.nil_append] at h
  obtain ⟨s', h1, -, h3⟩ := h.conns i c hc
  have := accepted_upTo _ _ σ i _ _ _ _ hi h1
  simp only [Prod.mk.injEq] at this
  exact this.2 ▸ h3

/-- the connection is there from the moment it is accepted -/
theorem conn_at (sv : Server W) (w0 : W) (tlsFeature tlsOk plainOk : Bool) (σ : Nat → Event W)
    (alive : ∀ n, ((Sys.start w0 tlsFeature tlsOk plainOk).run sv (upTo σ n)).dead = false)
    (i : Nat) (x : Bool × Sock) (n0 : Nat)
    (hi : (accepted plainOk (tlsFeature && tlsOk) (upTo σ n0))[i]? = some x) (k : Nat) :
    ∃ c, ((Sys.start w0 tlsFeature tlsOk plainOk).run sv (upTo σ (n0 + k))).conns[i]? = some c := by
  induction k with
  | zero =>
    have h := C49_exact sv w0 tlsFeature tlsOk plainOk (upTo σ n0) (alive n0)
    have hlt := (List.getElem?_eq_some_iff.1 hi).1
    have := congrArg List.length h
    simp only [List.length_map] at this
    exact ⟨_, List.getElem?_eq_getElem (by rw [Nat.add_zero, this]; exact hlt)⟩
  | succ k ih =>
    obtain ⟨c, hc⟩ := ih
    have := alive (n0 + k + 1)
    rw [run_upTo] at this
    rw [← Nat.add_assoc, run_upTo]
    exact ⟨_, step_after sv _ _ i c this hc⟩

theorem Over.after {t : Task} (h : Over t) (sv : Server W) (w : W) (i : Nat) (tls : Bool) (sock : Sock)
    (e : Event W) : (Conn.after sv w i ⟨tls, t, sock⟩ e) = ⟨tls, t, sock⟩ := by
  cases t with
  | finished _ | broken _ | panicked | refused =>
    cases e <;> simp only [Conn.after] <;> first | rfl | (split <;> rfl)
  | _ => exact absurd h id

/-- what a task has come to is what serving the stream gave in the shared state of some moment -/
def Spec.Due (sv : Server W) (y : Sys W) (σ : Nat → Octane.Event W) (s : Sock) : Task → Prop
  | .writing a b => ∃ k, visible (sv.serve (y.run sv (upTo σ k)).world s) = .ok (a ++ b)
  | .finished a => ∃ k, visible (sv.serve (y.run sv (upTo σ k)).world s) = .ok a
  | .broken a => ∃ k b, visible (sv.serve (y.run sv (upTo σ k)).world s) = .ok (a ++ b)
  | .panicked => ∃ k, visible (sv.serve (y.run sv (upTo σ k)).world s) = .panic
  | _ => True

theorem due_after (sv : Server W) (y : Sys W) (σ : Nat → Event W) (s : Sock) (n i : Nat) (c : Conn)
    (hst : Standing sv c s) (hdue : Due sv y σ s c.task)
    (hna : σ n = .poll i → sv.poll (y.run sv (upTo σ n)).world c.task c.sock ≠ none) :
    Due sv y σ s (c.after sv (y.run sv (upTo σ n)).world i (σ n)).task := by
  obtain ⟨tls, t, sock⟩ := c
  cases he : σ n with
  | handshake j ok =>
    simp only [Conn.after]
    split
    · cases t <;> first | exact hdue | skip
      cases ok <;> trivial
    · exact hdue
  | write j k =>
    simp only [Conn.after]
    split
    · cases t <;> first | exact hdue | skip
      rename_i a b
      simp only [Sys.writeStep]
      split
      · exact hdue
      · obtain ⟨k', h⟩ := hdue
        exact ⟨k', by rw [h, List.append_assoc, List.take_append_drop]⟩
    · exact hdue
  | writeErr j =>
    simp only [Conn.after]
    split
    · cases t <;> first | exact hdue | skip
      obtain ⟨k', h⟩ := hdue
      exact ⟨k', _, h⟩
    · exact hdue
  | poll j =>
    simp only [Conn.after]
    split
    · rename_i hji
      subst hji
      have hna := hna he
      by_cases hw : Waiting t
      · have hsp := poll_spec sv (y.run sv (upTo σ n)).world t sock (hst.reading hw)
        rw [hst.resume hw] at hsp
        cases hp : sv.poll (y.run sv (upTo σ n)).world t sock with
        | none => exact absurd hp hna
        | some r =>
          obtain ⟨w', t', s'⟩ := r
          rw [hp] at hsp
          simp only
          rcases hsp with ⟨bs, h, hr⟩ | ⟨h, -, hr⟩ | ⟨h1, -⟩
          · subst h; exact ⟨n, by rw [hr]; rfl⟩
          · subst h; exact ⟨n, by rw [hr]; rfl⟩
          · cases t' <;> first | trivial | exact absurd h1 (by simp [Task.reading])
      · cases t <;> first | exact absurd trivial hw | exact hdue
    · exact hdue
  | _ => exact hdue

/-! ### the end of a connection -/

/-- a connection that does not wait for ever ends -/
theorem ends_core (sv : Server W) (w0 : W) (tlsFeature tlsOk plainOk : Bool) (σ : Nat → Event W)
    (alive : ∀ n, ((Sys.start w0 tlsFeature tlsOk plainOk).run sv (upTo σ n)).dead = false)
    (i : Nat) (tls : Bool) (s : Sock) (n0 : Nat)
    (hi : (accepted plainOk (tlsFeature && tlsOk) (upTo σ n0))[i]? = some (tls, s))
    (fair : FairTo sv (Sys.start w0 tlsFeature tlsOk plainOk) σ i)
    (hnp : ∀ w, sv.serve w s ≠ .pending) :
    ∃ t n, Over t ∧ Stays sv (Sys.start w0 tlsFeature tlsOk plainOk) σ i (· = t) n := by
  have hst := inv_at sv w0 tlsFeature tlsOk plainOk σ alive i tls s n0 hi
  have hat := conn_at sv w0 tlsFeature tlsOk plainOk σ alive i (tls, s) n0 hi
  unfold Stays
  generalize Sys.start w0 tlsFeature tlsOk plainOk = y at alive fair hst hat ⊢
  have hna : ∀ n c, (y.run sv (upTo σ n)).conns[i]? = some c → σ n = .poll i →
      sv.poll (y.run sv (upTo σ n)).world c.task c.sock ≠ none := by
    intro n c hc he hp
    have h1 := alive n
    have h2 := alive (n + 1)
    rw [run_upTo, he] at h2
    simp [Sys.step, h1, hc, hp] at h2
  have step : ∀ n c, (y.run sv (upTo σ n)).conns[i]? = some c →
      (y.run sv (upTo σ (n + 1))).conns[i]? =
        some (c.after sv (y.run sv (upTo σ n)).world i (σ n)) := by
    intro n c hc
    have h2 := alive (n + 1)
    rw [run_upTo] at h2 ⊢
    exact step_after sv _ _ i c h2 hc
  -- from one moment on: the same connection, or one nearer to its end
  have later : ∀ n c, (y.run sv (upTo σ n)).conns[i]? = some c →
      ∀ m, n ≤ m → ∃ c', (y.run sv (upTo σ m)).conns[i]? = some c' ∧ (c' = c ∨ Nearer c'.rank c.rank) := by
    intro n c hc m hm
    obtain ⟨k, rfl⟩ := Nat.le.dest hm
    clear hm
    induction k with
    | zero => exact ⟨c, hc, .inl rfl⟩
    | succ k ih =>
      obtain ⟨c', h1, h2⟩ := ih
      refine ⟨_, step (n + k) c' h1, ?_⟩
      rcases (after_rank sv (y.run sv (upTo σ (n + k))).world i c' s (σ (n + k)) (hst _ _ h1) hnp
        (hna _ _ h1)).1 with h | h
      · rw [h]; exact h2
      · rcases h2 with rfl | h2
        · exact .inr h
        · exact .inr (h.trans h2)
  -- a connection that has not ended comes nearer to its end
  have nearer : ∀ n c, (y.run sv (upTo σ n)).conns[i]? = some c → ¬ Over c.task →
      ∃ m c', (y.run sv (upTo σ m)).conns[i]? = some c' ∧ Nearer c'.rank c.rank ∧ n ≤ m := by
    intro n c hc hov
    refine Classical.byContradiction fun hno => ?_
    have same : ∀ m, n ≤ m → (y.run sv (upTo σ m)).conns[i]? = some c := by
      intro m hm
      obtain ⟨c', h1, h2⟩ := later n c hc m hm
      rcases h2 with rfl | h2
      · exact h1
      · exact absurd ⟨m, c', h1, h2, hm⟩ hno
    have stuck : ∀ m, n ≤ m → ¬ Nearer (c.after sv (y.run sv (upTo σ m)).world i (σ m)).rank c.rank := by
      intro m hm h
      have := step m c (same m hm)
      exact hno ⟨m + 1, _, this, h, by omega⟩
    have rank := fun m hm => after_rank sv (y.run sv (upTo σ m)).world i c s (σ m)
      (hst _ _ (same m hm)) hnp (hna _ _ (same m hm))
    cases ht : c.task with
    | handshake =>
      obtain ⟨m, ok, hm, he⟩ := fair.handshake n fun m hm => ⟨c, same m hm, ht⟩
      exact stuck m hm ((rank m hm).2.1 ht ⟨ok, he⟩)
    | head d =>
      have hw : Waiting c.task := by rw [ht]; trivial
      obtain ⟨m, hm, he⟩ := fair.read n fun m hm => ⟨c, same m hm, hw⟩
      exact stuck m hm ((rank m hm).2.2.1 hw he)
    | body a b g d =>
      have hw : Waiting c.task := by rw [ht]; trivial
      obtain ⟨m, hm, he⟩ := fair.read n fun m hm => ⟨c, same m hm, hw⟩
      exact stuck m hm ((rank m hm).2.2.1 hw he)
    | writing a b =>
      obtain ⟨m, hm, he⟩ := fair.write n fun m hm => ⟨c, same m hm, a, b, ht⟩
      exact stuck m hm ((rank m hm).2.2.2 ⟨a, b, ht⟩ he)
    | _ => rw [ht] at hov; exact hov trivial
  -- hence it ends
  have ends : ∀ r : Nat × Nat, ∀ n c, (y.run sv (upTo σ n)).conns[i]? = some c → c.rank = r →
      ∃ m c', (y.run sv (upTo σ m)).conns[i]? = some c' ∧ Over c'.task := by
    intro r
    induction r using Nearer.wf.induction with
    | _ r ih =>
      rintro n c hc rfl
      by_cases hov : Over c.task
      · exact ⟨n, c, hc, hov⟩
      · obtain ⟨m, c', h1, h2, -⟩ := nearer n c hc hov
        exact ih _ h2 m c' h1 rfl
  obtain ⟨c, hc⟩ := hat 0
  obtain ⟨m, c, hm, hov⟩ := ends _ _ c hc rfl
  refine ⟨c.task, m, hov, fun k hk => ⟨c, ?_, rfl⟩⟩
  obtain ⟨j, rfl⟩ := Nat.le.dest hk
  clear hk
  induction j with
  | zero => exact hm
  | succ j ih =>
    rw [← Nat.add_assoc, step _ _ ih]
    exact congrArg some (Over.after hov sv _ i c.tls c.sock _)

/-- and with what -/
theorem answered_core (sv : Server W) (w0 : W) (tlsFeature tlsOk plainOk : Bool) (σ : Nat → Event W)
    (alive : ∀ n, ((Sys.start w0 tlsFeature tlsOk plainOk).run sv (upTo σ n)).dead = false)
    (i : Nat) (tls : Bool) (s : Sock) (n0 : Nat)
    (hi : (accepted plainOk (tlsFeature && tlsOk) (upTo σ n0))[i]? = some (tls, s))
    (fair : FairTo sv (Sys.start w0 tlsFeature tlsOk plainOk) σ i)
    (hnp : ∀ w, sv.serve w s ≠ .pending) (hh : ∀ n, Healthy i (σ n)) :
    let y := Sys.start w0 tlsFeature tlsOk plainOk
    ∃ n k, (∃ bs, Stays sv y σ i (· = .finished bs) n ∧
        visible (sv.serve (y.run sv (upTo σ k)).world s) = .ok bs) ∨
      (Stays sv y σ i (· = .panicked) n ∧ visible (sv.serve (y.run sv (upTo σ k)).world s) = .panic) := by
  intro y
  obtain ⟨t, n, hov, hstays⟩ := ends_core sv w0 tlsFeature tlsOk plainOk σ alive i tls s n0 hi fair hnp
  have hst := inv_at sv w0 tlsFeature tlsOk plainOk σ alive i tls s n0 hi
  have hdue : ∀ m c, (y.run sv (upTo σ m)).conns[i]? = some c → Due sv y σ s c.task := by
    intro m
    induction m with
    | zero => intro c hc; simp [y, upTo, Sys.run, Sys.start] at hc
    | succ m ih =>
      intro c hc
      have ha := alive (m + 1)
      rw [run_upTo] at hc ha
      cases hc0 : (y.run sv (upTo σ m)).conns[i]? with
      | some c0 =>
        rw [step_after sv _ _ i c0 ha hc0] at hc
        injection hc with hc
        subst hc
        refine due_after sv y σ s m i c0 (hst m c0 hc0) (ih c0 hc0) fun he hp => ?_
        rw [he] at ha
        have := alive m
        simp [Sys.step, this, y] at ha hc0 hp
        rw [hc0] at ha
        simp [hp] at ha
      | none =>
        -- the connection is new
        have hnew : c.task = .handshake ∨ c.task = .head [] := by
          unfold Sys.step at hc
          split at hc
          · rw [hc0] at hc; cases hc
          cases he : σ m with
          | connect tl s' =>
            rw [he] at hc
            simp only at hc
            split at hc
            · simp only [List.getElem?_append] at hc
              split at hc
              · rw [hc0] at hc; cases hc
              · obtain ⟨_, hc⟩ := List.getElem?_eq_some_iff.1 hc
                simp only [List.getElem_singleton] at hc
                subst hc
                cases tl
                · exact .inr rfl
                · exact .inl rfl
            · rw [hc0] at hc; cases hc
          | acceptErr tl =>
            rw [he] at hc
            simp only at hc
            split at hc
            · split at hc <;> (rw [hc0] at hc; cases hc)
            · rw [hc0] at hc; cases hc
          | env f => rw [he] at hc; simp only [hc0] at hc; cases hc
          | exit =>
            rw [he] at hc
            simp only at hc
            split at hc <;> (simp only [hc0] at hc; cases hc)
          | poll j =>
            rw [he] at hc
            simp only at hc
            have hl := List.getElem?_eq_none_iff.1 hc0
            split at hc
            · split at hc
              · have : i < _ := (List.getElem?_eq_some_iff.1 hc).1
                simp only [List.length_set] at this
                omega
              · simp only [hc0] at hc; cases hc
            · rw [hc0] at hc; cases hc
          | _ =>
            rw [he] at hc
            simp only at hc
            have hl := List.getElem?_eq_none_iff.1 hc0
            split at hc
            · have : i < _ := (List.getElem?_eq_some_iff.1 hc).1
              simp only [Sys.setTask, List.length_set] at this
              omega
            · rw [hc0] at hc; cases hc
        rcases hnew with h | h <;> rw [h] <;> trivial
  obtain ⟨c, hc, rfl⟩ := hstays n (Nat.le_refl n)
  have hsound := run_sound (sv := sv) i (upTo σ n) (Inv.start w0 tlsFeature tlsOk plainOk)
    (by simp [Sys.start]) (alive n) (by
      intro e he
      obtain ⟨k, -, rfl⟩ := List.mem_map.1 he
      exact hh k) c hc
  have hd := hdue n c hc
  cases ht : c.task with
  | finished bs =>
    rw [ht] at hd hstays
    obtain ⟨k, hk⟩ := hd
    exact ⟨n, k, .inl ⟨bs, hstays, hk⟩⟩
  | panicked =>
    rw [ht] at hd hstays
    obtain ⟨k, hk⟩ := hd
    exact ⟨n, k, .inr ⟨hstays, hk⟩⟩
  | broken _ => rw [ht] at hsound; exact absurd hsound id
  | refused => rw [ht] at hsound; exact absurd hsound id
  | _ => rw [ht] at hov; exact absurd hov id

end
end Octane
