import Verif.Proof.ProcessRun
/-
What single events do to single connections, and TLS connections before and after their handshake.
-/
namespace Octane
open Spec
universe u
variable {W : Type u} {sv : PServer W} {allocOk : Nat → Bool}

/-- What one event does to one connection. -/
theorem conn_step (y : Process W) (e : Happening W) (i : Nat) (c : PConn W) (hc : y.conns[i]? = some c) :
    (y.step sv allocOk e).conns[i]? = some c ∨
    (∃ ok, e = .handshake i ok ∧ c.task = .handshake ∧
      (y.step sv allocOk e).conns[i]? = some { c with task := if ok then .reading (.head []) else .refused }) ∨
    (∃ t s, (y.step sv allocOk e).conns[i]? = some { c with task := t, sock := s } ∧ c.task ≠ .handshake ∧
      c.task ≠ .refused ∧ t ≠ .handshake ∧ t ≠ .refused) := by
  have hput : ∀ (k : Nat) (x : PConn W) (w : W) (t : PTask W) (s : Sock), y.conns[k]? = some x →
      (k = i → x = c → x.task ≠ .handshake ∧ x.task ≠ .refused ∧ t ≠ .handshake ∧ t ≠ .refused) →
      (y.put w k x t s).conns[i]? = some c ∨
      (∃ ok, e = .handshake i ok ∧ c.task = .handshake ∧
        (y.put w k x t s).conns[i]? = some { c with task := if ok then .reading (.head []) else .refused }) ∨
      (∃ t' s', (y.put w k x t s).conns[i]? = some { c with task := t', sock := s' } ∧ c.task ≠ .handshake ∧
        c.task ≠ .refused ∧ t' ≠ .handshake ∧ t' ≠ .refused) := by
    intro k x w t s hk h
    by_cases hki : k = i
    · subst hki
      rw [hc] at hk
      injection hk with hk
      subst hk
      obtain ⟨h1, h2, h3, h4⟩ := h rfl rfl
      exact .inr (.inr ⟨t, s, Process.put_get hc w t s, h1, h2, h3, h4⟩)
    · left
      simp only [Process.put]
      rw [List.getElem?_set_ne hki]
      exact hc
  have hsame : ∀ (k : Nat) (x : PConn W), y.conns[k]? = some x → (y.put y.world k x x.task x.sock) = y := by
    intro k x hk
    simp only [Process.put]
    rw [set_same hk]
  have hresp : ∀ r : Res Bytes, PTask.respond (W := W) r ≠ .handshake ∧ PTask.respond (W := W) r ≠ .refused := by
    intro r; cases r <;> exact ⟨by simp [PTask.respond], by simp [PTask.respond]⟩
  unfold Process.step
  split
  · exact .inl hc
  · cases e with
    | connect tls s =>
      simp only
      split
      · left
        rw [List.getElem?_append_left (List.getElem?_eq_some_iff.1 hc).1]
        exact hc
      · exact .inl hc
    | acceptErr tls => simp only; split <;> (try split) <;> exact .inl hc
    | handshake k ok =>
      simp only
      split
      · rename_i x hk
        split
        · by_cases hki : k = i
          · subst hki
            rw [hc] at hk
            injection hk with hk
            subst hk
            cases ht : c.task with
            | handshake => exact .inr (.inl ⟨ok, rfl, rfl, Process.put_get hc _ _ _⟩)
            | _ =>
              left
              simp only [PTask.handshakeStep]
              rw [← ht, hsame k c hc]
              exact hc
          · left
            simp only [Process.put]
            rw [List.getElem?_set_ne hki]
            exact hc
        · exact .inl hc
      · exact .inl hc
    | poll k =>
      simp only
      split
      · rename_i x hk
        split
        · rename_i r ht
          split
          · have hx : x.task ≠ .handshake ∧ x.task ≠ .refused := by rw [ht]; exact ⟨by simp, by simp⟩
            split
            · exact hput k x _ _ _ hk fun _ _ => ⟨hx.1, hx.2, by simp, by simp⟩
            · exact hput k x _ _ _ hk fun _ _ => ⟨hx.1, hx.2, by simp, by simp⟩
            · exact hput k x _ _ _ hk fun _ _ => ⟨hx.1, hx.2, (hresp _).1, (hresp _).2⟩
            · exact hput k x _ _ _ hk fun _ _ => ⟨hx.1, hx.2, by simp, by simp⟩
            · exact .inl hc
          · exact .inl hc
        · exact .inl hc
      · exact .inl hc
    | access k =>
      simp only
      split
      · rename_i x hk
        split
        · rename_i req reads ht
          have hx : x.task ≠ .handshake ∧ x.task ≠ .refused := by rw [ht]; exact ⟨by simp, by simp⟩
          split
          · exact hput k x _ _ _ hk fun _ _ => ⟨hx.1, hx.2, by simp, by simp⟩
          · exact .inl hc
        · exact .inl hc
      · exact .inl hc
    | finish k =>
      simp only
      split
      · rename_i x hk
        split
        · rename_i req reads ht
          have hx : x.task ≠ .handshake ∧ x.task ≠ .refused := by rw [ht]; exact ⟨by simp, by simp⟩
          split
          · exact hput k x _ _ _ hk fun _ _ => ⟨hx.1, hx.2, (hresp _).1, (hresp _).2⟩
          · exact hput k x _ _ _ hk fun _ _ => ⟨hx.1, hx.2, by simp, by simp⟩
          · exact .inl hc
        · exact .inl hc
      · exact .inl hc
    | write k n =>
      simp only
      split
      · rename_i x hk
        split
        · cases ht : x.task with
          | writing sent rest =>
            simp only [PTask.writeStep]
            have hx : x.task ≠ .handshake ∧ x.task ≠ .refused := by rw [ht]; exact ⟨by simp, by simp⟩
            split
            · exact hput k x _ _ _ hk fun _ _ => ⟨hx.1, hx.2, by simp, by simp⟩
            · exact hput k x _ _ _ hk fun _ _ => ⟨hx.1, hx.2, by simp, by simp⟩
          | _ => left; simp only [PTask.writeStep]; rw [← ht, hsame k x hk]; exact hc
        · exact .inl hc
      · exact .inl hc
    | writeErr k =>
      simp only
      split
      · rename_i x hk
        split
        · cases ht : x.task with
          | writing sent rest =>
            simp only [PTask.writeFail]
            have hx : x.task ≠ .handshake ∧ x.task ≠ .refused := by rw [ht]; exact ⟨by simp, by simp⟩
            exact hput k x _ _ _ hk fun _ _ => ⟨hx.1, hx.2, by simp, by simp⟩
          | _ => left; simp only [PTask.writeFail]; rw [← ht, hsame k x hk]; exact hc
        · exact .inl hc
      · exact .inl hc
    | env f => exact .inl hc
    | exit => simp only; split <;> exact .inl hc

/-- the connections that are new after an event -/
theorem conn_new (y : Process W) (e : Happening W) (i : Nat) (c : PConn W) (hc : y.conns[i]? = none)
    (h : (y.step sv allocOk e).conns[i]? = some c) :
    ∃ s, e = .connect c.tls s ∧ c = ⟨c.tls, if c.tls then .handshake else .reading (.head []), s⟩ := by
  have hput : ∀ (k : Nat) (x : PConn W) (w : W) (t : PTask W) (s : Sock), (y.put w k x t s).conns[i]? = none := by
    intro k x w t s
    simp only [Process.put]
    simp only [List.getElem?_eq_none_iff, List.length_set] at hc ⊢
    exact hc
  have no : ∀ {o : Option (PConn W)}, o = none → o = some c →
      ∃ s, e = .connect c.tls s ∧ c = ⟨c.tls, if c.tls then .handshake else .reading (.head []), s⟩ := by
    intro o h1 h2; rw [h1] at h2; cases h2
  unfold Process.step at h
  split at h
  · exact no hc h
  · cases e with
    | connect tls s =>
      simp only at h
      split at h
      · rw [List.getElem?_append_right (by simpa using hc)] at h
        cases hk : i - y.conns.length with
        | zero =>
          rw [hk] at h
          simp only [List.getElem?_cons_zero, Option.some.injEq] at h
          subst h
          exact ⟨s, rfl, rfl⟩
        | succ k => rw [hk] at h; simp at h
      · exact no hc h
    | acceptErr tls =>
      simp only at h
      split at h
      · split at h <;> exact no hc h
      · exact no hc h
    | handshake k ok =>
      simp only at h
      split at h
      · split at h
        · exact no (hput _ _ _ _ _) h
        · exact no hc h
      · exact no hc h
    | poll k =>
      simp only at h
      split at h
      · split at h
        · split at h
          · split at h <;> first | exact no (hput _ _ _ _ _) h | exact no hc h
          · exact no hc h
        · exact no hc h
      · exact no hc h
    | access k =>
      simp only at h
      split at h
      · split at h
        · split at h <;> first | exact no (hput _ _ _ _ _) h | exact no hc h
        · exact no hc h
      · exact no hc h
    | finish k =>
      simp only at h
      split at h
      · split at h
        · split at h <;> first | exact no (hput _ _ _ _ _) h | exact no hc h
        · exact no hc h
      · exact no hc h
    | write k n =>
      simp only at h
      split at h
      · split at h
        · exact no (hput _ _ _ _ _) h
        · exact no hc h
      · exact no hc h
    | writeErr k =>
      simp only at h
      split at h
      · split at h
        · exact no (hput _ _ _ _ _) h
        · exact no hc h
      · exact no hc h
    | env f => exact no hc h
    | exit =>
      simp only at h
      split at h <;> exact no hc h

/-- Connection `i` was waiting for its handshake with all its bytes unread, then the handshake ended; and
it is refused if and only if the handshake failed, and then nothing was ever read. -/
def Spec.AfterHandshake (sv : PServer W) (allocOk : Nat → Bool) (y0 : Process W) (evs : List (Happening W)) (i : Nat)
    (s : Sock) (c : PConn W) : Prop :=
  ∃ before ok after, evs = before ++ .handshake i ok :: after ∧
    (y0.run sv allocOk before).conns[i]? = some ⟨true, .handshake, s⟩ ∧
    (ok = false ↔ c.task = .refused) ∧ (ok = false → c.sock = s)

theorem handshake_inv (w0 : W) (workers : Nat) (tlsFeature tlsOk plainOk : Bool) (evs : List (Happening W)) :
    let y0 := Process.start w0 workers tlsFeature tlsOk plainOk
    ∀ (i : Nat) (c : PConn W), (y0.run sv allocOk evs).conns[i]? = some c → c.tls = true →
      ∃ s, Happening.connect true s ∈ evs ∧
        ((c.task = .handshake ∧ c.sock = s) ∨
         (c.task ≠ .handshake ∧ AfterHandshake sv allocOk y0 evs i s c)) := by
  intro y0
  -- events are added at the end
  have key : ∀ (rev : List (Happening W)) (i : Nat) (c : PConn W),
      (y0.run sv allocOk rev.reverse).conns[i]? = some c → c.tls = true →
      ∃ s, Happening.connect true s ∈ rev.reverse ∧
        ((c.task = .handshake ∧ c.sock = s) ∨
         (c.task ≠ .handshake ∧ AfterHandshake sv allocOk y0 rev.reverse i s c)) := by
    intro rev
    induction rev with
    | nil => intro i c hc; simp [Process.run, y0, Process.start] at hc
    | cons e rev ih =>
      intro i c hc htls
      rw [List.reverse_cons, Process.run_append] at hc
      change ((y0.run sv allocOk rev.reverse).step sv allocOk e).conns[i]? = some c at hc
      rw [List.reverse_cons]
      cases hold : (y0.run sv allocOk rev.reverse).conns[i]? with
      | none =>
        obtain ⟨s, rfl, h2⟩ := conn_new _ e i c hold hc
        rw [htls] at h2
        simp only [if_true] at h2
        exact ⟨s, by simp [htls], .inl ⟨by rw [h2], by rw [h2]⟩⟩
      | some x =>
        rcases conn_step (sv := sv) (allocOk := allocOk) _ e i x hold with h | ⟨ok, he, ht, h⟩ | ⟨t, s', h, h1, h2, h3, h4⟩
        · rw [h] at hc
          injection hc with hc
          subst hc
          obtain ⟨s, g1, g2⟩ := ih i x hold htls
          refine ⟨s, List.mem_append_left _ g1, ?_⟩
          rcases g2 with g2 | ⟨g2, before, ok, after, e1, e2, e3, e4⟩
          · exact .inl g2
          · exact .inr ⟨g2, before, ok, after ++ [e], by rw [e1]; simp, e2, e3, e4⟩
        · rw [h] at hc
          injection hc with hc
          subst hc
          obtain ⟨s, g1, g2⟩ := ih i x hold htls
          refine ⟨s, List.mem_append_left _ g1, .inr ⟨by cases ok <;> simp, rev.reverse, ok, [], by rw [he], ?_, ?_, ?_⟩⟩
          · rw [hold]
            rcases g2 with ⟨-, g2⟩ | ⟨g2, -⟩
            · cases x
              simp only at ht htls g2
              rw [ht, htls, g2]
            · exact absurd ht g2
          · cases ok <;> simp
          · intro _
            rcases g2 with ⟨-, g2⟩ | ⟨g2, -⟩
            · exact g2
            · exact absurd ht g2
        · rw [h] at hc
          injection hc with hc
          subst hc
          obtain ⟨s, g1, g2⟩ := ih i x hold htls
          refine ⟨s, List.mem_append_left _ g1, .inr ⟨h3, ?_⟩⟩
          rcases g2 with ⟨g2, -⟩ | ⟨-, before, ok, after, e1, e2, e3, e4⟩
          · exact absurd g2 h1
          · have hok : ok = true := by
              cases ok with
              | true => rfl
              | false => exact absurd (e3.1 rfl) h2
            subst hok
            exact ⟨before, true, after ++ [e], by rw [e1]; simp, e2, by simp [h4], by simp⟩
  have := key evs.reverse
  rw [List.reverse_reverse] at this
  exact this

end Octane
