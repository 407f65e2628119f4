import Verif.Spec.Peek
import Verif.Proof.Query
/-
Lemmas for C172: the state of a `DoublePeek` in terms of the list it was made from.
-/
namespace Octane
open Spec Query

/-- `n` items have been taken and `held` are in the cache -/
def PeekAt (it : Str) (n held : Nat) (p : DoublePeek) : Prop :=
  p.stored = held ∧ held ≤ 2 ∧ p.content = it.drop n ∧ (held = 0 ∨ n + held ≤ it.length)

theorem PeekAt.new (it : Str) : PeekAt it 0 0 (DoublePeek.new it) := by
  refine ⟨rfl, by omega, ?_, .inl rfl⟩
  simp [DoublePeek.new, DoublePeek.content]

theorem PeekAt.next {it : Str} {n held : Nat} {p : DoublePeek} (h : PeekAt it n held p) :
    p.next.1 = it[n]? ∧ PeekAt it (n + 1) (held - 1) p.next.2 ∧ p.next.2.unpeek = p.unpeek := by
  obtain ⟨h1, h2, h3, h4⟩ := h
  obtain ⟨k1, k2, k3⟩ := p.next_spec (by omega)
  have ku : p.next.2.unpeek = p.unpeek ∧ p.next.2.stored = p.stored - 1 := by
    unfold DoublePeek.next
    obtain ⟨iter, c0, c1, stored, unpeek⟩ := p
    simp only at h1
    subst h1
    match stored, h2 with
    | 0, _ => cases iter <;> simp
    | 1, _ => simp
    | 2, _ => simp
  refine ⟨by rw [k1, h3, List.head?_drop], ⟨by omega, by omega, by rw [k2, h3, List.tail_drop], by omega⟩, ku.1⟩

theorem PeekAt.unpeek {it : Str} {n held : Nat} {p : DoublePeek} (h : PeekAt it n held p) (b : Bool) :
    PeekAt it n held { p with unpeek := b } := h

theorem PeekAt.again {it : Str} {n held : Nat} {p : DoublePeek} (h : PeekAt it n held p) (hu : p.unpeek = true)
    (h0 : held ≠ 0) : ∃ p', p.peek = .ok (it[n]?, p') ∧ PeekAt it n held p' ∧ p'.unpeek = false := by
  have hh := h
  obtain ⟨h1, h2, h3, h4⟩ := h
  refine ⟨{ p with unpeek := false }, ?_, hh.unpeek false, rfl⟩
  have e : it[n]? = some p.cache0 := by
    rw [← List.head?_drop, ← h3]
    unfold DoublePeek.content
    match hs : p.stored with
    | 0 => omega
    | 1 => rfl
    | _ + 2 => rfl
  rw [e]
  unfold DoublePeek.peek
  rw [if_pos ⟨hu, by omega⟩]

theorem PeekAt.full {it : Str} {n : Nat} {p : DoublePeek} (h : PeekAt it n 2 p) (hu : p.unpeek = false) :
    ∃ p', p.peek = .ok (none, p') ∧ PeekAt it n 2 p' ∧ p'.unpeek = false := by
  refine ⟨{ p with unpeek := false }, ?_, h.unpeek false, rfl⟩
  unfold DoublePeek.peek
  rw [if_neg (by simp [hu]), if_pos h.1]

theorem PeekAt.further {it : Str} {n held : Nat} {p : DoublePeek} (h : PeekAt it n held p)
    (hu : p.unpeek = false ∨ held = 0) (h2' : held ≠ 2) : ∃ p', p.peek = .ok (it[n + held]?, p') ∧
      PeekAt it n (if n + held < it.length then held + 1 else held) p' ∧ p'.unpeek = false := by
  obtain ⟨h1, h2, h3, h4⟩ := h
  obtain ⟨iter, c0, c1, stored, unpeek⟩ := p
  simp only at h1 hu
  subst h1
  have h01 : stored = 0 ∨ stored = 1 := by omega
  have hit : iter = it.drop (n + stored) := by
    rcases h01 with rfl | rfl
    · simpa [DoublePeek.content] using h3
    · have := congrArg List.tail h3
      simpa [DoublePeek.content, List.tail_drop] using this
  have hg : it[n + stored]? = iter.head? := by rw [hit, List.head?_drop]
  have hl : iter.length = it.length - (n + stored) := by rw [hit, List.length_drop]
  have hnu : ¬ ((unpeek = true) ∧ stored > 0) := by
    rintro ⟨ha, hb⟩
    rcases hu with hu | hu
    · rw [ha] at hu; exact absurd hu (by decide)
    · omega
  rw [hg]
  unfold DoublePeek.peek
  rw [if_neg hnu, if_neg h2']
  cases iter with
  | nil =>
    rw [if_neg (by simp at hl; omega)]
    exact ⟨_, rfl, ⟨rfl, h2, h3, h4⟩, rfl⟩
  | cons v rest =>
    rw [if_pos (by simp at hl; omega)]
    rcases h01 with rfl | rfl
    · refine ⟨_, rfl, ⟨rfl, by omega, by simpa [DoublePeek.content] using h3, .inr ?_⟩, rfl⟩
      simp at hl; omega
    · refine ⟨_, rfl, ⟨rfl, by omega, by simpa [DoublePeek.content] using h3, .inr ?_⟩, rfl⟩
      simp at hl; omega

theorem runOps_shows (it : Str) (ops : List PeekOp) (n held : Nat) (p : DoublePeek) (h : PeekAt it n held p) :
    ∃ q m, p.runOps ops = .ok (shows it n held p.unpeek ops, q) ∧ PeekAt it (n + takenOf ops) m q := by
  induction ops generalizing n held p with
  | nil => exact ⟨p, held, rfl, h⟩
  | cons op ops ih =>
    cases op with
    | next =>
      obtain ⟨k1, k2, k3⟩ := h.next
      obtain ⟨q, m, e, hq⟩ := ih _ _ _ k2
      refine ⟨q, m, ?_, ?_⟩
      · simp only [DoublePeek.runOps, e, Res.bind, shows, k1, k3]
      · have : takenOf (PeekOp.next :: ops) = takenOf ops + 1 := by simp [takenOf]
        rw [this, Nat.add_comm (takenOf ops), ← Nat.add_assoc]
        exact hq
    | unpeek =>
      obtain ⟨q, m, e, hq⟩ := ih _ _ _ (h.unpeek true)
      refine ⟨q, m, by simp only [DoublePeek.runOps, e, shows], ?_⟩
      have : takenOf (PeekOp.unpeek :: ops) = takenOf ops := by simp [takenOf]
      rw [this]
      exact hq
    | peek =>
      have ht : takenOf (PeekOp.peek :: ops) = takenOf ops := by simp [takenOf]
      rw [ht]
      have go : ∀ o held' p', p.peek = .ok (o, p') → PeekAt it n held' p' → p'.unpeek = false →
          shows it n held p.unpeek (.peek :: ops) = o :: shows it n held' false ops →
          ∃ q m, p.runOps (.peek :: ops) = .ok (shows it n held p.unpeek (.peek :: ops), q) ∧
            PeekAt it (n + takenOf ops) m q := by
        intro o held' p' e1 e2 e3 e4
        obtain ⟨q, m, e, hq⟩ := ih _ _ _ e2
        rw [e3] at e
        exact ⟨q, m, by simp only [DoublePeek.runOps, e1, e, Res.bind, e4], hq⟩
      by_cases hu : p.unpeek = true
      · by_cases h0 : held = 0
        · obtain ⟨p', e1, e2, e3⟩ := h.further (.inr h0) (by omega)
          refine go _ _ p' e1 e2 e3 ?_
          rw [hu, h0]
          simp [shows]
        · obtain ⟨p', e1, e2, e3⟩ := h.again hu h0
          refine go _ _ p' e1 e2 e3 ?_
          rw [hu]
          simp [shows, h0]
      · have hu' : p.unpeek = false := by simpa using hu
        by_cases h2 : held = 2
        · subst h2
          obtain ⟨p', e1, e2, e3⟩ := h.full hu'
          refine go _ _ p' e1 e2 e3 ?_
          rw [hu']
          simp [shows]
        · obtain ⟨p', e1, e2, e3⟩ := h.further (.inl hu') h2
          refine go _ _ p' e1 e2 e3 ?_
          rw [hu']
          simp [shows, h2]

end Octane
