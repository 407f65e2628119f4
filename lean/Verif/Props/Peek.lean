import Verif.Proof.Peek
/-
C172: what looking ahead with `DoublePeek` shows, and that it loses nothing.
-/
namespace Octane
open Spec Query

/-- C172: whatever is done with it, a `DoublePeek` does not panic and every call returns the item of the list that `shows`
names by its position. -/
theorem C172_exact (it : Str) (ops : List PeekOp) :
    ∃ q, (DoublePeek.new it).runOps ops = .ok (shows it 0 0 false ops, q) := by
  obtain ⟨q, _, e, -⟩ := runOps_shows it ops 0 0 _ (PeekAt.new it)
  exact ⟨q, e⟩

/-- C172: looking ahead loses nothing: after any uses `next` returns the first item not yet taken. -/
theorem C172_next (it : Str) (ops : List PeekOp) :
    ∃ outs q q', (DoublePeek.new it).runOps ops = .ok (outs, q) ∧ q.next = (it[takenOf ops]?, q') := by
  obtain ⟨q, m, e, hq⟩ := runOps_shows it ops 0 0 _ (PeekAt.new it)
  obtain ⟨h1, -⟩ := hq.next
  rw [Nat.zero_add] at h1
  exact ⟨_, q, q.next.2, e, by rw [← h1]⟩

/-- C172: after any uses, the first look after `unpeek` has been set shows the first item not yet taken. -/
theorem C172_first (it : Str) (ops : List PeekOp) :
    ∃ outs q q', (DoublePeek.new it).runOps ops = .ok (outs, q) ∧
      ({ q with unpeek := true } : DoublePeek).peek = .ok (it[takenOf ops]?, q') := by
  obtain ⟨q, m, e, hq⟩ := runOps_shows it ops 0 0 _ (PeekAt.new it)
  rw [Nat.zero_add] at hq
  by_cases h0 : m = 0
  · obtain ⟨p', h, -⟩ := (hq.unpeek true).further (.inr h0) (by omega)
    subst h0
    exact ⟨_, q, p', e, h⟩
  · obtain ⟨p', h, -⟩ := (hq.unpeek true).again rfl h0
    exact ⟨_, q, p', e, h⟩

/-- What one expects of the two looks after `unpeek` has been set: the two items after those taken. -/
def TwoLooks (it : Str) (ops : List PeekOp) : Prop :=
  ∃ outs q q' q'', (DoublePeek.new it).runOps ops = .ok (outs, q) ∧
    ({ q with unpeek := true } : DoublePeek).peek = .ok (it[takenOf ops]?, q') ∧
    q'.peek = .ok (it[takenOf ops + 1]?, q'')

/-- C172: right after a call of `next`, as `unescape_hex` uses it, they are. -/
theorem C172_two (it : Str) (ops : List PeekOp) : TwoLooks it (ops ++ [.next]) := by
  have happ : ∀ (ops : List PeekOp) (p : DoublePeek) outs q, p.runOps ops = .ok (outs, q) →
      p.runOps (ops ++ [.next]) = .ok (outs ++ [q.next.1], q.next.2) := by
    intro ops
    induction ops with
    | nil =>
      intro p outs q h
      simp only [DoublePeek.runOps, Res.ok.injEq, Prod.mk.injEq] at h
      obtain ⟨rfl, rfl⟩ := h
      rfl
    | cons op ops ih =>
      intro p outs q h
      cases op with
      | next =>
        simp only [DoublePeek.runOps] at h
        cases hr : p.next.2.runOps ops with
        | panic => rw [hr] at h; simp [Res.bind] at h
        | ok v =>
          rw [hr] at h
          simp only [Res.bind, Res.ok.injEq, Prod.mk.injEq] at h
          obtain ⟨rfl, rfl⟩ := h
          simp only [List.cons_append, DoublePeek.runOps, ih _ _ _ hr, Res.bind]
      | unpeek => exact ih _ _ _ h
      | peek =>
        simp only [DoublePeek.runOps] at h
        cases hp : p.peek with
        | panic => rw [hp] at h; simp [Res.bind] at h
        | ok u =>
          rw [hp] at h
          simp only [Res.bind] at h
          cases hr : u.2.runOps ops with
          | panic => rw [hr] at h; simp at h
          | ok v =>
            rw [hr] at h
            simp only [Res.ok.injEq, Prod.mk.injEq] at h
            obtain ⟨rfl, rfl⟩ := h
            simp only [List.cons_append, DoublePeek.runOps, hp, ih _ _ _ hr, Res.bind]
  obtain ⟨q, m, e, hq⟩ := runOps_shows it ops 0 0 _ (PeekAt.new it)
  rw [Nat.zero_add] at hq
  obtain ⟨-, h1, -⟩ := hq.next
  have ht : takenOf (ops ++ [.next]) = takenOf ops + 1 := by simp [takenOf]
  have hm := h1.2.1
  have hm2 := hq.2.1
  by_cases h0 : m - 1 = 0
  · rw [h0] at h1
    obtain ⟨p', k1, k2, k3⟩ := (h1.unpeek true).further (.inr rfl) (by omega)
    obtain ⟨p'', k4, -⟩ := k2.further (.inl k3) (by split <;> omega)
    refine ⟨_, _, p', p'', happ _ _ _ _ e, by rw [ht]; exact k1, ?_⟩
    rw [ht, k4]
    split
    · rfl
    · rw [List.getElem?_eq_none (by omega), List.getElem?_eq_none (by omega)]
  · have e1 : m - 1 = 1 := by omega
    rw [e1] at h1
    obtain ⟨p', k1, k2, k3⟩ := (h1.unpeek true).again rfl (by omega)
    obtain ⟨p'', k4, -⟩ := k2.further (.inl k3) (by omega)
    exact ⟨_, _, p', p'', happ _ _ _ _ e, by rw [ht]; exact k1, by rw [ht]; exact k4⟩

/-- C172: in general they are not: once two items have been looked at, looking again shows the first and then none. -/
theorem C172_two_not : ¬ ∀ it ops, TwoLooks it ops := by
  intro h
  obtain ⟨outs, q, q', q'', h1, h2, h3⟩ := h c!"ab" [.peek, .peek]
  have e1 : (DoublePeek.new c!"ab").runOps [.peek, .peek] = .ok ([some 'a', some 'b'], ⟨[], 'a', 'b', 2, false⟩) := rfl
  rw [e1] at h1
  simp only [Res.ok.injEq, Prod.mk.injEq] at h1
  obtain ⟨-, rfl⟩ := h1
  have e2 : (⟨[], 'a', 'b', 2, true⟩ : DoublePeek).peek = .ok (some 'a', ⟨[], 'a', 'b', 2, false⟩) := rfl
  rw [e2] at h2
  simp only [Res.ok.injEq, Prod.mk.injEq] at h2
  obtain ⟨-, rfl⟩ := h2
  have e3 : (⟨[], 'a', 'b', 2, false⟩ : DoublePeek).peek = .ok (none, ⟨[], 'a', 'b', 2, false⟩) := rfl
  rw [e3] at h3
  simp only [Res.ok.injEq, Prod.mk.injEq] at h3
  exact absurd h3.1 (by decide)

/-- both are looked at, one is taken, both are looked at again, and nothing is lost -/
example : shows c!"abc" 0 0 false [.peek, .peek, .peek, .next, .unpeek, .peek, .peek, .next, .next, .next] =
    [some 'a', some 'b', none, some 'a', some 'b', some 'c', some 'b', some 'c', none] := by decide

example : takenOf [.peek, .peek, .next, .unpeek, .peek, .next] = 2 ∧ c!"abc"[2]? = some 'c' := by decide

end Octane
