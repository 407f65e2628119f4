import Verif.Proof.Movers
import Verif.Proof.ProcessRun
/-
The requests of a process whose handlers are not between two accesses (for C104 and C157).
-/
namespace Octane
open Spec

variable {W : Type u}

/-- what the tasks of the connections say about the requests -/
theorem standing_quiet {sv : PServer W} {z : SSys W} {order : List Nat} (hn : order.Nodup)
    (hl : order.length = z.jobs.length) {conns : List (PConn W)}
    (hin : ∀ i ∈ order, i < conns.length)
    (hst : ∀ (i : Nat) (c : PConn W), conns[i]? = some c → ∃ b, StandsFor sv z order i b c.task)
    (hq : ∀ (i : Nat) (c : PConn W) req reads, conns[i]? = some c → c.task = .handling req reads →
      ∀ u, sv.stage req reads ≠ .wants u) (j : Nat) (k : SJob W) (hk : z.jobs[j]? = some k) :
    (∀ req, k ≠ .ready req) ∧ ∀ p, k = .running p → ∀ u n, p ≠ .act u n := by
  have hjl := (List.getElem?_eq_some_iff.1 hk).1
  rw [← hl] at hjl
  have hi : order[j]? = some order[j] := by simp [hjl]
  generalize order[j] = i at hi
  have hmem : i ∈ order := List.mem_of_getElem? hi
  have hil := hin i hmem
  have hc : conns[i]? = some (conns[i]'hil) := by simp
  obtain ⟨b, hs⟩ := hst i _ hc
  have hans : ∀ b out, Answered sv z order i b out → ∃ r, k = .done r out := by
    rintro b out (⟨j', r', a1, a2⟩ | ⟨a, -⟩)
    · rw [nodup_get hn a1 hi, hk] at a2
      injection a2 with a2
      exact ⟨r', a2⟩
    · exact absurd hmem a
  have hdone : (∃ r out, k = .done r out) →
      (∀ req, k ≠ .ready req) ∧ ∀ p, k = .running p → ∀ u n, p ≠ .act u n := by
    rintro ⟨r, out, rfl⟩
    exact ⟨by simp, by simp⟩
  cases ht : (conns[i]'hil).task with
  | handshake => rw [ht] at hs; exact absurd hmem hs
  | reading _ => rw [ht] at hs; exact absurd hmem hs
  | refused => rw [ht] at hs; exact absurd hmem hs
  | handling req reads =>
    rw [ht] at hs
    obtain ⟨j', p', a1, a2, a3⟩ := hs
    rw [nodup_get hn a1 hi, hk] at a2
    injection a2 with a2
    subst a2
    refine ⟨by simp, ?_⟩
    intro p hp u n hun
    injection hp with hp
    subst hp
    rw [hun] at a3
    cases hsg : sv.stage req reads with
    | wants u' => exact hq i _ req reads hc ht u' hsg
    | _ => rw [hsg] at a3; exact a3
  | writing a b => rw [ht] at hs; obtain ⟨r, h⟩ := hans _ _ hs; exact hdone ⟨r, _, h⟩
  | finished a => rw [ht] at hs; obtain ⟨r, h⟩ := hans _ _ hs; exact hdone ⟨r, _, h⟩
  | broken a => rw [ht] at hs; obtain ⟨_, hs⟩ := hs; obtain ⟨r, h⟩ := hans _ _ hs; exact hdone ⟨r, _, h⟩
  | panicked =>
    rw [ht] at hs
    rcases hs with ⟨j', a1, a2⟩ | ⟨a, -⟩
    · rw [nodup_get hn a1 hi, hk] at a2
      injection a2 with a2
      subst a2
      exact ⟨by simp, by simp⟩
    · exact absurd hmem a

theorem getElem?_idxOf {l : List Nat} {i : Nat} (h : i ∈ l) : l[l.idxOf i]? = some i := by
  induction l with
  | nil => cases h
  | cons x l ih =>
    rw [List.idxOf_cons]
    by_cases hx : x = i
    · simp [hx]
    · have hx' : (x == i) = false := by simpa using hx
      rw [hx', cond_false, List.getElem?_cons_succ]
      exact ih ((List.mem_cons.1 h).resolve_left (Ne.symm hx))

theorem rename_run (f : Nat → Nat) (items : List (Item W)) :
    (items.map (Item.rename f)).filterMap Item.run? = (items.filterMap Item.run?).map fun x => (f x.1, x.2) := by
  induction items with
  | nil => rfl
  | cons x items ih =>
    cases x with
    | env g =>
      rw [List.filterMap_cons_none (show Item.run? (Item.env g) = none from rfl), List.map_cons,
        List.filterMap_cons_none (show Item.run? (Item.rename f (Item.env g)) = none from rfl)]
      exact ih
    | job i p =>
      rw [List.filterMap_cons_some (show Item.run? (Item.job i p) = some (i, p) from rfl), List.map_cons,
        List.filterMap_cons_some (show Item.run? (Item.rename f (Item.job i p)) = some (f i, p) from rfl), List.map_cons, ih]

theorem job_run (items : List (Item W)) : items.filterMap Item.job? = (items.filterMap Item.run?).map (·.1) := by
  induction items with
  | nil => rfl
  | cons x items ih =>
    cases x with
    | env g =>
      rw [List.filterMap_cons_none (show Item.run? (Item.env g) = none from rfl),
        List.filterMap_cons_none (show Item.job? (Item.env g) = none from rfl)]
      exact ih
    | job i p =>
      rw [List.filterMap_cons_some (show Item.run? (Item.job i p) = some (i, p) from rfl),
        List.filterMap_cons_some (show Item.job? (Item.job i p) = some i from rfl), List.map_cons, ih]

theorem mem_run {i : Nat} {p : Prog W Reply} {items : List (Item W)} :
    .job i p ∈ items ↔ (i, p) ∈ items.filterMap Item.run? := by
  rw [List.mem_filterMap]
  constructor
  · exact fun h => ⟨_, h, rfl⟩
  · rintro ⟨x, h1, h2⟩
    cases x with
    | env g => cases h2
    | job j q =>
      simp only [Item.run?, Option.some.injEq, Prod.mk.injEq] at h2
      obtain ⟨rfl, rfl⟩ := h2
      exact h1

end Octane
