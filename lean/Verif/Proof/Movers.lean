import Verif.Spec.Movers
import Verif.Proof.Parallel
/-
Reordering the accesses of requests that are handled at the same time (for C84 and C157).
-/
namespace Octane
open Spec

variable {W : Type u}

theorem Prog.AllBut.mono {free free' : (W → W) → (W → Prog W α) → Prop} (hf : ∀ u n, free u n → free' u n)
    {p : Prog W α} {k : Nat} (h : p.AllBut free k) : p.AllBut free' k := by
  induction p generalizing k with
  | act u n ih =>
    rcases h with ⟨a, b⟩ | ⟨a, b⟩
    · exact .inl ⟨hf _ _ a, fun w => ih w (b w)⟩
    · exact .inr ⟨a, fun w => ih w (b w)⟩
  | _ => trivial

namespace Movers

/-- one access of a request (and whether it is known to be free), or another change of the shared state -/
inductive Tick (W : Type u) where
  | acc (i : Nat) (free : Bool)
  | env (f : W → W)

def Tick.owner : Tick W → Option Nat
  | .acc i _ => some i
  | .env _ => none

def Tick.free : Tick W → Bool
  | .acc _ b => b
  | .env _ => false

def Tick.env? : Tick W → Option (W → W)
  | .env f => some f
  | _ => none

/-- the shared state, and what is left of the program of each request -/
abbrev Cfg (W : Type u) := W × (Nat → Prog W Reply)

def put (P : Nat → Prog W Reply) (i : Nat) (p : Prog W Reply) : Nat → Prog W Reply := fun j => if j = i then p else P j

theorem put_self (P : Nat → Prog W Reply) (i : Nat) (p : Prog W Reply) : put P i p i = p := by simp [put]
theorem put_ne (P : Nat → Prog W Reply) {i j : Nat} (h : j ≠ i) (p : Prog W Reply) : put P i p j = P j := by simp [put, h]
theorem put_comm (P : Nat → Prog W Reply) {i j : Nat} (h : i ≠ j) (p q : Prog W Reply) :
    put (put P i p) j q = put (put P j q) i p := by
  funext k
  simp only [put]
  by_cases h1 : k = j <;> by_cases h2 : k = i <;> simp_all

/-- request `j` runs `progs j` -/
def runsOf (progs : Nat → Prog W Reply) : Nat → Prog W Reply → Prop := fun j p => p = progs j

variable (progs : Nat → Prog W Reply) (E : List (W → W))

/-- one tick -/
def Tk (c : Cfg W) : Tick W → Cfg W → Prop
  | .env f, c' => f ∈ E ∧ c' = (f c.1, c.2)
  | .acc i b, c' => ∃ u n, c.2 i = .act u n ∧ (progs i).Makes u n ∧ (b = true → Free (runsOf progs) E i u n) ∧
      c' = (u c.1, put c.2 i (n c.1))

def RunT : Cfg W → List (Tick W) → Cfg W → Prop
  | c, [], c' => c = c'
  | c, t :: l, c' => ∃ m, Tk progs E c t m ∧ RunT m l c'

variable {progs E}

theorem RunT.append_iff {a b : List (Tick W)} {c c' : Cfg W} :
    RunT progs E c (a ++ b) c' ↔ ∃ m, RunT progs E c a m ∧ RunT progs E m b c' := by
  induction a generalizing c with
  | nil => exact ⟨fun h => ⟨c, rfl, h⟩, fun ⟨m, h1, h2⟩ => by rw [show c = m from h1]; exact h2⟩
  | cons x a ih =>
    constructor
    · rintro ⟨m, h1, h2⟩
      obtain ⟨m', h3, h4⟩ := ih.1 h2
      exact ⟨m', ⟨m, h1, h3⟩, h4⟩
    · rintro ⟨m', ⟨m, h1, h3⟩, h4⟩
      exact ⟨m, h1, ih.2 ⟨m', h3, h4⟩⟩

theorem swap {c m c' : Cfg W} {e f : Tick W} (h1 : Tk progs E c e m) (h2 : Tk progs E m f c')
    (ho : e.owner ≠ f.owner) (hf : e.free = true ∨ f.free = true) :
    ∃ m', Tk progs E c f m' ∧ Tk progs E m' e c' := by
  obtain ⟨w, P⟩ := c
  cases e with
  | env f1 =>
    cases f with
    | env f2 => exact absurd rfl ho
    | acc i b =>
      obtain ⟨g1, rfl⟩ := h1
      obtain ⟨u, n, a1, a2, a3, rfl⟩ := h2
      have hb : b = true := by simpa [Tick.free] using hf
      obtain ⟨e1, e2⟩ := (a3 hb).2 f1 g1 w
      exact ⟨_, ⟨u, n, a1, a2, a3, rfl⟩, g1, by simp only [e1, e2]⟩
  | acc i b =>
    obtain ⟨u, n, a1, a2, a3, rfl⟩ := h1
    cases f with
    | env f2 =>
      obtain ⟨g1, rfl⟩ := h2
      have hb : b = true := by simpa [Tick.free] using hf
      obtain ⟨e1, e2⟩ := (a3 hb).2 f2 g1 w
      exact ⟨_, ⟨g1, rfl⟩, u, n, a1, a2, a3, by simp only [e1, e2]⟩
    | acc j b' =>
      have hij : i ≠ j := fun h => ho (by simp [Tick.owner, h])
      obtain ⟨u', n', a1', a2', a3', rfl⟩ := h2
      simp only [put_ne P (Ne.symm hij)] at a1'
      have hc : u' (u w) = u (u' w) ∧ n' (u w) = n' w ∧ n (u' w) = n w := by
        rcases hf with hf | hf
        · exact (a3 hf).1 j _ (Ne.symm hij) rfl u' n' a2' w
        · obtain ⟨e1, e2, e3⟩ := (a3' hf).1 i _ hij rfl u n a2 w
          exact ⟨e1.symm, e3, e2⟩
      obtain ⟨e1, e2, e3⟩ := hc
      refine ⟨_, ⟨u', n', a1', a2', a3', rfl⟩, u, n, ?_, a2, a3, ?_⟩
      · simp only [put_ne P hij]; exact a1
      · simp only [e1, e2, e3]
        rw [put_comm P hij]

/-- a tick moves behind others -/
theorem move {e : Tick W} {l : List (Tick W)} (hl : ∀ f ∈ l, e.owner ≠ f.owner ∧ (e.free = true ∨ f.free = true))
    {c c' : Cfg W} (h : RunT progs E c (e :: l) c') : RunT progs E c (l ++ [e]) c' := by
  induction l generalizing c with
  | nil => exact h
  | cons f l ih =>
    obtain ⟨m, h1, m2, h2, h3⟩ := h
    obtain ⟨m', g1, g2⟩ := swap h1 h2 (hl f (by simp)).1 (hl f (by simp)).2
    exact ⟨m', g1, ih (fun x hx => hl x (by simp [hx])) ⟨m2, g2, h3⟩⟩

def mine (i : Nat) (t : Tick W) : Bool := t.owner == some i

theorem mine_iff {i : Nat} {t : Tick W} : mine i t = true ↔ t.owner = some i := by simp [mine]

theorem pairwise_of {α : Type v} {R : α → α → Prop} {l : List α} (h : ∀ a ∈ l, ∀ b ∈ l, R a b) : l.Pairwise R := by
  induction l with
  | nil => exact .nil
  | cons x l ih =>
    exact .cons (fun b hb => h x (by simp) b (by simp [hb])) (ih fun a ha b hb => h a (by simp [ha]) b (by simp [hb]))

/-- all ticks of one request move to the end -/
theorem gather (i : Nat) {t : List (Tick W)}
    (hp : t.Pairwise fun e f => e.owner = some i → f.owner ≠ some i → e.free = true ∨ f.free = true)
    {c c' : Cfg W} (h : RunT progs E c t c') :
    RunT progs E c (t.filter (fun x => !mine i x) ++ t.filter (mine i)) c' := by
  induction t generalizing c with
  | nil => exact h
  | cons x t ih =>
    obtain ⟨m, h1, h2⟩ := h
    rw [List.pairwise_cons] at hp
    have h3 := ih hp.2 h2
    by_cases hx : mine i x = true
    · simp only [List.filter_cons, hx, Bool.not_true, Bool.false_eq_true, if_false, if_true]
      obtain ⟨m', g1, g2⟩ := RunT.append_iff.1 h3
      have hx' := mine_iff.1 hx
      have := move (e := x) (l := t.filter (fun x => !mine i x)) (by
        intro f hf
        obtain ⟨f1, f2⟩ := List.mem_filter.1 hf
        have f3 : f.owner ≠ some i := by
          intro h; rw [mine_iff.2 h] at f2; simp at f2
        exact ⟨by rw [hx']; exact Ne.symm f3, hp.1 f f1 hx' f3⟩) ⟨m, h1, g1⟩
      obtain ⟨m1, g3, m2, g4, rfl⟩ := RunT.append_iff.1 this
      exact RunT.append_iff.2 ⟨m1, g3, m2, g4, g2⟩
    · simp only [List.filter_cons, hx, Bool.not_false, if_true, Bool.false_eq_true, if_false, List.cons_append]
      exact ⟨m, h1, h3⟩

theorem untouched {i : Nat} {t : List (Tick W)} (ht : ∀ x ∈ t, x.owner ≠ some i) {c c' : Cfg W}
    (h : RunT progs E c t c') : c'.2 i = c.2 i := by
  induction t generalizing c with
  | nil => rw [show c = c' from h]
  | cons x t ih =>
    obtain ⟨m, h1, h2⟩ := h
    rw [ih (fun x hx => ht x (by simp [hx])) h2]
    cases x with
    | env f => obtain ⟨-, rfl⟩ := h1; rfl
    | acc j b =>
      obtain ⟨u, n, -, -, -, rfl⟩ := h1
      exact put_ne _ (fun hij => ht (.acc j b) (by simp) (by simp [Tick.owner, hij])) _

/-- a program that has come to its end -/
theorem ended_of {p : Prog W Reply} (h : ∀ u n, p ≠ .act u n) : ∃ o, Ended p o := by
  cases p with
  | ret r => exact ⟨.ret r, rfl⟩
  | panic => exact ⟨.panic, rfl⟩
  | hang => exact ⟨.hang, rfl⟩
  | act u n => exact absurd rfl (h u n)

/-- the ticks of one request are its whole program -/
theorem solo {i : Nat} {t : List (Tick W)} (ht : ∀ x ∈ t, x.owner = some i) {c c' : Cfg W}
    (h : RunT progs E c t c') {o : Ending Reply} (ho : Ended (c'.2 i) o) :
    (c.2 i).atomically c.1 = (c'.1, o) := by
  induction t generalizing c with
  | nil => rw [show c = c' from h]; exact ho.atomically _
  | cons x t ih =>
    obtain ⟨m, h1, h2⟩ := h
    have hx := ht x (by simp)
    cases x with
    | env f => cases hx
    | acc j b =>
      injection hx with hx
      subst hx
      obtain ⟨u, n, a, -, -, rfl⟩ := h1
      have := ih (fun x hx => ht x (by simp [hx])) h2
      simp only [put_self] at this
      rw [a]
      exact this

theorem env_filter (i : Nat) (t : List (Tick W)) :
    (t.filter fun x => !mine i x).filterMap Tick.env? = t.filterMap Tick.env? := by
  induction t with
  | nil => rfl
  | cons x t ih =>
    cases x with
    | env f => simpa [mine, Tick.owner, Tick.env?] using ih
    | acc j b =>
      simp only [List.filter_cons]
      rw [List.filterMap_cons_none (show Tick.env? (Tick.acc (W := W) j b) = none from rfl)]
      split
      · rw [List.filterMap_cons_none (show Tick.env? (Tick.acc (W := W) j b) = none from rfl)]; exact ih
      · exact ih

/-- the accesses of request `i` not known to be free -/
def bound (i : Nat) : Tick W → Bool
  | .acc j b => j == i && !b
  | .env _ => false

/-- the last tick that is not free -/
theorem last_bound (t : List (Tick W)) :
    (∀ x ∈ t, x.free = true) ∨ ∃ a x b, t = a ++ x :: b ∧ x.free = false ∧ ∀ y ∈ b, y.free = true := by
  induction t with
  | nil => exact .inl (by simp)
  | cons y t ih =>
    rcases ih with h | ⟨a, x, b, rfl, h1, h2⟩
    · cases hy : y.free with
      | true => exact .inl (by simp [hy]; exact h)
      | false => exact .inr ⟨[], y, t, rfl, hy, h⟩
    · exact .inr ⟨y :: a, x, b, rfl, h1, h2⟩

/-- How the requests that made accesses are handled one after the other. -/
def Serial (progs : Nat → Prog W Reply) (w0 : W) (t : List (Tick W)) (c : Cfg W) (items : List (Item W)) : Prop :=
  items.filterMap Item.env? = t.filterMap Tick.env? ∧ (items.filterMap Item.job?).Nodup ∧
  (∀ i p, .job i p ∈ items → p = progs i ∧ ∃ b, .acc i b ∈ t) ∧ c.1 = (serially w0 items).1 ∧
  ∀ i b, .acc i b ∈ t → ∃ o, Ended (c.2 i) o ∧ (i, o) ∈ (serially w0 items).2

theorem serial_env {w0 : W} {t t' : List (Tick W)} {f : W → W} {m c : Cfg W} {items : List (Item W)}
    (hs : Serial progs w0 t m items) (h : Tk progs E m (.env f) c)
    (he : t'.filterMap Tick.env? = t.filterMap Tick.env? ++ [f]) (ha : ∀ i b, .acc i b ∈ t' ↔ .acc i b ∈ t) :
    Serial progs w0 t' c (items ++ [.env f]) := by
  obtain ⟨s1, s2, s3, s4, s5⟩ := hs
  obtain ⟨-, rfl⟩ := h
  have hser : serially w0 (items ++ [.env f]) = (f m.1, (serially w0 items).2) := by
    rw [serially_append, ← s4]; simp [serially]
  refine ⟨?_, ?_, ?_, ?_, ?_⟩
  · rw [he, List.filterMap_append, s1]; rfl
  · rw [List.filterMap_append, List.filterMap_cons_none (show Item.job? (Item.env f) = none from rfl)]; simpa using s2
  · intro i p hip
    simp only [List.mem_append, List.mem_singleton, reduceCtorEq, or_false] at hip
    obtain ⟨h1, b, h2⟩ := s3 i p hip
    exact ⟨h1, b, (ha i b).2 h2⟩
  · rw [hser]
  · intro i b hib
    rw [hser]
    exact s5 i b ((ha i b).1 hib)

theorem serial_order : ∀ (n : Nat) (t : List (Tick W)), t.length ≤ n → ∀ (w0 : W) (c : Cfg W),
    RunT progs E (w0, progs) t c → (∀ i, (t.filter (bound i)).length ≤ 1) →
    (∀ i b, .acc i b ∈ t → ∀ u n, c.2 i ≠ .act u n) → ∃ items, Serial progs w0 t c items := by
  intro n
  induction n with
  | zero =>
    intro t ht w0 c h _ _
    have : t = [] := List.length_eq_zero_iff.1 (by omega)
    subst this
    cases (show (w0, progs) = c from h)
    exact ⟨[], rfl, List.nodup_nil, by simp, rfl, by simp⟩
  | succ n ih =>
    intro t ht w0 c h hb hq
    -- a request all of whose ticks can move to the end
    have request : ∀ i, (∃ b, .acc i b ∈ t) →
        (t.Pairwise fun e f => e.owner = some i → f.owner ≠ some i → e.free = true ∨ f.free = true) →
        ∃ items, Serial progs w0 t c items := by
      rintro i ⟨bi, hi⟩ hp
      obtain ⟨m, h1, h2⟩ := RunT.append_iff.1 (gather i hp h)
      have hnot : ∀ x ∈ t.filter (fun x => !mine i x), x.owner ≠ some i := by
        intro x hx hx'
        have := (List.mem_filter.1 hx).2
        rw [mine_iff.2 hx'] at this
        simp at this
      have hmi : m.2 i = progs i := untouched hnot h1
      have hmj : ∀ j, j ≠ i → c.2 j = m.2 j := fun j hj => untouched (by
        intro x hx hx'
        have := mine_iff.1 (List.mem_filter.1 hx).2
        rw [hx'] at this
        injection this with this
        exact hj this) h2
      have hlen : (t.filter fun x => !mine i x).length ≤ n := by
        have hlt : (t.filter fun x => !mine i x).length < t.length := by
          refine List.length_filter_lt_length_iff_exists.2 ⟨_, hi, ?_⟩
          simp [mine, Tick.owner]
        omega
      obtain ⟨items, s1, s2, s3, s4, s5⟩ := ih _ hlen w0 m h1 (fun j =>
          Nat.le_trans (((List.filter_sublist (p := fun x => !mine i x) (l := t)).filter (bound j)).length_le) (hb j)) (by
        intro j b hj u n'
        have hji : j ≠ i := fun he => hnot _ hj (by simp [Tick.owner, he])
        rw [← hmj j hji]
        exact hq j b (List.mem_filter.1 hj).1 u n')
      obtain ⟨o, ho⟩ := ended_of (hq i bi hi)
      have hs := solo (fun x hx => mine_iff.1 (List.mem_filter.1 hx).2) h2 ho
      rw [hmi] at hs
      have hser : serially w0 (items ++ [.job i (progs i)]) = (c.1, (serially w0 items).2 ++ [(i, o)]) := by
        rw [serially_append, ← s4]
        simp only [serially, hs]
      refine ⟨items ++ [.job i (progs i)], ?_, ?_, ?_, ?_, ?_⟩
      · rw [List.filterMap_append, s1, env_filter]; simp [Item.env?]
      · rw [List.filterMap_append]
        refine List.nodup_append.2 ⟨s2, by simp [Item.job?], ?_⟩
        intro a ha b hb' hab
        simp only [List.filterMap_cons, Item.job?, List.filterMap_nil, List.mem_singleton] at hb'
        subst hab hb'
        obtain ⟨x, x1, x2⟩ := List.mem_filterMap.1 ha
        cases x <;> simp only [Item.job?, Option.some.injEq, reduceCtorEq] at x2
        subst x2
        obtain ⟨-, b', hb'⟩ := s3 _ _ x1
        exact hnot _ hb' rfl
      · intro j p hj
        rcases List.mem_append.1 hj with hj | hj
        · obtain ⟨g1, b, g2⟩ := s3 j p hj
          exact ⟨g1, b, (List.mem_filter.1 g2).1⟩
        · simp only [List.mem_singleton, Item.job.injEq] at hj
          obtain ⟨rfl, rfl⟩ := hj
          exact ⟨rfl, bi, hi⟩
      · rw [hser]
      · intro j b hj
        rw [hser]
        by_cases hji : j = i
        · subst hji
          exact ⟨o, ho, by simp⟩
        · obtain ⟨o', g1, g2⟩ := s5 j b (List.mem_filter.2 ⟨hj, by simp [mine, Tick.owner, hji]⟩)
          exact ⟨o', by rw [hmj j hji]; exact g1, by simp [g2]⟩
    rcases last_bound t with hall | ⟨a, x, b, rfl, hx, hbf⟩
    · -- everything is free
      cases t with
      | nil =>
        cases (show (w0, progs) = c from h)
        exact ⟨[], rfl, List.nodup_nil, by simp, rfl, by simp⟩
      | cons y t =>
        cases y with
        | env f => simpa [Tick.free] using hall (.env f) (by simp)
        | acc i b0 =>
          refine request i ⟨b0, by simp⟩ ?_
          exact pairwise_of (fun e he f _ _ _ => .inl (hall e he))
    · cases x with
      | acc i b0 =>
        have hb0 : b0 = false := hx
        subst hb0
        refine request i ⟨false, by simp⟩ ?_
        have hone := hb i
        rw [List.filter_append, List.filter_cons, if_pos (by simp [bound]), List.length_append, List.length_cons] at hone
        have hfree : ∀ e ∈ a, e.owner = some i → e.free = true := by
          intro e he ho
          cases e with
          | env f => cases ho
          | acc j b1 =>
            injection ho with ho
            subst ho
            cases b1 with
            | true => rfl
            | false =>
              have : Tick.acc j false ∈ a.filter (bound j) := List.mem_filter.2 ⟨he, by simp [bound]⟩
              have := List.length_pos_of_mem this
              omega
        rw [List.pairwise_append]
        refine ⟨?_, ?_, ?_⟩
        · exact pairwise_of (fun e he f _ ho _ => .inl (hfree e he ho))
        · rw [List.pairwise_cons]
          refine ⟨fun f hf _ _ => .inr (hbf f hf), ?_⟩
          exact pairwise_of (fun e he f _ _ _ => .inl (hbf e he))
        · exact fun e he f _ ho _ => .inl (hfree e he ho)
      | env f =>
        obtain ⟨m1, g1, g2⟩ := RunT.append_iff.1 h
        have g3 := move (e := .env f) (l := b) (by
          intro y hy
          refine ⟨?_, .inr (hbf y hy)⟩
          intro ho
          cases y with
          | env f' => simpa [Tick.free] using hbf _ hy
          | acc j b' => cases ho) g2
        obtain ⟨m2, g4, m3, g5, rfl⟩ := RunT.append_iff.1 g3
        have hbe : b.filterMap Tick.env? = [] := by
          rw [List.filterMap_eq_nil_iff]
          intro y hy
          cases y with
          | env f' => simpa [Tick.free] using hbf _ hy
          | acc j b' => rfl
        have hacc : ∀ i b', .acc i b' ∈ a ++ .env f :: b ↔ .acc i b' ∈ a ++ b := by simp
        obtain ⟨items, hs⟩ := ih (a ++ b) (by simp at ht ⊢; omega) w0 m2 (RunT.append_iff.2 ⟨m1, g1, g4⟩)
          (fun i => by
            have := hb i
            simpa [List.filter_append, List.filter_cons, bound] using this)
          (fun i b' hi u n' => by
            have := hq i b' ((hacc i b').2 hi) u n'
            obtain ⟨-, e⟩ := g5
            rw [e] at this
            exact this)
        exact ⟨_, serial_env hs g5 (by simp [List.filterMap_append, hbe, Tick.env?]) hacc⟩

/-- When every access is free, every order has the same effect. -/
theorem any_order (items : List (Item W)) : ∀ (t : List (Tick W)) (w0 : W) (c : Cfg W),
    RunT progs E (w0, progs) t c → (∀ i b, .acc i b ∈ t → b = true) →
    items.filterMap Item.env? = t.filterMap Tick.env? → (items.filterMap Item.job?).Nodup →
    (∀ i p, .job i p ∈ items → p = progs i) → (∀ i b, .acc i b ∈ t → i ∈ items.filterMap Item.job?) →
    (∀ i ∈ items.filterMap Item.job?, ∀ u n, c.2 i ≠ .act u n) →
    c.1 = (serially w0 items).1 ∧
      ∀ i ∈ items.filterMap Item.job?, ∃ o, Ended (c.2 i) o ∧ (i, o) ∈ (serially w0 items).2 := by
  generalize hn : items.length = n
  induction n generalizing items with
  | zero =>
    intro t w0 c h _ he _ _ ha _
    have hit : items = [] := List.length_eq_zero_iff.1 hn
    subst hit
    have : t = [] := by
      cases t with
      | nil => rfl
      | cons x t =>
        cases x with
        | env f => simp [Tick.env?] at he
        | acc i b => simpa using ha i b (by simp)
    subst this
    cases (show (w0, progs) = c from h)
    exact ⟨rfl, by simp⟩
  | succ n ih =>
    intro t w0 c h hf he hnd hp ha hq
    obtain ⟨items, x, rfl⟩ : ∃ l x, items = l ++ [x] := ⟨items.dropLast, items.getLast (by intro h0; simp [h0] at hn),
      (List.dropLast_concat_getLast _).symm⟩
    replace hn : items.length = n := by simpa using hn
    cases x with
    | env f =>
      have ej : (items ++ [Item.env f]).filterMap Item.job? = items.filterMap Item.job? := by
        rw [List.filterMap_append, List.filterMap_cons_none (show Item.job? (Item.env f) = none from rfl)]; simp
      have ee : (items ++ [Item.env f]).filterMap Item.env? = items.filterMap Item.env? ++ [f] := by
        rw [List.filterMap_append]; rfl
      rw [ej] at hnd ha hq ⊢
      rw [ee] at he
      rcases last_bound t with hall | ⟨a, x, b, rfl, hx, hbf⟩
      · exfalso
        have : f ∈ t.filterMap Tick.env? := by rw [← he]; simp
        obtain ⟨y, y1, y2⟩ := List.mem_filterMap.1 this
        cases y with
        | env g => simpa [Tick.free] using hall _ y1
        | acc i b => simp [Tick.env?] at y2
      cases x with
      | acc i b0 =>
        have := hf i b0 (by simp)
        subst this
        simp [Tick.free] at hx
      | env g =>
        obtain ⟨m1, g1, g2⟩ := RunT.append_iff.1 h
        have g3 := move (e := .env g) (l := b) (by
          intro y hy
          refine ⟨?_, .inr (hbf y hy)⟩
          intro ho
          cases y with
          | env f' => simpa [Tick.free] using hbf _ hy
          | acc j b' => cases ho) g2
        obtain ⟨m2, g4, m3, ⟨g5, g6⟩, rfl⟩ := RunT.append_iff.1 g3
        have hbe : b.filterMap Tick.env? = [] := by
          rw [List.filterMap_eq_nil_iff]
          intro y hy
          cases y with
          | env f' => simpa [Tick.free] using hbf _ hy
          | acc j b' => rfl
        have het : (a ++ Tick.env g :: b).filterMap Tick.env? = a.filterMap Tick.env? ++ [g] := by
          simp [List.filterMap_append, hbe, Tick.env?]
        rw [het] at he
        obtain ⟨he1, he2⟩ := List.append_inj' he rfl
        simp only [List.cons.injEq, and_true] at he2
        subst he2
        obtain ⟨r1, r2⟩ := ih items hn (a ++ b) w0 m2 (RunT.append_iff.2 ⟨m1, g1, g4⟩)
          (fun i b' hi => hf i b' (by simp at hi ⊢; exact hi)) (by rw [List.filterMap_append, hbe, List.append_nil]; exact he1)
          hnd (fun i p hi => hp i p (by simp [hi])) (fun i b' hi => ha i b' (by simp at hi ⊢; exact hi))
          (fun i hi u n' => by
            have := hq i hi u n'
            rw [g6] at this
            exact this)
        have hser : serially w0 (items ++ [.env f]) = (f m2.1, (serially w0 items).2) := by
          rw [serially_append, ← r1]; simp [serially]
        rw [hser]
        rw [g6]
        exact ⟨rfl, r2⟩
    | job i p =>
      have ej : (items ++ [Item.job i p]).filterMap Item.job? = items.filterMap Item.job? ++ [i] := by
        rw [List.filterMap_append]; rfl
      have ee : (items ++ [Item.job i p]).filterMap Item.env? = items.filterMap Item.env? := by
        rw [List.filterMap_append, List.filterMap_cons_none (show Item.env? (Item.job i p) = none from rfl)]; simp
      rw [ej] at hnd ha hq ⊢
      rw [ee] at he
      have hip : p = progs i := hp i p (by simp)
      subst hip
      have hni : i ∉ items.filterMap Item.job? := by
        intro hi
        exact (List.nodup_append.1 hnd).2.2 i hi i (by simp) rfl
      obtain ⟨m, h1, h2⟩ := RunT.append_iff.1 (gather i (t := t) (pairwise_of (fun e he' f _ ho _ => by
        cases e with
        | env f => cases ho
        | acc j b => exact .inl (hf j b he'))) h)
      have hnot : ∀ x ∈ t.filter (fun x => !mine i x), x.owner ≠ some i := by
        intro x hx hx'
        have := (List.mem_filter.1 hx).2
        rw [mine_iff.2 hx'] at this
        simp at this
      have hmi : m.2 i = progs i := untouched hnot h1
      have hmj : ∀ j, j ≠ i → c.2 j = m.2 j := fun j hj => untouched (by
        intro x hx hx'
        have := mine_iff.1 (List.mem_filter.1 hx).2
        rw [hx'] at this
        injection this with this
        exact hj this) h2
      obtain ⟨r1, r2⟩ := ih items hn _ w0 m h1 (fun j b hj => hf j b (List.mem_filter.1 hj).1) (by rw [env_filter]; exact he)
        (List.nodup_append.1 hnd).1 (fun j p hj => hp j p (by simp [hj])) (by
          intro j b hj
          rcases List.mem_append.1 (ha j b (List.mem_filter.1 hj).1) with h | h
          · exact h
          · simp only [List.mem_singleton] at h
            exact absurd (by simp [Tick.owner, h]) (hnot _ hj)) (by
          intro j hj u n'
          have hji : j ≠ i := fun e => hni (e ▸ hj)
          rw [← hmj j hji]
          exact hq j (by simp only [List.mem_append]; exact .inl hj) u n')
      obtain ⟨o, ho⟩ := ended_of (hq i (by simp))
      have hs := solo (fun x hx => mine_iff.1 (List.mem_filter.1 hx).2) h2 ho
      rw [hmi] at hs
      have hser : serially w0 (items ++ [.job i (progs i)]) = (c.1, (serially w0 items).2 ++ [(i, o)]) := by
        rw [serially_append, ← r1]
        simp only [serially, hs]
      rw [hser]
      refine ⟨rfl, ?_⟩
      intro j hj
      rcases List.mem_append.1 hj with hj | hj
      · have hji : j ≠ i := fun e => hni (e ▸ hj)
        obtain ⟨o', a1, a2⟩ := r2 j hj
        exact ⟨o', by rw [hmj j hji]; exact a1, by simp [a2]⟩
      · simp only [List.mem_singleton] at hj
        subst hj
        exact ⟨o, ho, by simp⟩

/-! ### The ticks of an execution -/

/-- the program of the request that arrived as number `i` -/
def progOf (prog : Request → Prog W Reply) (arr : List Request) (i : Nat) : Prog W Reply :=
  match arr[i]? with
  | some req => prog req
  | none => .panic

/-- where a request stands -/
def At (write : W → Reply → Res Bytes) (arr : List Request) (t : List (Tick W)) (p : Prog W Reply) (i : Nat) :
    SJob W → Prop
  | .ready req => arr[i]? = some req ∧ ∀ b, .acc i b ∉ t
  | .running q => p = q
  | .done r _ => p = .ret r
  | .dead => p = .panic ∨ ∃ r w, p = .ret r ∧ write w r = .panic

structure Inv (prog : Request → Prog W Reply) (write : W → Reply → Res Bytes) (w0 : W) (arr : List Request)
    (E : List (W → W)) (K : Nat) (z : SSys W) (t : List (Tick W)) (P : Nat → Prog W Reply) : Prop where
  run : RunT (progOf prog arr) E (w0, progOf prog arr) t (z.world, P)
  jobs : ∀ (i : Nat) j, z.jobs[i]? = some j → At write arr t (P i) i j
  here : ∀ i b, .acc i b ∈ t → i < z.jobs.length
  makes : ∀ i u n, (P i).Makes u n → (progOf prog arr i).Makes u n
  budget : ∀ i, ∃ k, (P i).AllBut (Free (runsOf (progOf prog arr)) E i) k ∧ (t.filter (bound i)).length + k ≤ K

variable {prog : Request → Prog W Reply} {write : W → Reply → Res Bytes} {w0 : W} {arr : List Request}
  {K : Nat} {z : SSys W} {t : List (Tick W)} {P : Nat → Prog W Reply}

theorem Inv.set (h : Inv prog write w0 arr E K z t P) (i : Nat) (j : SJob W) (hj : At write arr t (P i) i j) :
    Inv prog write w0 arr E K { z with jobs := z.jobs.set i j } t P := by
  refine ⟨h.run, ?_, ?_, h.makes, h.budget⟩
  · intro k x hk
    rw [List.getElem?_set] at hk
    split at hk
    · rename_i e
      subst e
      split at hk
      · injection hk with hk
        subst hk
        exact hj
      · cases hk
    · exact h.jobs k x hk
  · intro k b hk
    simpa using h.here k b hk

theorem Inv.step (h : Inv prog write w0 arr E K z t P) (e : PEvent W)
    (ha : ∀ req, e = .arrive req → arr[z.jobs.length]? = some req) (hE : ∀ f, e = .env f → f ∈ E) :
    ∃ more P', Inv prog write w0 arr E K (z.step prog write e) (t ++ more) P' ∧
      more.filterMap Tick.env? = e.env?.toList ∧
      (z.step prog write e).jobs.length = z.jobs.length + e.arrive?.toList.length := by
  have same : e.arrive? = none → e.env? = none → z.step prog write e = z →
      ∃ more P', Inv prog write w0 arr E K (z.step prog write e) (t ++ more) P' ∧
        more.filterMap Tick.env? = e.env?.toList ∧
        (z.step prog write e).jobs.length = z.jobs.length + e.arrive?.toList.length := by
    intro h1 h2 h3
    exact ⟨[], P, by simpa [h3] using h, by simp [h2], by simp [h1, h3]⟩
  cases e with
  | arrive req =>
    refine ⟨[], P, ?_, rfl, by simp [SSys.step, PEvent.arrive?]⟩
    rw [List.append_nil]
    refine ⟨h.run, ?_, ?_, h.makes, h.budget⟩
    · intro i j hj
      simp only [SSys.step] at hj
      by_cases hi : i < z.jobs.length
      · rw [List.getElem?_append_left hi] at hj
        exact h.jobs i j hj
      · rw [List.getElem?_append_right (by omega)] at hj
        obtain ⟨h0, hj⟩ := List.getElem?_eq_some_iff.1 hj
        simp only [List.length_singleton] at h0
        have hi' : i = z.jobs.length := by omega
        simp only [List.getElem_singleton] at hj
        subst hj hi'
        exact ⟨ha req rfl, fun b hb => absurd (h.here _ b hb) (Nat.lt_irrefl _)⟩
    · intro i b hi
      have := h.here i b hi
      simp only [SSys.step, List.length_append, List.length_singleton]
      omega
  | env f =>
    refine ⟨[.env f], P, ?_, rfl, by simp [SSys.step, PEvent.arrive?]⟩
    refine ⟨?_, ?_, ?_, h.makes, ?_⟩
    · exact RunT.append_iff.2 ⟨_, h.run, _, ⟨hE f rfl, rfl⟩, rfl⟩
    · intro i j hj
      have := h.jobs i j hj
      cases j with
      | ready req => exact ⟨this.1, fun b hb => this.2 b (by simpa using hb)⟩
      | running q => exact this
      | done r b => exact this
      | dead => exact this
    · intro i b hi
      exact h.here i b (by simpa using hi)
    · intro i
      obtain ⟨k, h1, h2⟩ := h.budget i
      exact ⟨k, h1, by simpa [List.filter_append, bound] using h2⟩
  | start i =>
    cases hi : z.jobs[i]? with
    | none => exact same rfl rfl (by simp [SSys.step, hi])
    | some j =>
      cases j with
      | ready req =>
        by_cases hb : z.jobs.countP SJob.busy < z.workers
        · have hk := h.jobs i _ hi
          refine ⟨[], P, ?_, rfl, by simp [SSys.step, hi, hb, PEvent.arrive?]⟩
          simp only [SSys.step, hi, hb, if_true, List.append_nil]
          refine h.set i _ ?_
          have hu := untouched (i := i) (by
            intro x hx ho
            cases x with
            | env f => cases ho
            | acc k b =>
              injection ho with ho
              subst ho
              exact hk.2 b hx) h.run
          show P i = prog req
          rw [show P i = progOf prog arr i from hu]
          simp only [progOf, hk.1]
        · exact same rfl rfl (by simp [SSys.step, hi, hb])
      | running p => exact same rfl rfl (by simp [SSys.step, hi])
      | done r b => exact same rfl rfl (by simp [SSys.step, hi])
      | dead => exact same rfl rfl (by simp [SSys.step, hi])
  | access i =>
    cases hi : z.jobs[i]? with
    | none => exact same rfl rfl (by simp [SSys.step, hi])
    | some j =>
      cases j with
      | ready req => exact same rfl rfl (by simp [SSys.step, hi])
      | done r b => exact same rfl rfl (by simp [SSys.step, hi])
      | dead => exact same rfl rfl (by simp [SSys.step, hi])
      | running p =>
        cases p with
        | ret r => exact same rfl rfl (by simp [SSys.step, hi])
        | panic => exact same rfl rfl (by simp [SSys.step, hi])
        | hang => exact same rfl rfl (by simp [SSys.step, hi])
        | act upd next =>
          have hP : P i = .act upd next := h.jobs i _ hi
          have hil := (List.getElem?_eq_some_iff.1 hi).1
          have key : ∃ b, (b = true → Free (runsOf (progOf prog arr)) E i upd next) ∧
              ∃ k, (next z.world).AllBut (Free (runsOf (progOf prog arr)) E i) k ∧
                (t.filter (bound i)).length + (if b then 0 else 1) + k ≤ K := by
            obtain ⟨k, h1, h2⟩ := h.budget i
            rw [hP] at h1
            rcases h1 with ⟨a, b⟩ | ⟨a, b⟩
            · exact ⟨true, fun _ => a, k, b _, by simpa using h2⟩
            · exact ⟨false, by simp, k - 1, b _, by simp; omega⟩
          obtain ⟨b, hb, k, hk, hK⟩ := key
          refine ⟨[.acc i b], put P i (next z.world), ?_, rfl, by simp [SSys.step, hi, PEvent.arrive?]⟩
          simp only [SSys.step, hi]
          refine ⟨?_, ?_, ?_, ?_, ?_⟩
          · exact RunT.append_iff.2 ⟨_, h.run, _, ⟨upd, next, hP, h.makes i _ _ (by rw [hP]; exact .here _ _), hb, rfl⟩, rfl⟩
          · intro k' x hx
            rw [List.getElem?_set] at hx
            split at hx
            · rename_i e
              subst e
              injection hx with hx
              subst hx
              exact put_self _ _ _
            · rename_i e
              rw [put_ne P (Ne.symm e)]
              have := h.jobs k' x hx
              cases x with
              | ready req =>
                refine ⟨this.1, fun b' hb' => ?_⟩
                rcases List.mem_append.1 hb' with hb' | hb'
                · exact this.2 b' hb'
                · simp only [List.mem_singleton, Tick.acc.injEq] at hb'
                  exact e hb'.1.symm
              | running q => exact this
              | done r b => exact this
              | dead => exact this
          · intro k' b' hb'
            rw [List.length_set]
            rcases List.mem_append.1 hb' with hb' | hb'
            · exact h.here k' b' hb'
            · simp only [List.mem_singleton, Tick.acc.injEq] at hb'
              rw [hb'.1]; exact hil
          · intro k' u n hm
            by_cases e : k' = i
            · subst e
              rw [put_self] at hm
              exact h.makes k' u n (by rw [hP]; exact .later _ _ _ hm)
            · rw [put_ne P e] at hm
              exact h.makes k' u n hm
          · intro k'
            by_cases e : k' = i
            · subst e
              rw [put_self]
              refine ⟨k, hk, ?_⟩
              rw [List.filter_append, List.length_append]
              cases b <;> simpa [bound] using hK
            · rw [put_ne P e]
              obtain ⟨k1, h1, h2⟩ := h.budget k'
              refine ⟨k1, h1, ?_⟩
              rw [List.filter_append, List.length_append]
              simpa [bound, Ne.symm e] using h2
  | finish i =>
    cases hi : z.jobs[i]? with
    | none => exact same rfl rfl (by simp [SSys.step, hi])
    | some j =>
      cases j with
      | ready req => exact same rfl rfl (by simp [SSys.step, hi])
      | done r b => exact same rfl rfl (by simp [SSys.step, hi])
      | dead => exact same rfl rfl (by simp [SSys.step, hi])
      | running p =>
        have hP : P i = p := h.jobs i _ hi
        cases p with
        | hang => exact same rfl rfl (by simp [SSys.step, hi])
        | act upd next => exact same rfl rfl (by simp [SSys.step, hi])
        | panic =>
          refine ⟨[], P, ?_, rfl, by simp [SSys.step, hi, PEvent.arrive?]⟩
          simp only [SSys.step, hi, List.append_nil]
          exact h.set i _ (.inl hP)
        | ret r =>
          refine ⟨[], P, ?_, rfl, by simp only [SSys.step, hi]; split <;> simp [PEvent.arrive?]⟩
          simp only [SSys.step, hi, List.append_nil]
          split
          · exact h.set i _ hP
          · rename_i hw
            exact h.set i _ (.inr ⟨r, _, hP, hw⟩)

theorem Inv.runs (evs : List (PEvent W)) {z : SSys W} {t : List (Tick W)} {P : Nat → Prog W Reply}
    (h : Inv prog write w0 arr E K z t P)
    (ha : ∀ k req, (evs.filterMap PEvent.arrive?)[k]? = some req → arr[z.jobs.length + k]? = some req)
    (hE : ∀ f, .env f ∈ evs → f ∈ E) :
    ∃ more P', Inv prog write w0 arr E K (z.run prog write evs) (t ++ more) P' ∧
      more.filterMap Tick.env? = evs.filterMap PEvent.env? ∧
      (z.run prog write evs).jobs.length = z.jobs.length + (evs.filterMap PEvent.arrive?).length := by
  induction evs generalizing z t P with
  | nil => exact ⟨[], P, by simpa [SSys.run] using h, rfl, by simp [SSys.run]⟩
  | cons e evs ih =>
    rw [filterMap_cons_toList] at ha
    obtain ⟨m1, P1, a1, a2, a3⟩ := h.step e (by
      rintro req rfl
      exact ha 0 req (by simp [PEvent.arrive?])) (fun f hf => hE f (by simp [hf]))
    obtain ⟨m2, P2, b1, b2, b3⟩ := ih a1 (by
      intro k req hk
      rw [a3, Nat.add_assoc]
      refine ha _ req ?_
      rw [List.getElem?_append_right (by omega), Nat.add_sub_cancel_left]
      exact hk) (fun f hf => hE f (by simp [hf]))
    refine ⟨m1 ++ m2, P2, ?_, ?_, ?_⟩
    · rw [← List.append_assoc]; exact b1
    · rw [List.filterMap_append, a2, b2, filterMap_cons_toList]
    · rw [filterMap_cons_toList, List.length_append]
      have : (z.run prog write (e :: evs)) = (z.step prog write e).run prog write evs := rfl
      rw [this, b3, a3]
      omega

theorem free_runs {runs : Nat → Prog W Reply → Prop} {progs : Nat → Prog W Reply} {E : List (W → W)}
    (h : ∀ j, runs j (progs j) ∨ ∀ u n, ¬ (progs j).Makes u n) {i : Nat} {u : W → W} {n : W → Prog W Reply}
    (hf : Free runs E i u n) : Free (runsOf progs) E i u n := by
  refine ⟨?_, hf.2⟩
  rintro j p hj rfl u' n' hm
  rcases h j with hr | hr
  · exact hf.1 j _ hj hr u' n' hm
  · exact absurd hm (hr u' n')

/-- the ticks of an execution in which all accesses but `K` of each request are free -/
theorem ticks (prog : Request → Prog W Reply) (write : W → Reply → Res Bytes) (w0 : W) (workers : Nat)
    (evs : List (PEvent W)) (K : Nat)
    (hk : ∀ (i : Nat) req, (evs.filterMap PEvent.arrive?)[i]? = some req →
      (prog req).AllBut (Free (fun j p => ∃ r, (evs.filterMap PEvent.arrive?)[j]? = some r ∧ p = prog r)
        (evs.filterMap PEvent.env?) i) K) :
    ∃ t P, Inv prog write w0 (evs.filterMap PEvent.arrive?) (evs.filterMap PEvent.env?) K
        (SSys.run prog write ⟨w0, workers, []⟩ evs) t P ∧
      t.filterMap Tick.env? = evs.filterMap PEvent.env? ∧
      (SSys.run prog write ⟨w0, workers, []⟩ evs).jobs.length = (evs.filterMap PEvent.arrive?).length := by
  have h0 : Inv prog write w0 (evs.filterMap PEvent.arrive?) (evs.filterMap PEvent.env?) K ⟨w0, workers, []⟩ []
      (progOf prog (evs.filterMap PEvent.arrive?)) := by
    refine ⟨rfl, by simp, by simp, fun _ _ _ h => h, ?_⟩
    intro i
    refine ⟨K, ?_, by simp⟩
    unfold progOf
    split
    · rename_i req hreq
      refine (hk i req hreq).mono ?_
      intro u n hf
      refine free_runs ?_ hf
      intro j
      split
      · rename_i r hr
        exact .inl ⟨r, hr, rfl⟩
      · exact .inr (fun _ _ h => by cases h)
    · trivial
  obtain ⟨t, P, h1, h2, h3⟩ := h0.runs evs (by simp) (fun f hf => List.mem_filterMap.2 ⟨_, hf, rfl⟩)
  exact ⟨t, P, by simpa using h1, h2, by simpa using h3⟩

theorem serially_ended (progs : Nat → Prog W Reply) (w : W) (ns : List Nat) (h : ∀ i ∈ ns, ∃ o, Ended (progs i) o) :
    (serially w (ns.map fun i => .job i (progs i))).1 = w ∧
      ∀ i ∈ ns, ∀ o, Ended (progs i) o → (i, o) ∈ (serially w (ns.map fun i => .job i (progs i))).2 := by
  induction ns with
  | nil => exact ⟨rfl, by simp⟩
  | cons n ns ih =>
    obtain ⟨r1, r2⟩ := ih (fun i hi => h i (by simp [hi]))
    obtain ⟨o, ho⟩ := h n (by simp)
    have : serially w ((n :: ns).map fun i => .job i (progs i)) =
        ((serially w (ns.map fun i => .job i (progs i))).1, (n, o) :: (serially w (ns.map fun i => .job i (progs i))).2) := by
      simp only [List.map_cons, serially, ho.atomically w]
    rw [this]
    refine ⟨r1, ?_⟩
    intro i hi o' ho'
    rcases List.mem_cons.1 hi with rfl | hi
    · have e : (w, o') = (w, o) := (ho'.atomically w).symm.trans (ho.atomically w)
      injection e with _ e
      subst e
      simp
    · exact List.mem_cons_of_mem _ (r2 i hi o' ho')

theorem map_env (f : Nat → Prog W Reply) (ns : List Nat) :
    (ns.map fun i => Item.job i (f i)).filterMap Item.env? = [] := by
  induction ns with
  | nil => rfl
  | cons n ns ih => rw [List.map_cons, List.filterMap_cons_none rfl]; exact ih

theorem map_job (f : Nat → Prog W Reply) (ns : List Nat) :
    (ns.map fun i => Item.job i (f i)).filterMap Item.job? = ns := by
  induction ns with
  | nil => rfl
  | cons n ns ih => rw [List.map_cons, List.filterMap_cons_some (show Item.job? (Item.job n (f n)) = some n from rfl), ih]

/-- what is recorded of a request that has been handled -/
def Recorded (write : W → Reply → Res Bytes) (os : List (Nat × Ending Reply)) (i : Nat) : SJob W → Prop
  | .ready _ => True
  | .running p => ∃ o, Ended p o ∧ (i, o) ∈ os
  | .done r _ => (i, .ret r) ∈ os
  | .dead => (i, .panic) ∈ os ∨ ∃ r w, (i, .ret r) ∈ os ∧ write w r = .panic

theorem At.recorded {p : Prog W Reply} {i : Nat} {j : SJob W} {os : List (Nat × Ending Reply)}
    (h : At write arr t p i j) (hn : ∀ req, j ≠ .ready req) {o : Ending Reply} (ho : Ended p o) (hm : (i, o) ∈ os) :
    Recorded write os i j := by
  have uniq : ∀ o', Ended p o' → o' = o := by
    intro o' ho'
    cases p <;> first | exact ho'.elim | exact (show o' = _ from ho').trans (show o = _ from ho).symm
  cases j with
  | ready req => exact absurd rfl (hn req)
  | running q => exact ⟨o, by rw [← show p = q from h]; exact ho, hm⟩
  | done r b =>
    rw [show p = .ret r from h] at uniq
    rw [← uniq (.ret r) rfl] at hm
    exact hm
  | dead =>
    rcases h with h | ⟨r, w, h, hw⟩
    · rw [h] at uniq
      rw [← uniq .panic rfl] at hm
      exact .inl hm
    · rw [h] at uniq
      rw [← uniq (.ret r) rfl] at hm
      exact .inr ⟨r, w, hm, hw⟩

theorem At.ended {p : Prog W Reply} {i : Nat} {j : SJob W} (h : At write arr t p i j) (hn : ∀ req, j ≠ .ready req)
    (hq : ∀ q, j = .running q → ∀ u n, q ≠ .act u n) : ∀ u n, p ≠ .act u n := by
  cases j with
  | ready req => exact absurd rfl (hn req)
  | running q => rw [show p = q from h]; exact hq q rfl
  | done r b => rw [show p = .ret r from h]; intro u n h; cases h
  | dead =>
    rcases h with h | ⟨r, w, h, hw⟩ <;> rw [h] <;> intro u n h <;> cases h

/-- All accesses but one of each request are free, and no request waits for an access: it is as if the requests were
handled one after the other. -/
theorem reduction (prog : Request → Prog W Reply) (write : W → Reply → Res Bytes) (w0 : W) (workers : Nat)
    (evs : List (PEvent W))
    (hk : ∀ (i : Nat) req, (evs.filterMap PEvent.arrive?)[i]? = some req →
      (prog req).AllBut (Free (fun j p => ∃ r, (evs.filterMap PEvent.arrive?)[j]? = some r ∧ p = prog r)
        (evs.filterMap PEvent.env?) i) 1)
    (hq : ∀ (i : Nat) p, (SSys.run prog write ⟨w0, workers, []⟩ evs).jobs[i]? = some (.running p) →
      ∀ u n, p ≠ .act u n) :
    ∃ items : List (Item W),
      items.filterMap Item.env? = evs.filterMap PEvent.env? ∧
      (items.filterMap Item.job?).Nodup ∧
      (∀ i p, .job i p ∈ items → ∃ req, (evs.filterMap PEvent.arrive?)[i]? = some req ∧ p = prog req) ∧
      (SSys.run prog write ⟨w0, workers, []⟩ evs).world = (serially w0 items).1 ∧
      ∀ (i : Nat) j, (SSys.run prog write ⟨w0, workers, []⟩ evs).jobs[i]? = some j →
        Recorded write (serially w0 items).2 i j := by
  obtain ⟨t, P, h, h2, h3⟩ := ticks prog write w0 workers evs 1 hk
  generalize hz : SSys.run prog write ⟨w0, workers, []⟩ evs = z at *
  generalize harr : evs.filterMap PEvent.arrive? = arr at *
  have hprog : ∀ i, i < z.jobs.length → ∃ req, arr[i]? = some req ∧ progOf prog arr i = prog req := by
    intro i hi
    rw [h3] at hi
    exact ⟨arr[i], by simp [hi], by simp [progOf, hi]⟩
  have hnr : ∀ i b, .acc i b ∈ t → ∀ u n, P i ≠ .act u n := by
    intro i b hib
    have hil := h.here i b hib
    have hj : z.jobs[i]? = some z.jobs[i] := by simp [hil]
    refine (h.jobs i _ hj).ended ?_ (fun q hq' => hq i q (by rw [hj, hq']))
    intro req hr
    have := h.jobs i _ hj
    rw [hr] at this
    exact this.2 b hib
  obtain ⟨items, s1, s2, s3, s4, s5⟩ := serial_order t.length t (Nat.le_refl _) w0 _ h.run
    (fun i => by obtain ⟨k, -, hk⟩ := h.budget i; omega) hnr
  let extra : Nat → Prop := fun i => (∀ b, .acc i b ∉ t) ∧ ∃ o, Ended (progOf prog arr i) o
  let ns := (List.range z.jobs.length).filter fun i => @decide (extra i) (Classical.propDecidable _)
  have hns : ∀ {i}, i ∈ ns ↔ i < z.jobs.length ∧ extra i := by
    intro i
    simp only [ns, List.mem_filter, List.mem_range, decide_eq_true_eq]
  obtain ⟨e1, e2⟩ := serially_ended (progOf prog arr) (serially w0 items).1 ns (fun i hi => (hns.1 hi).2.2)
  have hser : serially w0 (items ++ ns.map fun i => .job i (progOf prog arr i)) =
      ((serially w0 items).1, (serially w0 items).2 ++
        (serially (serially w0 items).1 (ns.map fun i => .job i (progOf prog arr i))).2) := by
    rw [serially_append]
    simp only [e1]
  refine ⟨items ++ ns.map fun i => .job i (progOf prog arr i), ?_, ?_, ?_, ?_, ?_⟩
  · rw [List.filterMap_append, s1, map_env, List.append_nil, h2]
  · rw [List.filterMap_append, map_job]
    refine List.nodup_append.2 ⟨s2, List.nodup_range.filter _, ?_⟩
    rintro a ha b hb rfl
    obtain ⟨x, x1, x2⟩ := List.mem_filterMap.1 ha
    cases x <;> simp only [Item.job?, Option.some.injEq, reduceCtorEq] at x2
    subst x2
    obtain ⟨-, b', hb'⟩ := s3 _ _ x1
    exact (hns.1 hb).2.1 b' hb'
  · intro i p hip
    rcases List.mem_append.1 hip with hip | hip
    · obtain ⟨rfl, b, hb⟩ := s3 i p hip
      exact hprog i (h.here i b hb)
    · obtain ⟨k, k1, k2⟩ := List.mem_map.1 hip
      simp only [Item.job.injEq] at k2
      obtain ⟨rfl, rfl⟩ := k2
      exact hprog k (hns.1 k1).1
  · rw [hser]; exact s4
  · intro i j hj
    rw [hser]
    by_cases hr : ∃ req, j = .ready req
    · obtain ⟨req, rfl⟩ := hr
      trivial
    have hn : ∀ req, j ≠ .ready req := fun req hreq => hr ⟨req, hreq⟩
    have hat := h.jobs i j hj
    by_cases hacc : ∃ b, .acc i b ∈ t
    · obtain ⟨b, hb⟩ := hacc
      obtain ⟨o, o1, o2⟩ := s5 i b hb
      exact hat.recorded hn o1 (by simp [o2])
    · have hna : ∀ b, .acc i b ∉ t := fun b hb => hacc ⟨b, hb⟩
      have hu : P i = progOf prog arr i := untouched (by
        intro x hx ho
        cases x with
        | env f => cases ho
        | acc k b =>
          injection ho with ho
          subst ho
          exact hna b hx) h.run
      obtain ⟨o, ho⟩ := ended_of (hat.ended hn (fun q hq' => hq i q (by rw [hj, hq'])))
      refine hat.recorded hn ho ?_
      rw [hu] at ho
      have := e2 i (hns.2 ⟨(List.getElem?_eq_some_iff.1 hj).1, hna, o, ho⟩) o ho
      simp [this]

/-- All accesses are free, and every request has been handled: every order gives the same. -/
theorem all_orders (prog : Request → Prog W Reply) (write : W → Reply → Res Bytes) (w0 : W) (workers : Nat)
    (evs : List (PEvent W))
    (hk : ∀ (i : Nat) req, (evs.filterMap PEvent.arrive?)[i]? = some req →
      (prog req).AllBut (Free (fun j p => ∃ r, (evs.filterMap PEvent.arrive?)[j]? = some r ∧ p = prog r)
        (evs.filterMap PEvent.env?) i) 0)
    (hq : ∀ (i : Nat) j, (SSys.run prog write ⟨w0, workers, []⟩ evs).jobs[i]? = some j →
      (∀ req, j ≠ .ready req) ∧ ∀ p, j = .running p → ∀ u n, p ≠ .act u n)
    (items : List (Item W)) (hi1 : items.filterMap Item.env? = evs.filterMap PEvent.env?)
    (hi2 : (items.filterMap Item.job?).Nodup)
    (hi3 : ∀ i, i ∈ items.filterMap Item.job? ↔ i < (evs.filterMap PEvent.arrive?).length)
    (hi4 : ∀ i p, .job i p ∈ items → ∃ req, (evs.filterMap PEvent.arrive?)[i]? = some req ∧ p = prog req) :
    (SSys.run prog write ⟨w0, workers, []⟩ evs).world = (serially w0 items).1 ∧
      ∀ (i : Nat) j, (SSys.run prog write ⟨w0, workers, []⟩ evs).jobs[i]? = some j →
        Recorded write (serially w0 items).2 i j := by
  obtain ⟨t, P, h, h2, h3⟩ := ticks prog write w0 workers evs 0 hk
  generalize hz : SSys.run prog write ⟨w0, workers, []⟩ evs = z at *
  generalize harr : evs.filterMap PEvent.arrive? = arr at *
  have hend : ∀ i, i < z.jobs.length → ∀ u n, P i ≠ .act u n := by
    intro i hi
    have hj : z.jobs[i]? = some z.jobs[i] := by simp [hi]
    exact (h.jobs i _ hj).ended (hq i _ hj).1 (hq i _ hj).2
  obtain ⟨r1, r2⟩ := any_order (progs := progOf prog arr) items t w0 (z.world, P) h.run (by
      intro i b hib
      cases b with
      | true => rfl
      | false =>
        obtain ⟨k, -, hk⟩ := h.budget i
        have : Tick.acc i false ∈ t.filter (bound i) := List.mem_filter.2 ⟨hib, by simp [bound]⟩
        have := List.length_pos_of_mem this
        omega) (hi1.trans h2.symm) hi2 (by
      intro i p hip
      obtain ⟨req, q1, q2⟩ := hi4 i p hip
      simp only [progOf, q1, q2]) (fun i b hib => (hi3 i).2 (by rw [← h3]; exact h.here i b hib))
    (fun i hi => hend i (by rw [h3]; exact (hi3 i).1 hi))
  refine ⟨r1, ?_⟩
  intro i j hj
  obtain ⟨o, o1, o2⟩ := r2 i ((hi3 i).2 (by rw [← h3]; exact (List.getElem?_eq_some_iff.1 hj).1))
  exact (h.jobs i j hj).recorded (hq i j hj).1 o1 o2

theorem serially_jobs (w : W) (items : List (Item W)) :
    (serially w items).2.map (·.1) = items.filterMap Item.job? := by
  induction items generalizing w with
  | nil => rfl
  | cons x items ih =>
    cases x with
    | env f => rw [List.filterMap_cons_none (show Item.job? (Item.env f) = none from rfl)]; exact ih (f w)
    | job i p =>
      rw [List.filterMap_cons_some (show Item.job? (Item.job i p) = some i from rfl)]
      simp only [serially, List.map_cons, ih]

/-- a request that is handled once has one outcome -/
theorem serially_once {w : W} {items : List (Item W)} (h : (items.filterMap Item.job?).Nodup) {i : Nat}
    {o o' : Ending Reply} (h1 : (i, o) ∈ (serially w items).2) (h2 : (i, o') ∈ (serially w items).2) : o = o' := by
  rw [← serially_jobs w] at h
  generalize (serially w items).2 = l at *
  induction l with
  | nil => simp at h1
  | cons x l ih =>
    rw [List.map_cons, List.nodup_cons] at h
    rcases List.mem_cons.1 h1 with rfl | h1'
    · rcases List.mem_cons.1 h2 with e | h2'
      · injection e with _ e; exact e.symm
      · exact absurd (List.mem_map.2 ⟨_, h2', rfl⟩) h.1
    · rcases List.mem_cons.1 h2 with rfl | h2'
      · exact absurd (List.mem_map.2 ⟨_, h1', rfl⟩) h.1
      · exact ih h.2 h1' h2'

end Movers
end Octane
