import Verif.Proof.Router
/-
Which handlers run: lemmas about the events of instrumented handlers.
-/
namespace Octane
open Spec
variable {S : Type u}

/-- Any router set up by a program behaves as the log of its registrations. -/
theorem Router.run_is_replay (calls : List (Call S)) (hf : FairL calls)
    (hn : (logOfL calls).length < 2 ^ 64) :
    ∃ r, execL Router.new calls = .ok r ∧
      ∀ (uv : Bool) (req : Request) (s : S), req.requestLine.method ≠ .all →
        Router.run uv r req s = replay uv req (logOfL calls) s := by
  obtain ⟨r, h1, h2⟩ := Router.execL_inv calls hf Router.new [] Router.Inv.new
  rw [List.nil_append] at h2
  exact ⟨r, h1, fun uv req s hm => Router.run_eq h2 hn uv req hm s⟩

mutual
theorem logOf_parsed (c : Call S) (e : Reg S) (he : e ∈ logOf c) (p : PathBuf)
    (hp : e.target = .anyMethod p ∨ ∃ m, e.target = .on m p) : ∃ s, Path.parse s = some p := by
  cases c with
  | route v path h =>
    unfold logOf at he
    split at he
    · simp at he
    · rename_i q hq
      have : e = ⟨v.target q, h⟩ := by simpa using he
      subst this
      refine ⟨path, ?_⟩
      rw [hq]
      cases v <;> simp [Verb.target, Verb.method] at hp <;> simp [hp]
  | add h =>
    have : e = ⟨.everywhere, h⟩ := by simpa [logOf] using he
    subst this; simp at hp
  | mount calls ord => exact logOfL_parsed calls e (by simpa [logOf] using he) p hp
theorem logOfL_parsed (cs : List (Call S)) (e : Reg S) (he : e ∈ logOfL cs) (p : PathBuf)
    (hp : e.target = .anyMethod p ∨ ∃ m, e.target = .on m p) : ∃ s, Path.parse s = some p := by
  cases cs with
  | nil => simp [logOfL] at he
  | cons c cs =>
    simp only [logOfL, List.mem_append] at he
    rcases he with he | he
    · exact logOf_parsed c e he p hp
    · exact logOfL_parsed cs e he p hp
end

theorem Spec.TracedLog.tail {off : Nat} {e : Reg (S × List Event)} {log} (h : TracedLog off (e :: log)) :
    TracedLog (off + 1) log := by
  intro k e' hk
  have := h (k + 1) e' (by simpa using hk)
  rwa [show off + 1 + k = off + (k + 1) by omega]

/-- the events of a replay: a prefix of the applicable handlers, cut after the first `Stop` -/
theorem replay_trace (uv : Bool) (req : Request) (log : List (Reg (S × List Event))) (off : Nat)
    (ht : TracedLog off log) (s s' : S) (tr tr' : List Event)
    (h : replay uv req log (s, tr) = .ok (s', tr')) :
    ∃ T, tr' = tr ++ T ∧
      (∃ rest, T.map (·.1) ++ rest = applicable uv req.requestLine.method req.requestLine.path off log ∧
        (rest ≠ [] → ∃ T0 k v, T = T0 ++ [(k, v, .stop)])) ∧
      (∀ T0 a b T1, T = T0 ++ a :: b :: T1 → a.2.2 = .next) ∧
      (∀ a ∈ T, off ≤ a.1 ∧ ∃ e, log[a.1 - off]? = some e ∧
        e.target.applies uv req.requestLine.method req.requestLine.path = true ∧
        a.2.1 = e.target.vars uv req.requestLine.path) := by
  induction log generalizing off s tr with
  | nil =>
    simp only [replay, Res.ok.injEq, Prod.mk.injEq] at h
    exact ⟨[], by simp [h.2], ⟨[], by simp [applicable]⟩, by simp, by simp⟩
  | cons e log ih =>
    unfold replay at h
    have happ : ∀ b, e.target.applies uv req.requestLine.method req.requestLine.path = b →
        applicable uv req.requestLine.method req.requestLine.path off (e :: log) =
        (if b then [off] else []) ++
          applicable uv req.requestLine.method req.requestLine.path (off + 1) log := by
      intro b hb
      cases b <;> simp [applicable, List.zipIdx_cons, hb]
    split at h
    · rename_i ha
      have hT := ht 0 e (by simp)
      split at h
      · simp at h
      · -- stopped here
        rename_i s1 hh
        simp only [Res.ok.injEq] at h; subst h
        have := hT _ _ _ _ _ _ hh
        refine ⟨[(off, e.target.vars uv req.requestLine.path, .stop)], this, ⟨applicable uv req.requestLine.method req.requestLine.path (off + 1) log, ?_,
          fun _ => ⟨[], off, _, rfl⟩⟩, ?_, ?_⟩
        · rw [happ true ha]; rfl
        · intro T0 a b T1 heq
          have := congrArg List.length heq
          simp at this; omega
        · intro a ha'
          rw [List.mem_singleton] at ha'; subst ha'
          exact ⟨Nat.le_refl _, e, by simp, ha, rfl⟩
      · rename_i s1 hh
        obtain ⟨s1, tr1⟩ := s1
        have htr1 := hT _ _ _ _ _ _ hh
        obtain ⟨T, hT1, ⟨rest, hrest, hstop⟩, hnext, hmem⟩ := ih (off + 1) ht.tail _ _ h
        refine ⟨(off, e.target.vars uv req.requestLine.path, .next) :: T, ?_, ⟨rest, ?_, ?_⟩, ?_, ?_⟩
        · rw [hT1, htr1]; simp
        · rw [happ true ha]; simp [← hrest]
        · intro hr
          obtain ⟨T0, k, v, rfl⟩ := hstop hr
          exact ⟨(off, e.target.vars uv req.requestLine.path, .next) :: T0, k, v, by simp⟩
        · intro T0 a b T1 heq
          cases T0 with
          | nil => simp only [List.nil_append, List.cons.injEq] at heq; rw [← heq.1]
          | cons c T0 =>
            simp only [List.cons_append, List.cons.injEq] at heq
            exact hnext T0 a b T1 heq.2
        · intro a ha'
          rcases List.mem_cons.1 ha' with rfl | ha'
          · exact ⟨Nat.le_refl _, e, by simp, ha, rfl⟩
          · obtain ⟨h1, e', h2, h3⟩ := hmem a ha'
            refine ⟨by omega, e', ?_, h3⟩
            rw [show a.1 - off = a.1 - (off + 1) + 1 by omega, List.getElem?_cons_succ]
            exact h2
    · rename_i ha
      obtain ⟨T, hT1, ⟨rest, hrest, hstop⟩, hnext, hmem⟩ := ih (off + 1) ht.tail _ _ h
      refine ⟨T, hT1, ⟨rest, ?_, hstop⟩, hnext, ?_⟩
      · rw [happ false (by simpa using ha)]; simpa using hrest
      · intro a ha'
        obtain ⟨h1, e', h2, h3⟩ := hmem a ha'
        refine ⟨by omega, e', ?_, h3⟩
        rw [show a.1 - off = a.1 - (off + 1) + 1 by omega, List.getElem?_cons_succ]
        exact h2

theorem dispatched_trace {uv : Bool} {calls : List (Call (S × List Event))} {req : Request} {T : List Event}
    (h : Dispatched uv calls req T) (hf : FairL calls) (hn : (logOfL calls).length < 2 ^ 64)
    (ht : TracedLog 0 (logOfL calls)) (hm : req.requestLine.method ≠ .all) :
    (∃ rest, T.map (·.1) ++ rest =
        applicable uv req.requestLine.method req.requestLine.path 0 (logOfL calls) ∧
        (rest ≠ [] → ∃ T0 k v, T = T0 ++ [(k, v, .stop)])) ∧
      (∀ T0 a b T1, T = T0 ++ a :: b :: T1 → a.2.2 = .next) ∧
      (∀ a ∈ T, ∃ e, (logOfL calls)[a.1]? = some e ∧
        e.target.applies uv req.requestLine.method req.requestLine.path = true ∧
        a.2.1 = e.target.vars uv req.requestLine.path) := by
  obtain ⟨r, s, s', h1, h2⟩ := h
  obtain ⟨r', h3, h4⟩ := Router.run_is_replay calls hf hn
  rw [h1] at h3; cases h3
  rw [h4 uv req _ hm] at h2
  obtain ⟨T', e1, e2, e3, e4⟩ := replay_trace uv req _ 0 ht s s' [] T h2
  rw [List.nil_append] at e1; subst e1
  exact ⟨e2, e3, fun a ha => by simpa using (e4 a ha).2⟩

theorem mem_applicable {uv : Bool} {m : RequestMethod} {q : PathBuf} {log : List (Reg S)} {k : Nat} :
    k ∈ applicable uv m q 0 log ↔ ∃ e, log[k]? = some e ∧ e.target.applies uv m q = true := by
  unfold applicable
  simp only [List.mem_map, List.mem_filter, Prod.exists, List.mem_zipIdx_iff_getElem?]
  constructor
  · rintro ⟨e, i, ⟨h1, h2⟩, rfl⟩; exact ⟨e, h1, h2⟩
  · rintro ⟨e, h1, h2⟩; exact ⟨e, k, ⟨h1, h2⟩, rfl⟩

theorem applicable_sorted (uv : Bool) (m : RequestMethod) (q : PathBuf) (off : Nat) (log : List (Reg S)) :
    (applicable uv m q off log).Pairwise (· < ·) := by
  unfold applicable
  rw [List.pairwise_map]
  refine List.Pairwise.sublist List.filter_sublist ?_
  rw [← List.pairwise_map (f := Prod.snd)]
  rw [List.zipIdx_map_snd]
  exact List.pairwise_lt_range'

theorem logOfL_append (a b : List (Call S)) : logOfL (a ++ b) = logOfL a ++ logOfL b := by
  induction a with
  | nil => simp [logOfL]
  | cons c a ih => simp [logOfL, ih]

theorem FairL_append (a b : List (Call S)) : FairL (a ++ b) ↔ FairL a ∧ FairL b := by
  induction a with
  | nil => simp [FairL]
  | cons c a ih => simp [FairL, ih, and_assoc]

theorem replay_ok (uv : Bool) (req : Request) (log : List (Reg S))
    (hh : ∀ e ∈ log, ∀ mr s, e.handler mr s ≠ .panic) (s : S) :
    ∃ s', replay uv req log s = .ok s' := by
  induction log generalizing s with
  | nil => exact ⟨s, rfl⟩
  | cons e log ih =>
    have ih' := ih (fun e he => hh e (List.mem_cons_of_mem _ he))
    unfold replay
    split
    · split
      · rename_i h; exact absurd h (hh e (by simp) _ _)
      · exact ⟨_, rfl⟩
      · exact ih' _
    · exact ih' _

end Octane
