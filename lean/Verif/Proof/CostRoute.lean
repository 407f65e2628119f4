import Verif.Model.Cost
import Verif.Spec.Cost
import Verif.Proof.Router
/-
Lemmas on the counted routing of `Model/Cost.lean`.
-/
namespace Octane
open Spec

namespace PathNode
variable {T : Type u}

theorem dfsC_fst (uv : Bool) (n : PathNode T) (q : List Str) : (dfsC uv n q).1 = dfs uv n q := by
  induction q generalizing n with
  | nil =>
    cases n with
    | leaf l => rfl
    | node m =>
      unfold dfsC dfs
      cases hg : HMap.get m PathChunk.fin with
      | none => rfl
      | some v => cases v <;> rfl
  | cons c q ih =>
    cases n with
    | leaf l => rfl
    | node m =>
      unfold dfsC dfs
      cases h1 : HMap.get m (.chunk c) with
      | none =>
        cases uv with
        | false => simp
        | true =>
          cases h2 : HMap.get m .catchAll with
          | none => simp
          | some w => simp [ih]
      | some v =>
        simp only [ih]
        cases dfs uv v q with
        | panic => rfl
        | ok ret =>
          cases uv with
          | false => simp
          | true =>
            cases h2 : HMap.get m .catchAll with
            | none => simp
            | some w => simp [ih]

/-- the nodes `dfs` visits, each by its keys -/
def visitedKeys (uv : Bool) : PathNode T → List Str → List (List (Option Str))
  | .leaf _, _ => [[]]
  | .node _, [] => [[]]
  | .node m, c :: q =>
    [] :: (match HMap.get m (.chunk c) with
      | some v => (visitedKeys uv v q).map (some c :: ·)
      | none => []) ++
    (if uv then
      match HMap.get m .catchAll with
      | some v => (visitedKeys uv v q).map (none :: ·)
      | none => []
    else [])
termination_by structural _ q => q

theorem dfsC_snd {n : PathNode T} (hs : Shape n) (uv : Bool) (q : List Str) :
    (dfsC uv n q).2 = (visitedKeys uv n q).length := by
  induction q generalizing n with
  | nil =>
    obtain ⟨m, rfl⟩ := hs.node_of
    unfold dfsC visitedKeys
    cases hg : HMap.get m PathChunk.fin with
    | none => rfl
    | some v => cases v <;> rfl
  | cons c q ih =>
    obtain ⟨m, rfl⟩ := hs.node_of
    obtain ⟨h1, h2, h3⟩ := hs.inv
    unfold dfsC visitedKeys
    cases hg1 : HMap.get m (.chunk c) with
    | none =>
      cases uv with
      | false => simp
      | true =>
        cases hg2 : HMap.get m .catchAll with
        | none => simp
        | some w => simp [ih (h3 _ w (by simp) hg2)]; omega
    | some v =>
      have hv := h3 _ v (by simp) hg1
      obtain ⟨l, hl⟩ := dfs_ok uv v q hv
      simp only [dfsC_fst, hl, ih hv]
      cases uv with
      | false => simp; omega
      | true =>
        cases hg2 : HMap.get m .catchAll with
        | none => simp; omega
        | some w => simp [ih (h3 _ w (by simp) hg2)]; omega

theorem visitedKeys_nodup {n : PathNode T} (uv : Bool) (q : List Str) : (visitedKeys uv n q).Nodup := by
  induction q generalizing n with
  | nil => cases n <;> simp [visitedKeys]
  | cons c q ih =>
    cases n with
    | leaf l => simp [visitedKeys]
    | node m =>
      unfold visitedKeys
      have key : ∀ (k : PathChunk) (x : Option Str), (match HMap.get m k with
          | some v => (visitedKeys uv v q).map (x :: ·)
          | none => []).Nodup ∧ ∀ ks ∈ (match HMap.get m k with
          | some v => (visitedKeys uv v q).map (x :: ·)
          | none => []), ks.head? = some x := by
        intro k x
        cases HMap.get m k with
        | none => simp
        | some v =>
          refine ⟨?_, ?_⟩
          · simp only [List.Nodup, List.pairwise_map]
            exact (ih (n := v)).imp (by simp)
          · intro ks hks
            obtain ⟨a, -, rfl⟩ := List.mem_map.1 hks
            rfl
      obtain ⟨a1, a2⟩ := key (.chunk c) (some c)
      obtain ⟨b1, b2⟩ := key .catchAll none
      have hb : (if uv then (match HMap.get m .catchAll with
          | some v => (visitedKeys uv v q).map (none :: ·)
          | none => []) else []).Nodup ∧ ∀ ks ∈ (if uv then (match HMap.get m .catchAll with
          | some v => (visitedKeys uv v q).map (none :: ·)
          | none => []) else []), ks.head? = some none := by
        cases uv with
        | false => simp
        | true => exact ⟨b1, b2⟩
      rw [List.cons_append, List.nodup_cons, List.nodup_append]
      refine ⟨?_, a1, hb.1, ?_⟩
      · intro h
        rcases List.mem_append.1 h with h | h
        · exact absurd (a2 _ h) (by simp)
        · exact absurd (hb.2 _ h) (by simp)
      · rintro x hx y hy rfl
        have := a2 _ hx
        rw [hb.2 _ hy] at this
        simp at this

theorem mem_visitedKeys {n : PathNode T} (hs : Shape n) (uv : Bool) (q : List Str) (ks : List (Option Str)) :
    ks ∈ visitedKeys uv n q ↔ HasNode n ks ∧ Permits uv ks q := by
  induction q generalizing n ks with
  | nil =>
    obtain ⟨m, rfl⟩ := hs.node_of
    cases ks with
    | nil => simp [visitedKeys, HasNode, Permits]
    | cons k ks => cases k <;> simp [visitedKeys, Permits]
  | cons c q ih =>
    obtain ⟨m, rfl⟩ := hs.node_of
    obtain ⟨h1, h2, h3⟩ := hs.inv
    unfold visitedKeys
    cases ks with
    | nil => simp [HasNode, Permits]
    | cons k ks =>
      rw [List.cons_append, List.mem_cons, List.mem_append]
      have hne : (k :: ks = []) = False := by simp
      rw [hne, false_or]
      cases k with
      | none =>
        have e1 : (none :: ks ∈ (match HMap.get m (.chunk c) with
            | some v => (visitedKeys uv v q).map (some c :: ·)
            | none => [])) = False := by
          cases HMap.get m (.chunk c) <;> simp
        rw [e1, false_or]
        cases uv with
        | false => simp [Permits]
        | true =>
          simp only [if_true, Permits, HasNode, keyOf, true_and]
          cases hg : HMap.get m .catchAll with
          | none => simp
          | some v =>
            have := ih (h3 _ v (by simp) hg) ks
            simp [this]
      | some s =>
        have e2 : (some s :: ks ∈ (if uv then (match HMap.get m .catchAll with
            | some v => (visitedKeys uv v q).map (none :: ·)
            | none => []) else [])) = False := by
          cases uv <;> cases HMap.get m .catchAll <;> simp
        rw [e2, or_false]
        simp only [Permits, HasNode, keyOf]
        by_cases hsc : s = c
        · subst hsc
          cases hg : HMap.get m (.chunk s) with
          | none => simp
          | some v =>
            have := ih (h3 _ v (by simp) hg) ks
            simp [this]
        · simp only [hsc, false_and, and_false, iff_false]
          cases HMap.get m (.chunk c) with
          | none => simp
          | some v => simp [Ne.symm hsc]

/-- `dfs` visits as many nodes as there are different beginnings of stored patterns that permit the path. -/
theorem Rep.visits {n : PathNode T} {items : List (PathData T)} (h : Rep n items) (uv : Bool) (q : PathBuf) :
    ReachedCount uv (items.map (·.origPath)) q (dfsC uv n q).2 := by
  refine ⟨visitedKeys uv n q, visitedKeys_nodup uv q, fun ks => ?_, (dfsC_snd h.shape uv q).symm⟩
  rw [mem_visitedKeys h.shape, h.nodes]
  unfold Reached generic
  simp only [List.mem_map]
  constructor
  · rintro ⟨h1 | ⟨d, hd, h1⟩, h2⟩
    · exact ⟨.inl h1, h2⟩
    · exact ⟨.inr ⟨_, ⟨d, hd, rfl⟩, h1⟩, h2⟩
  · rintro ⟨h1 | ⟨_, ⟨d, hd, rfl⟩, h1⟩, h2⟩
    · exact ⟨.inl h1, h2⟩
    · exact ⟨.inr ⟨d, hd, h1⟩, h2⟩

end PathNode

/-! ### how many beginnings that can be -/

theorem Spec.Permits.length_le {uv : Bool} {ks : List (Option Str)} {q : PathBuf} (h : Permits uv ks q) :
    ks.length ≤ q.length := by
  induction ks generalizing q with
  | nil => simp
  | cons k ks ih =>
    cases q with
    | nil => cases k <;> simp [Permits] at h
    | cons c q =>
      cases k <;> (simp only [Permits] at h; have := ih h.2; simp only [List.length_cons]; omega)

theorem Nodup.length_le_of_subset {α : Type u} [DecidableEq α] {l m : List α} (hn : l.Nodup) (hs : ∀ x ∈ l, x ∈ m) :
    l.length ≤ m.length := by
  induction l generalizing m with
  | nil => simp
  | cons a l ih =>
    obtain ⟨h1, h2⟩ := List.nodup_cons.1 hn
    have h3 := ih (m := m.erase a) h2 fun x hx => by
      have hxa : x ≠ a := fun e => h1 (by rw [← e]; exact hx)
      rw [List.mem_erase_of_ne hxa]
      exact hs x (List.mem_cons_of_mem _ hx)
    have h4 := List.length_erase_of_mem (hs a (by simp))
    have h5 : 0 < m.length := List.length_pos_of_mem (hs a (by simp))
    simp only [List.length_cons]
    omega

/-- at most the root, and one for every pattern and every segment of the path -/
theorem Spec.ReachedCount.le {uv : Bool} {ps : List PathBuf} {q : PathBuf} {n : Nat} (h : ReachedCount uv ps q n) :
    n ≤ 1 + ps.length * q.length := by
  obtain ⟨l, h1, h2, rfl⟩ := h
  let M : List (List (Option Str)) := [] :: ps.flatMap fun p => (List.range q.length).map fun i => (generic p).take (i + 1)
  have hM : M.length = 1 + ps.length * q.length := by
    have : ∀ ps : List PathBuf, (ps.flatMap fun p => (List.range q.length).map fun i => (generic p).take (i + 1)).length
        = ps.length * q.length := by
      intro ps
      induction ps with
      | nil => simp
      | cons p ps ih => simp only [List.flatMap_cons, List.length_append, ih, List.length_map, List.length_range,
          List.length_cons]; rw [Nat.add_mul]; omega
    simp only [M, List.length_cons, this]
    omega
  rw [← hM]
  refine Nodup.length_le_of_subset h1 fun ks hks => ?_
  obtain ⟨h3, h4⟩ := (h2 ks).1 hks
  have h5 := h4.length_le
  rcases h3 with rfl | ⟨p, hp, hpre⟩
  · simp [M]
  · cases ks with
    | nil => simp [M]
    | cons k ks =>
      refine List.mem_cons_of_mem _ (List.mem_flatMap.2 ⟨p, hp, List.mem_map.2 ⟨ks.length, ?_, ?_⟩⟩)
      · simp only [List.length_cons] at h5; simp; omega
      · have := (List.prefix_iff_eq_take.1 hpre)
        simpa using this.symm

/-- without variables the beginnings are those of the path itself -/
theorem Spec.ReachedCount.le_literal {ps : List PathBuf} {q : PathBuf} {n : Nat} (h : ReachedCount false ps q n) :
    n ≤ 1 + q.length := by
  obtain ⟨l, h1, h2, rfl⟩ := h
  have hadm : ∀ (ks : List (Option Str)) (q : PathBuf), Permits false ks q → ks = (q.map some).take ks.length := by
    intro ks
    induction ks with
    | nil => simp
    | cons k ks ih =>
      intro q h
      cases q with
      | nil => cases k <;> simp [Permits] at h
      | cons c q =>
        cases k with
        | none => simp [Permits] at h
        | some s =>
          simp only [Permits] at h
          simp only [List.map_cons, List.length_cons, List.take_succ_cons, h.1]
          rw [← ih q h.2]
  have hM : ((List.range (q.length + 1)).map fun i => (q.map some).take i).length = 1 + q.length := by
    simp; omega
  rw [← hM]
  refine Nodup.length_le_of_subset h1 fun ks hks => ?_
  obtain ⟨-, h4⟩ := (h2 ks).1 hks
  have h5 := h4.length_le
  refine List.mem_map.2 ⟨ks.length, by simp; omega, (hadm ks q h4).symm⟩

namespace Router
variable {S : Type u}

theorem dispatchC_fst (req : Request) (mtch : List (List (MatchedPath (Closures S)))) (k : Nat)
    (ix : List Nat) (s : S) : (dispatchC req mtch k ix s).1 = dispatch req mtch k ix s := by
  induction k generalizing ix s with
  | zero => rfl
  | succ k ih =>
    unfold dispatchC dispatch
    simp only
    cases mtch[(scanMin (mtch.zip ix) 0 (0, u64Max)).1]? with
    | none => rfl
    | some v =>
      cases ix[(scanMin (mtch.zip ix) 0 (0, u64Max)).1]? with
      | none => rfl
      | some i =>
        simp only
        cases v[i]? with
        | none => rfl
        | some x =>
          simp only
          cases x.data.closure { request := req, vars := x.vars } s with
          | panic => rfl
          | ok o =>
            simp only [Res.bind_ok']
            split
            · exact ih _ _
            · rfl

theorem dispatchC_le (req : Request) (mtch : List (List (MatchedPath (Closures S)))) (k : Nat)
    (ix : List Nat) (s : S) : (dispatchC req mtch k ix s).2 ≤ k * mtch.length := by
  induction k generalizing ix s with
  | zero => simp [dispatchC]
  | succ k ih =>
    have hz : (mtch.zip ix).length ≤ mtch.length := by
      rw [List.length_zip]; exact Nat.min_le_left _ _
    unfold dispatchC
    simp only
    rw [Nat.add_mul, Nat.one_mul]
    split
    · split
      · split
        · omega
        · rename_i s' flow he
          split
          · exact Nat.le_trans (Nat.add_le_add hz (ih _ s')) (by omega)
          · omega
      · omega
    · omega

theorem runC_fst (uv : Bool) (r : Router S) (req : Request) (s : S) :
    (runC uv r req s).1 = run uv r req s := by
  unfold runC run
  cases collectMatches uv r req.requestLine with
  | panic => rfl
  | ok m => exact dispatchC_fst _ _ _ _ _

theorem mergedFrom_length (uv : Bool) (method : RequestMethod) (q : PathBuf) (i : Nat) (L : List (Reg S)) :
    (mergedFrom uv method q i L).length = applicableCount uv method q L := by
  induction L generalizing i with
  | nil => rfl
  | cons e L ih =>
    unfold mergedFrom
    rw [List.length_append, ih]
    unfold applicableCount
    rw [List.filter_cons]
    split <;> simp
    omega

theorem itemsFrom_patterns (m : RequestMethod) (hm : m ≠ .all) (i : Nat) (L : List (Reg S)) :
    (itemsFrom m i L).map (·.origPath) = patternsOf m L := by
  induction L generalizing i with
  | nil => rfl
  | cons e L ih =>
    unfold itemsFrom
    rw [List.map_append, ih]
    unfold patternsOf
    rw [List.filterMap_cons]
    unfold itemOf
    cases e.target with
    | on m' p =>
      simp only
      split <;> simp
    | anyMethod p => simp [hm]
    | everywhere => simp

theorem itemsFrom_any (i : Nat) (L : List (Reg S)) (ht : ∀ e ∈ L, ∀ p, e.target ≠ .on .all p) :
    (itemsFrom .all i L).map (·.origPath) = patternsOfAny L := by
  induction L generalizing i with
  | nil => rfl
  | cons e L ih =>
    have ht' := ht e (by simp)
    unfold itemsFrom
    rw [List.map_append, ih _ fun x hx => ht x (List.mem_cons_of_mem _ hx)]
    unfold patternsOfAny
    rw [List.filterMap_cons]
    unfold itemOf
    cases he : e.target with
    | on m' p =>
      have : m' ≠ .all := fun e => ht' p (by rw [he, e])
      simp [this]
    | anyMethod p => simp
    | everywhere => simp

theorem methodVisits_eq {r : Router S} {L : List (Reg S)} (h : Inv r L) (uv : Bool) (m : RequestMethod)
    (q : PathBuf) :
    ReachedCount uv ((itemsFrom m 0 L).map (·.origPath)) q (methodVisits uv r m q) ∨
      methodVisits uv r m q = 0 ∧ itemsFrom m 0 L = [] := by
  have hrep := h.trees m
  unfold methodVisits
  cases hg : r.paths.get m with
  | none =>
    rw [hg] at hrep
    have := hrep.contents
    simp only [Option.getD_none, PathNode.new, PathNode.all, PathNode.allL] at this
    exact .inr ⟨rfl, List.perm_nil.1 this.symm⟩
  | some n =>
    rw [hg] at hrep
    exact .inl (hrep.visits uv q)

theorem scanned_le {r : Router S} {L : List (Reg S)} (h : Inv r L) (uv : Bool)
    (req : Request) (hm : req.requestLine.method ≠ .all) (s : S) :
    (runC uv r req s).2.scanned ≤ 3 * applicableCount uv req.requestLine.method req.requestLine.path L := by
  obtain ⟨m1, h1, h1'⟩ := methodMatches_eq h uv req.requestLine.method req.requestLine.path
  obtain ⟨m2, h2, h2'⟩ := methodMatches_eq h uv .all req.requestLine.path
  let M := mergedFrom uv req.requestLine.method req.requestLine.path 0 L
  let mtch := m1 ++ m2 ++ [r.middlewares.map fun c => (⟨[], c⟩ : MatchedPath (Closures S))]
  have hflat : M.Perm mtch.flatten := by
    have := merged_perm uv req.requestLine.method hm req.requestLine.path 0 L h.targets
    refine this.trans ?_
    simp only [mtch, h.mids]
    rcases h1' with rfl | ⟨rfl, e1⟩ <;> rcases h2' with rfl | ⟨rfl, e2⟩ <;> simp_all
  have hsum : (mtch.map List.length).sum = applicableCount uv req.requestLine.method req.requestLine.path L := by
    rw [← mergedFrom_length uv _ _ 0, hflat.length_eq, List.length_flatten]
  have hlen : mtch.length ≤ 3 := by
    simp only [mtch]
    rcases h1' with rfl | ⟨rfl, e1⟩ <;> rcases h2' with rfl | ⟨rfl, e2⟩ <;> simp
  have hmt : (runC uv r req s).2.scanned =
      (dispatchC req mtch (mtch.map List.length).sum (List.replicate mtch.length 0) s).2 := by
    simp only [runC, collectMatches, h1, h2, Res.bind_ok']; rfl
  rw [hmt]
  refine Nat.le_trans (dispatchC_le _ _ _ _ _) ?_
  rw [hsum, Nat.mul_comm]
  exact Nat.mul_le_mul_right _ hlen

end Router
end Octane
