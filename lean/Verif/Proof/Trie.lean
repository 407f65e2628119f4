import Verif.Model.Path
import Verif.Spec.Path
import Verif.Proof.Path
/-
Lemmas about the route tree: shape invariant, lookup after insertion, iteration.
-/
namespace Octane
open Spec

/-- Boolean version of `PatMatch`. -/
def patMatchB (uv : Bool) : PathBuf → PathBuf → Bool
  | [], [] => true
  | a :: p, b :: q =>
    (if a.head? = some ':' then uv else a = b) && patMatchB uv p q
  | _, _ => false

theorem patMatchB_iff (uv : Bool) (p q : PathBuf) : patMatchB uv p q = true ↔ PatMatch uv p q := by
  unfold PatMatch
  induction p generalizing q with
  | nil =>
    cases q with
    | nil => cases uv <;> simp [patMatchB, Matches]
    | cons b q => cases uv <;> simp [patMatchB, Matches]
  | cons a p ih =>
    cases q with
    | nil => cases uv <;> simp [patMatchB, Matches]
    | cons b q =>
      simp only [patMatchB, Bool.and_eq_true, ih]
      cases uv with
      | true =>
        simp only [if_true, Path.matches_cons]
        by_cases h : a.head? = some ':'
        · simp [h]
        · simp [h]
      | false =>
        simp only [Bool.false_eq_true, if_false, List.mem_cons, forall_eq_or_imp]
        by_cases h : a.head? = some ':'
        · simp [h]
        · simp only [h, if_false, decide_eq_true_eq, List.cons.injEq, ne_eq, not_false_eq_true,
            true_and, and_assoc]

instance (uv : Bool) (p q : PathBuf) : Decidable (PatMatch uv p q) :=
  decidable_of_iff _ (patMatchB_iff uv p q)

theorem decide_patMatch (uv : Bool) (p q : PathBuf) : decide (PatMatch uv p q) = patMatchB uv p q := by
  rw [Bool.eq_iff_iff, decide_eq_true_iff, patMatchB_iff]

theorem matchLoop_foldl (p q : PathBuf) (vars : HMap Str Str) (hp : ∀ a ∈ p, a ≠ [])
    (hm : Matches p q) :
    Path.matchLoop p q vars = .ok (some ((p.zip q).foldl (fun m e => bindStep m e.1 e.2) vars)) := by
  induction p generalizing q vars with
  | nil => simp [Path.matchLoop_nil]
  | cons a p ih =>
    cases q with
    | nil => simp [Matches] at hm
    | cons b q =>
      obtain ⟨h1, h2⟩ := Path.matches_cons.1 hm
      have ih' := fun vars => ih q vars (fun x hx => hp x (List.mem_cons_of_mem _ hx)) h2
      cases a with
      | nil => exact absurd rfl (hp [] (by simp))
      | cons c a =>
        by_cases hc : c = ':'
        · subst hc
          rw [Path.matchLoop_cons_var, ih']
          simp [bindStep]
        · have hab : c :: a = b := by
            rcases h1 with h | h
            · simp at h; exact absurd h hc
            · exact h
          rw [Path.matchLoop_cons_lit _ _ hc, if_pos hab, ih']
          simp [bindStep, hc]

theorem checkMatches_bindings {p q : PathBuf} (hp : ∀ a ∈ p, a ≠ []) (hm : Matches p q) :
    Path.checkMatches p q = .ok (some (bindings p q)) := by
  unfold Path.checkMatches
  rw [if_neg (by simp [hm.1]), matchLoop_foldl p q [] hp hm]
  rfl

namespace PathNode
variable {T : Type u}

/-- Maps have unique keys, `End` leads to a leaf and every other key to a node. -/
inductive Shape : PathNode T → Prop
  | node {m : List (PathChunk × PathNode T)} :
      HMap.Uniq m →
      (∀ v, (PathChunk.fin, v) ∈ m → ∃ l, v = .leaf l) →
      (∀ k v, (k, v) ∈ m → k ≠ PathChunk.fin → Shape v) → Shape (.node m)

theorem Shape.new : Shape (new : PathNode T) := .node HMap.Uniq.nil (by simp) (by simp)

theorem Shape.inv {m : List (PathChunk × PathNode T)} (h : Shape (.node m)) :
    HMap.Uniq m ∧ (∀ v, HMap.get m .fin = some v → ∃ l, v = .leaf l) ∧
      (∀ k v, k ≠ PathChunk.fin → HMap.get m k = some v → Shape v) := by
  cases h with
  | node h1 h2 h3 =>
    exact ⟨h1, fun v hv => h2 v (HMap.mem_of_get hv), fun k v hk hv => h3 k v (HMap.mem_of_get hv) hk⟩

theorem Shape.mk {m : List (PathChunk × PathNode T)} (h1 : HMap.Uniq m)
    (h2 : ∀ v, HMap.get m .fin = some v → ∃ l, v = .leaf l)
    (h3 : ∀ k v, k ≠ PathChunk.fin → HMap.get m k = some v → Shape v) : Shape (.node m) :=
  .node h1 (fun v hv => h2 v (HMap.get_of_mem h1 hv)) (fun k v hkv hk => h3 k v hk (HMap.get_of_mem h1 hkv))

theorem Shape.node_of {n : PathNode T} (h : Shape n) : ∃ m, n = .node m := by
  cases h with | node => exact ⟨_, rfl⟩

/-- the key of a non-empty chunk -/
theorem chunkKey_cons (c : Char) (s : Str) :
    chunkKey (c :: s) = .ok (if c = ':' then .catchAll else .chunk (c :: s)) := by
  obtain ⟨fb, h1, h2⟩ := firstByte_cons c s
  unfold chunkKey
  rw [h1]
  by_cases h : c = ':'
  · have := h2.2 h; simp [h, this]
  · have : ¬ fb = 58 := fun h' => h (h2.1 h')
    simp [h, this]

theorem chunkKey_ok {s : Str} (h : s ≠ []) :
    ∃ k, chunkKey s = .ok k ∧ k ≠ .fin ∧
      k = (if s.head? = some ':' then .catchAll else .chunk s) := by
  cases s with
  | nil => exact absurd rfl h
  | cons c s =>
    refine ⟨_, chunkKey_cons c s, ?_, ?_⟩
    · split <;> simp
    · simp

/-- Insertion of a path with non-empty chunks never panics and keeps the shape. -/
theorem insertAt_ok (n : PathNode T) (cs : List Str) (d : PathData T) (hn : Shape n)
    (hc : ∀ c ∈ cs, c ≠ []) : ∃ n', insertAt n cs d = .ok n' ∧ Shape n' := by
  induction cs generalizing n with
  | nil =>
    obtain ⟨m, rfl⟩ := hn.node_of
    obtain ⟨h1, h2, h3⟩ := hn.inv
    have hs : ∀ l, Shape (.node (HMap.insert m .fin (.leaf l))) := by
      intro l
      refine Shape.mk (h1.insert _ _) ?_ ?_
      · intro v hv; rw [HMap.get_insert_self] at hv; cases hv; exact ⟨_, rfl⟩
      · intro k v hk hv
        rw [HMap.get_insert_ne _ _ (Ne.symm hk)] at hv
        exact h3 k v hk hv
    unfold insertAt
    cases hg : HMap.get m .fin with
    | none => exact ⟨_, rfl, hs _⟩
    | some v =>
      obtain ⟨l, rfl⟩ := h2 v hg
      exact ⟨_, rfl, hs _⟩
  | cons c cs ih =>
    obtain ⟨m, rfl⟩ := hn.node_of
    obtain ⟨h1, h2, h3⟩ := hn.inv
    obtain ⟨k, hk, hkf, -⟩ := chunkKey_ok (hc c (by simp))
    have hchild : Shape ((HMap.get m k).getD new) := by
      cases hg : HMap.get m k with
      | none => exact Shape.new
      | some v => exact h3 k v hkf hg
    obtain ⟨ch, hch, hsh⟩ := ih _ hchild (fun x hx => hc x (List.mem_cons_of_mem _ hx))
    refine ⟨_, by simp [insertAt, hk, hch]; rfl, ?_⟩
    refine Shape.mk (h1.insert _ _) ?_ ?_
    · intro v hv
      rw [HMap.get_insert_ne _ _ hkf] at hv
      exact h2 v hv
    · intro k' v hk' hv
      rw [HMap.get_insert] at hv
      split at hv
      · cases hv; exact hsh
      · exact h3 k' v hk' hv

theorem dfs_new (uv : Bool) (q : List Str) : dfs uv (new : PathNode T) q = .ok [] := by
  cases q with
  | nil => simp [new, dfs]
  | cons c q => cases uv <;> simp [new, dfs]

/-- the child lookup `dfs` makes under one key -/
def dfsChild (uv : Bool) (m : List (PathChunk × PathNode T)) (k : PathChunk) (q : List Str) :
    Res (List (PathData T)) :=
  dfs uv ((HMap.get m k).getD new) q

theorem dfs_cons (uv : Bool) (m : List (PathChunk × PathNode T)) (c : Str) (q : List Str) :
    dfs uv (.node m) (c :: q) =
      (dfsChild uv m (.chunk c) q).bind fun a =>
        if uv then (dfsChild uv m .catchAll q).bind fun b => .ok (a ++ b) else .ok a := by
  unfold dfsChild
  rw [dfs]
  cases HMap.get m (.chunk c) with
  | none => cases HMap.get m .catchAll <;> simp [dfs_new]
  | some v => cases HMap.get m .catchAll <;> simp [dfs_new]

/-- Lookup never panics on a well-shaped tree. -/
theorem dfs_ok (uv : Bool) (n : PathNode T) (q : List Str) (hn : Shape n) :
    ∃ l, dfs uv n q = .ok l := by
  induction q generalizing n with
  | nil =>
    obtain ⟨m, rfl⟩ := hn.node_of
    obtain ⟨h1, h2, h3⟩ := hn.inv
    unfold dfs
    cases hg : HMap.get m .fin with
    | none => exact ⟨_, rfl⟩
    | some v => obtain ⟨l, rfl⟩ := h2 v hg; exact ⟨_, rfl⟩
  | cons c q ih =>
    obtain ⟨m, rfl⟩ := hn.node_of
    obtain ⟨h1, h2, h3⟩ := hn.inv
    have hsub : ∀ k, k ≠ PathChunk.fin → ∃ l, dfsChild uv m k q = Res.ok l := by
      intro k hk
      unfold dfsChild
      cases hg : HMap.get m k with
      | none => exact ⟨_, dfs_new uv q⟩
      | some v => exact ih v (h3 k v hk hg)
    obtain ⟨l1, hl1⟩ := hsub (.chunk c) (by simp)
    obtain ⟨l2, hl2⟩ := hsub .catchAll (by simp)
    rw [dfs_cons, hl1, hl2]
    cases uv with
    | true => exact ⟨_, rfl⟩
    | false => exact ⟨_, rfl⟩

/-- Lookup after insertion: the new entry is found exactly when its pattern applies. -/
theorem dfs_insertAt (uv : Bool) {n n' : PathNode T} {cs : List Str} {d : PathData T}
    (hn : Shape n) (hc : ∀ c ∈ cs, c ≠ []) (hi : insertAt n cs d = .ok n') (q : List Str)
    {l : List (PathData T)} (hl : dfs uv n q = .ok l) :
    ∃ l', dfs uv n' q = .ok l' ∧ l'.Perm (l ++ if patMatchB uv cs q then [d] else []) := by
  induction cs generalizing n n' q l with
  | nil =>
    obtain ⟨m, rfl⟩ := hn.node_of
    obtain ⟨h1, h2, h3⟩ := hn.inv
    have hn' : ∃ l0, n' = .node (HMap.insert m .fin (.leaf (l0 ++ [d]))) ∧
        (match HMap.get m .fin with | none => l0 = [] | some v => v = .leaf l0) := by
      unfold insertAt at hi
      cases hg : HMap.get m .fin with
      | none => simp [hg] at hi; exact ⟨[], by simp [hi], rfl⟩
      | some v =>
        obtain ⟨l0, rfl⟩ := h2 v hg
        simp [hg] at hi
        exact ⟨l0, hi.symm, rfl⟩
    obtain ⟨l0, rfl, h0⟩ := hn'
    cases q with
    | nil =>
      refine ⟨l0 ++ [d], by simp [dfs], ?_⟩
      have : l = l0 := by
        unfold dfs at hl
        cases hg : HMap.get m .fin with
        | none => simp [hg] at hl h0; rw [h0, hl]
        | some v => simp [hg] at h0; subst h0; simp [hg] at hl; exact hl.symm
      subst this
      simp [patMatchB]
    | cons c q =>
      refine ⟨l, ?_, by simp [patMatchB]⟩
      rw [dfs_cons] at hl ⊢
      unfold dfsChild at hl ⊢
      rw [HMap.get_insert_ne _ _ (by simp), HMap.get_insert_ne _ _ (by simp)]
      exact hl
  | cons a cs ih =>
    obtain ⟨m, rfl⟩ := hn.node_of
    obtain ⟨h1, h2, h3⟩ := hn.inv
    obtain ⟨k, hk, hkf, hkeq⟩ := chunkKey_ok (hc a (by simp))
    have hcs := fun x hx => hc x (List.mem_cons_of_mem _ hx)
    have hchild : Shape ((HMap.get m k).getD new) := by
      cases hg : HMap.get m k with
      | none => exact Shape.new
      | some v => exact h3 k v hkf hg
    obtain ⟨ch, hch, hsh⟩ := insertAt_ok ((HMap.get m k).getD new) cs d hchild hcs
    simp [insertAt, hk, hch] at hi
    subst hi
    cases q with
    | nil =>
      refine ⟨l, ?_, by simp [patMatchB]⟩
      unfold dfs at hl ⊢
      rw [HMap.get_insert_ne _ _ hkf]
      exact hl
    | cons c q =>
      -- the children of all keys but `k` are unchanged
      have hother : ∀ k', k ≠ k' → dfsChild uv (HMap.insert m k ch) k' q = dfsChild uv m k' q := by
        intro k' hk'
        unfold dfsChild
        rw [HMap.get_insert_ne _ _ hk']
      obtain ⟨lk, hlk⟩ := dfs_ok uv _ q hchild
      obtain ⟨lk', hlk', hperm⟩ := ih hchild hcs hch q hlk
      have hself : dfsChild uv (HMap.insert m k ch) k q = .ok lk' := by
        unfold dfsChild; rw [HMap.get_insert_self]; exact hlk'
      have hold : dfsChild uv m k q = .ok lk := hlk
      rw [dfs_cons] at hl ⊢
      have hshape : ∀ k', k' ≠ .fin → ∃ x, dfsChild uv m k' q = .ok x := by
        intro k' hk'
        unfold dfsChild
        refine dfs_ok uv _ q ?_
        cases hg : HMap.get m k' with
        | none => exact Shape.new
        | some v => exact h3 k' v hk' hg
      by_cases hv : a.head? = some ':'
      · -- variable segment
        rw [if_pos hv] at hkeq
        subst hkeq
        obtain ⟨x, hx⟩ := hshape (.chunk c) (by simp)
        rw [hother (.chunk c) (by simp), hx]
        rw [hx] at hl
        cases uv with
        | true =>
          simp only [Res.bind_ok', if_true, hold, hself] at hl ⊢
          cases hl
          refine ⟨_, rfl, ?_⟩
          simp only [patMatchB, hv, if_true, Bool.true_and]
          rw [List.append_assoc]
          exact hperm.append_left _
        | false =>
          simp only [Res.bind_ok'] at hl ⊢
          exact ⟨l, hl, by simp [patMatchB, hv]⟩
      · rw [if_neg hv] at hkeq
        subst hkeq
        by_cases hac : a = c
        · subst hac
          rw [hself]
          rw [hold] at hl
          obtain ⟨y, hy⟩ := hshape .catchAll (by simp)
          cases uv with
          | true =>
            rw [hother .catchAll (by simp)]
            simp only [Res.bind_ok', if_true, hy] at hl ⊢
            cases hl
            refine ⟨_, rfl, ?_⟩
            simp only [patMatchB, hv, if_false, decide_true, Bool.true_and]
            refine (hperm.append_right y).trans ?_
            rw [List.append_assoc, List.append_assoc]
            exact (List.perm_append_comm).append_left _
          | false =>
            simp only [Res.bind_ok'] at hl ⊢
            cases hl
            refine ⟨_, rfl, ?_⟩
            simpa [patMatchB, hv] using hperm
        · rw [hother (.chunk c) (by simp [hac]), hother .catchAll (by simp)]
          exact ⟨l, hl, by simp [patMatchB, hv, hac]⟩

/-! ### contents -/

mutual
/-- all entries stored in the leaves of a tree -/
def all : PathNode T → List (PathData T)
  | .node m => allL m
  | .leaf l => l
def allL : List (PathChunk × PathNode T) → List (PathData T)
  | [] => []
  | (_, n) :: m => all n ++ allL m
end

theorem allL_append (a b : List (PathChunk × PathNode T)) : allL (a ++ b) = allL a ++ allL b := by
  induction a with
  | nil => simp [allL]
  | cons e a ih => obtain ⟨k, n⟩ := e; simp [allL, ih]

theorem allL_perm {a b : List (PathChunk × PathNode T)} (h : a.Perm b) : (allL a).Perm (allL b) := by
  induction h with
  | nil => exact .refl _
  | cons x _ ih => obtain ⟨k, n⟩ := x; simp only [allL]; exact ih.append_left _
  | swap x y l =>
    obtain ⟨k, n⟩ := x; obtain ⟨k', n'⟩ := y
    simp only [allL, ← List.append_assoc]
    exact List.perm_append_comm.append_right _
  | trans _ _ ih1 ih2 => exact ih1.trans ih2

theorem allL_insert (m : List (PathChunk × PathNode T)) (k : PathChunk) (w : PathNode T)
    (x : List (PathData T)) (h : (all w).Perm (all ((HMap.get m k).getD new) ++ x)) :
    (allL (HMap.insert m k w)).Perm (allL m ++ x) := by
  cases hg : HMap.get m k with
  | none =>
    rw [hg] at h
    rw [HMap.insert_eq_of_get_none hg, allL_append]
    simp only [allL, List.append_nil]
    refine h.append_left _ |>.trans ?_
    simp [new, all, allL]
  | some v =>
    rw [hg] at h
    obtain ⟨a, b, h1, h2, -⟩ := HMap.insert_eq_of_get hg w
    rw [h2, h1, allL_append, allL_append]
    simp only [allL, List.append_assoc]
    refine List.Perm.append_left _ ?_
    refine (h.append_right (allL b)).trans ?_
    rw [List.append_assoc]
    exact List.perm_append_comm.append_left _

theorem all_insertAt {n n' : PathNode T} {cs : List Str} {d : PathData T} (hn : Shape n)
    (hc : ∀ c ∈ cs, c ≠ []) (hi : insertAt n cs d = .ok n') : (all n').Perm (all n ++ [d]) := by
  induction cs generalizing n n' with
  | nil =>
    obtain ⟨m, rfl⟩ := hn.node_of
    obtain ⟨h1, h2, h3⟩ := hn.inv
    unfold insertAt at hi
    cases hg : HMap.get m .fin with
    | none =>
      simp [hg] at hi
      subst hi
      simp only [all]
      exact allL_insert m _ _ _ (by simp [hg, all, new, allL])
    | some v =>
      obtain ⟨l0, rfl⟩ := h2 v hg
      simp [hg] at hi
      subst hi
      simp only [all]
      exact allL_insert m _ _ _ (by simp [hg, all])
  | cons a cs ih =>
    obtain ⟨m, rfl⟩ := hn.node_of
    obtain ⟨h1, h2, h3⟩ := hn.inv
    obtain ⟨k, hk, hkf, hkeq⟩ := chunkKey_ok (hc a (by simp))
    have hcs := fun x hx => hc x (List.mem_cons_of_mem _ hx)
    have hchild : Shape ((HMap.get m k).getD new) := by
      cases hg : HMap.get m k with
      | none => exact Shape.new
      | some v => exact h3 k v hkf hg
    obtain ⟨ch, hch, hsh⟩ := insertAt_ok ((HMap.get m k).getD new) cs d hchild hcs
    simp [insertAt, hk, hch] at hi
    subst hi
    simp only [all]
    exact allL_insert m _ _ _ (ih hchild hcs hch)

/-- the key of a literal or of a variable -/
def keyOf : Option Str → PathChunk
  | none => .catchAll
  | some s => .chunk s

/-- The tree has a node at the end of the keys `ks` (`none` is the key of the variables). -/
def HasNode : PathNode T → List (Option Str) → Prop
  | _, [] => True
  | .leaf _, _ :: _ => False
  | .node m, k :: ks => ∃ v, HMap.get m (keyOf k) = some v ∧
      HasNode v ks
termination_by structural _ ks => ks

theorem hasNode_new (ks : List (Option Str)) : HasNode (new : PathNode T) ks ↔ ks = [] := by
  cases ks with
  | nil => simp [HasNode]
  | cons k ks => simp [HasNode, new]

theorem hasNode_getD (m : List (PathChunk × PathNode T)) (k : Option Str) (ks : List (Option Str)) :
    HasNode (.node m) (k :: ks) ↔
      (HMap.get m (keyOf k)).isSome = true ∧
      HasNode ((HMap.get m (keyOf k)).getD new) ks := by
  simp only [HasNode]
  cases HMap.get m (keyOf k) with
  | none => simp
  | some v => simp

theorem hasNode_insertAt {n n' : PathNode T} {cs : List Str} {d : PathData T} (hs : Shape n)
    (hc : ∀ c ∈ cs, c ≠ []) (hi : insertAt n cs d = .ok n') (ks : List (Option Str)) :
    HasNode n' ks ↔ HasNode n ks ∨ ks <+: cs.map fun s => if s.head? = some ':' then none else some s := by
  induction cs generalizing n n' ks with
  | nil =>
    obtain ⟨m, rfl⟩ := hs.node_of
    obtain ⟨h1, h2, h3⟩ := hs.inv
    have : ∃ w, n' = .node (HMap.insert m .fin w) := by
      unfold insertAt at hi
      cases hg : HMap.get m .fin with
      | none => simp [hg] at hi; exact ⟨_, hi.symm⟩
      | some v =>
        obtain ⟨l0, rfl⟩ := h2 v hg
        simp [hg] at hi; exact ⟨_, hi.symm⟩
    obtain ⟨w, rfl⟩ := this
    cases ks with
    | nil => simp [HasNode]
    | cons k ks =>
      cases k <;> simp [HasNode, HMap.get_insert_ne, keyOf]
  | cons a cs ih =>
    obtain ⟨m, rfl⟩ := hs.node_of
    obtain ⟨h1, h2, h3⟩ := hs.inv
    obtain ⟨k, hk, hkf, hkeq⟩ := chunkKey_ok (hc a (by simp))
    have hcs := fun x hx => hc x (List.mem_cons_of_mem _ hx)
    have hchild : Shape ((HMap.get m k).getD PathNode.new) := by
      cases hg : HMap.get m k with
      | none => exact Shape.new
      | some v => exact h3 k v hkf hg
    obtain ⟨ch, hch, hsh⟩ := insertAt_ok ((HMap.get m k).getD PathNode.new) cs d hchild hcs
    simp [insertAt, hk, hch] at hi
    subst hi
    cases ks with
    | nil => simp [HasNode]
    | cons b ks =>
      rw [hasNode_getD, hasNode_getD, HMap.get_insert, List.map_cons, List.cons_prefix_cons]
      have hb : k = keyOf b ↔
          b = if a.head? = some ':' then none else some a := by
        rw [hkeq]
        cases b <;> (split <;> simp [eq_comm, keyOf])
      by_cases hkb : k = keyOf b
      · rw [if_pos hkb, ← hkb]
        simp only [Option.isSome_some, Option.getD_some, true_and, hb.1 hkb]
        rw [ih hchild hcs hch]
        cases hg : HMap.get m k with
        | none =>
          simp only [Option.getD_none, hasNode_new, Option.isSome_none, Bool.false_eq_true, false_and,
            false_or]
          constructor
          · rintro (rfl | h)
            · exact List.nil_prefix
            · exact h
          · exact .inr
        | some v => simp
      · rw [if_neg hkb]
        simp only [false_and, or_false, mt hb.2 hkb]

/-- The tree has a list of entries at the end of the keys `ks`. -/
def HasLeaf : PathNode T → List (Option Str) → Prop
  | .leaf _, _ => False
  | .node m, [] => (HMap.get m .fin).isSome = true
  | .node m, k :: ks => ∃ v, HMap.get m (keyOf k) = some v ∧ HasLeaf v ks
termination_by structural _ ks => ks

theorem hasLeaf_new (ks : List (Option Str)) : ¬ HasLeaf (new : PathNode T) ks := by
  cases ks <;> simp [HasLeaf, new]

theorem hasLeaf_getD (m : List (PathChunk × PathNode T)) (k : Option Str) (ks : List (Option Str)) :
    HasLeaf (.node m) (k :: ks) ↔ HasLeaf ((HMap.get m (keyOf k)).getD new) ks := by
  simp only [HasLeaf]
  cases HMap.get m (keyOf k) with
  | none => simp [hasLeaf_new]
  | some v => simp

theorem hasLeaf_insertAt {n n' : PathNode T} {cs : List Str} {d : PathData T} (hs : Shape n)
    (hc : ∀ c ∈ cs, c ≠ []) (hi : insertAt n cs d = .ok n') (ks : List (Option Str)) :
    HasLeaf n' ks ↔ HasLeaf n ks ∨ ks = cs.map fun s => if s.head? = some ':' then none else some s := by
  induction cs generalizing n n' ks with
  | nil =>
    obtain ⟨m, rfl⟩ := hs.node_of
    obtain ⟨h1, h2, h3⟩ := hs.inv
    have : ∃ w, n' = .node (HMap.insert m .fin w) := by
      unfold insertAt at hi
      cases hg : HMap.get m .fin with
      | none => simp [hg] at hi; exact ⟨_, hi.symm⟩
      | some v =>
        obtain ⟨l0, rfl⟩ := h2 v hg
        simp [hg] at hi; exact ⟨_, hi.symm⟩
    obtain ⟨w, rfl⟩ := this
    cases ks with
    | nil => simp [HasLeaf, HMap.get_insert]
    | cons k ks =>
      cases k <;> simp [HasLeaf, HMap.get_insert_ne, keyOf]
  | cons a cs ih =>
    obtain ⟨m, rfl⟩ := hs.node_of
    obtain ⟨h1, h2, h3⟩ := hs.inv
    obtain ⟨k, hk, hkf, hkeq⟩ := chunkKey_ok (hc a (by simp))
    have hcs := fun x hx => hc x (List.mem_cons_of_mem _ hx)
    have hchild : Shape ((HMap.get m k).getD PathNode.new) := by
      cases hg : HMap.get m k with
      | none => exact Shape.new
      | some v => exact h3 k v hkf hg
    obtain ⟨ch, hch, hsh⟩ := insertAt_ok ((HMap.get m k).getD PathNode.new) cs d hchild hcs
    simp [insertAt, hk, hch] at hi
    subst hi
    cases ks with
    | nil => simp [HasLeaf, HMap.get_insert, hkf]
    | cons b ks =>
      rw [hasLeaf_getD, hasLeaf_getD, HMap.get_insert, List.map_cons, List.cons.injEq]
      have hb : k = keyOf b ↔
          b = if a.head? = some ':' then none else some a := by
        rw [hkeq]
        cases b <;> (split <;> simp [eq_comm, keyOf])
      by_cases hkb : k = keyOf b
      · rw [if_pos hkb, ← hkb]
        simp only [Option.getD_some, hb.1 hkb, true_and]
        exact ih hchild hcs hch ks
      · rw [if_neg hkb]
        simp only [false_and, or_false, mt hb.2 hkb]

/-! ### iteration -/

theorem weightL_perm {a b : List (PathChunk × PathNode T)} (h : a.Perm b) : weightL a = weightL b := by
  induction h with
  | nil => rfl
  | cons x _ ih => obtain ⟨k, n⟩ := x; simp [weightL, ih]
  | swap x y l => obtain ⟨k, n⟩ := x; obtain ⟨k', n'⟩ := y; simp [weightL]; omega
  | trans _ _ ih1 ih2 => exact ih1.trans ih2

/-- entries below a list of trees -/
def allF (f : List (PathNode T)) : List (PathData T) := f.flatMap all
def weightF (f : List (PathNode T)) : Nat := (f.map weight).sum

theorem allF_map (m : List (PathChunk × PathNode T)) : allF (m.map (·.2)) = allL m := by
  induction m with
  | nil => rfl
  | cons e m ih =>
    obtain ⟨k, n⟩ := e
    simp only [allF, List.map_cons, List.flatMap_cons, allL] at ih ⊢
    rw [ih]

theorem weightF_map (m : List (PathChunk × PathNode T)) : weightF (m.map (·.2)) = weightL m := by
  induction m with
  | nil => rfl
  | cons e m ih =>
    obtain ⟨k, n⟩ := e
    simp only [weightF, List.map_cons, List.sum_cons, weightL] at ih ⊢
    rw [ih]

/-- entries below a stack of frames -/
def allS (st : List (List (PathNode T))) : List (PathData T) := st.flatMap allF
def weightS (st : List (List (PathNode T))) : Nat := (st.map fun f => 1 + weightF f).sum

theorem drain_owned (ord : Order T) (hord : ∀ t m, (ord t m).Perm m) (fuel : Nat) (it : OwnedIter T)
    (hf : (it.curvec.getD []).length + weightS it.stack < fuel) :
    ∃ l, drain (OwnedIter.step ord) fuel it = some l ∧
      l.Perm (it.curvec.getD [] ++ allS it.stack) := by
  induction fuel generalizing it with
  | zero => omega
  | succ fuel ih =>
    obtain ⟨stack, curvec, time⟩ := it
    -- the part of the step after the current leaf is exhausted
    have rest : curvec.getD [] = [] → ∃ l, drain (OwnedIter.step ord) (fuel + 1) ⟨stack, curvec, time⟩ = some l ∧
        l.Perm (allS stack) := by
      intro hcv
      have hstep : OwnedIter.step ord ⟨stack, curvec, time⟩ =
          match stack with
          | [] => .done
          | [] :: below => .continue ⟨below, none, time⟩
          | (.node n :: top') :: below =>
            .continue ⟨(ord time n).map (·.2) :: top' :: below, none, time + 1⟩
          | (.leaf l :: top') :: below => .continue ⟨top' :: below, some l, time⟩ := by
        unfold OwnedIter.step
        cases curvec with
        | none =>
          cases stack with
          | nil => rfl
          | cons top below =>
            cases top with
            | nil => rfl
            | cons v top' => cases v <;> rfl
        | some v =>
          simp at hcv
          subst hcv
          cases stack with
          | nil => rfl
          | cons top below =>
            cases top with
            | nil => rfl
            | cons v top' => cases v <;> rfl
      simp only [hcv, List.length_nil, Nat.zero_add] at hf
      unfold drain
      rw [hstep]
      match stack, hf with
      | [], _ => exact ⟨[], rfl, by simp [allS]⟩
      | [] :: below, hf =>
        have := ih ⟨below, none, time⟩ (by simp [weightS, weightF] at hf ⊢; omega)
        simpa [allS, allF] using this
      | (.node n :: top') :: below, hf =>
        have hw : weightF ((ord time n).map (·.2)) = weightL n := by
          rw [weightF_map, weightL_perm (hord time n)]
        obtain ⟨l, h1, h2⟩ := ih ⟨(ord time n).map (·.2) :: top' :: below, none, time + 1⟩ (by
          simp only [weightS, List.map_cons, List.sum_cons, Option.getD_none, List.length_nil, hw]
          simp only [weightS, List.map_cons, List.sum_cons, weightF, weight] at hf
          simp only [weightF] at *
          omega)
        refine ⟨l, h1, h2.trans ?_⟩
        simp only [Option.getD_none, List.nil_append, allS, List.flatMap_cons, allF_map]
        simp only [allF, List.flatMap_cons, all, List.append_assoc]
        exact (allL_perm (hord time n)).append_right _
      | (.leaf l0 :: top') :: below, hf =>
        obtain ⟨l, h1, h2⟩ := ih ⟨top' :: below, some l0, time⟩ (by
          simp only [weightS, List.map_cons, List.sum_cons, weightF, weight, Option.getD_some] at hf ⊢
          omega)
        refine ⟨l, h1, h2.trans ?_⟩
        simp [allS, allF, all]
    cases hc : curvec.getD [] with
    | nil =>
      obtain ⟨l, h1, h2⟩ := rest hc
      exact ⟨l, h1, by simpa [hc] using h2⟩
    | cons x xs =>
      have hsome : curvec = some (x :: xs) := by
        cases curvec with
        | none => simp at hc
        | some v => simp at hc; rw [hc]
      subst hsome
      have hlast : (x :: xs).getLast? = some ((x :: xs).getLast (by simp)) :=
        List.getLast?_eq_some_getLast (by simp)
      have hstep : OwnedIter.step ord ⟨stack, some (x :: xs), time⟩ =
          .yield ((x :: xs).getLast (by simp)) ⟨stack, some (x :: xs).dropLast, time⟩ := by
        unfold OwnedIter.step
        simp only [hlast]
      obtain ⟨l, h1, h2⟩ := ih ⟨stack, some (x :: xs).dropLast, time⟩ (by
        simp only [Option.getD_some, List.length_dropLast, List.length_cons] at hf ⊢
        omega)
      refine ⟨(x :: xs).getLast (by simp) :: l, by unfold drain; rw [hstep]; simp [h1], ?_⟩
      simp only [Option.getD_some] at h2 ⊢
      refine (List.Perm.cons _ h2).trans ?_
      have : (x :: xs).dropLast ++ [(x :: xs).getLast (by simp)] = x :: xs :=
        List.dropLast_concat_getLast _
      conv => rhs; rw [← this]
      rw [List.append_assoc]
      exact (List.perm_middle (l₁ := (x :: xs).dropLast)).symm

theorem drain_ref (ord : Order T) (hord : ∀ t m, (ord t m).Perm m) (fuel : Nat) (it : RefIter T)
    (hf : ((it.curvec.getD []).drop it.curind).length + weightS it.stack < fuel) :
    ∃ l, drain (RefIter.step ord) fuel it = some l ∧
      l.Perm ((it.curvec.getD []).drop it.curind ++ allS it.stack) := by
  induction fuel generalizing it with
  | zero => omega
  | succ fuel ih =>
    obtain ⟨stack, curvec, curind, time⟩ := it
    have rest : (curvec.getD []).drop curind = [] →
        ∃ l, drain (RefIter.step ord) (fuel + 1) ⟨stack, curvec, curind, time⟩ = some l ∧
        l.Perm (allS stack) := by
      intro hcv
      have hstep : RefIter.step ord ⟨stack, curvec, curind, time⟩ =
          match stack with
          | [] => .done
          | [] :: below => .continue ⟨below, none, 0, time⟩
          | (.node n :: top') :: below =>
            .continue ⟨(ord time n).map (·.2) :: top' :: below, none, 0, time + 1⟩
          | (.leaf l :: top') :: below => .continue ⟨top' :: below, some l, 0, time⟩ := by
        unfold RefIter.step
        cases curvec with
        | none =>
          cases stack with
          | nil => rfl
          | cons top below =>
            cases top with
            | nil => rfl
            | cons v top' => cases v <;> rfl
        | some v =>
          simp only [Option.getD_some, List.drop_eq_nil_iff] at hcv
          have : v[curind]? = none := List.getElem?_eq_none hcv
          simp only [this]
          cases stack with
          | nil => rfl
          | cons top below =>
            cases top with
            | nil => rfl
            | cons v top' => cases v <;> rfl
      simp only [hcv, List.length_nil, Nat.zero_add] at hf
      unfold drain
      rw [hstep]
      match stack, hf with
      | [], _ => exact ⟨[], rfl, by simp [allS]⟩
      | [] :: below, hf =>
        have := ih ⟨below, none, 0, time⟩ (by simp [weightS, weightF] at hf ⊢; omega)
        simpa [allS, allF] using this
      | (.node n :: top') :: below, hf =>
        have hw : weightF ((ord time n).map (·.2)) = weightL n := by
          rw [weightF_map, weightL_perm (hord time n)]
        obtain ⟨l, h1, h2⟩ := ih ⟨(ord time n).map (·.2) :: top' :: below, none, 0, time + 1⟩ (by
          simp only [weightS, List.map_cons, List.sum_cons, Option.getD_none, List.drop_nil,
            List.length_nil, hw]
          simp only [weightS, List.map_cons, List.sum_cons, weightF, weight] at hf
          simp only [weightF] at *
          omega)
        refine ⟨l, h1, h2.trans ?_⟩
        simp only [Option.getD_none, List.drop_nil, List.nil_append, allS, List.flatMap_cons, allF_map]
        simp only [allF, List.flatMap_cons, all, List.append_assoc]
        exact (allL_perm (hord time n)).append_right _
      | (.leaf l0 :: top') :: below, hf =>
        obtain ⟨l, h1, h2⟩ := ih ⟨top' :: below, some l0, 0, time⟩ (by
          simp only [weightS, List.map_cons, List.sum_cons, weightF, weight, Option.getD_some,
            List.drop_zero] at hf ⊢
          omega)
        refine ⟨l, h1, h2.trans ?_⟩
        simp [allS, allF, all]
    cases hc : (curvec.getD []).drop curind with
    | nil =>
      obtain ⟨l, h1, h2⟩ := rest hc
      exact ⟨l, h1, by simpa [hc] using h2⟩
    | cons x xs =>
      cases curvec with
      | none => simp at hc
      | some v =>
        simp only [Option.getD_some] at hc hf ⊢
        have hlt : curind < v.length := by
          have := congrArg List.length hc
          simp at this; omega
        have hx : v[curind]? = some x := by
          have h0 : (v.drop curind)[0]? = some x := by rw [hc]; rfl
          simpa using h0
        have hxs : v.drop (curind + 1) = xs := by
          have := congrArg List.tail hc
          simpa using this
        have hstep : RefIter.step ord ⟨stack, some v, curind, time⟩ =
            .yield x ⟨stack, some v, curind + 1, time⟩ := by
          unfold RefIter.step
          simp only [hx]
        obtain ⟨l, h1, h2⟩ := ih ⟨stack, some v, curind + 1, time⟩ (by
          rw [hc] at hf
          simp only [Option.getD_some, hxs]
          simp only [List.length_cons] at hf
          omega)
        refine ⟨x :: l, by unfold drain; rw [hstep]; simp [h1], ?_⟩
        simp only [Option.getD_some, hxs] at h2
        exact h2.cons x

theorem ownedItems_perm (ord : Order T) (hord : ∀ t m, (ord t m).Perm m) (n : PathNode T) :
    ∃ l, ownedItems ord n = some l ∧ l.Perm (all n) := by
  unfold ownedItems
  cases n with
  | leaf l0 =>
    obtain ⟨l, h1, h2⟩ := drain_owned ord hord (weight (.leaf l0) + 1) (intoIter ord (.leaf l0)) (by
      simp [intoIter, weightS, weight]; omega)
    exact ⟨l, h1, by simpa [intoIter, allS, all] using h2⟩
  | node m =>
    obtain ⟨l, h1, h2⟩ := drain_owned ord hord (weight (.node m) + 1) (intoIter ord (.node m)) (by
      have hw : weightF ((ord 0 m).map (·.2)) = weightL m := by
        rw [weightF_map, weightL_perm (hord 0 m)]
      simp only [intoIter, weightS, weight, Option.getD_none, List.length_nil, List.map_cons,
        List.map_nil, List.sum_cons, List.sum_nil, hw]
      omega)
    refine ⟨l, h1, h2.trans ?_⟩
    simp only [intoIter, Option.getD_none, List.nil_append, allS, List.flatMap_cons, allF_map,
      List.flatMap_nil, List.append_nil, all]
    exact allL_perm (hord 0 m)

theorem refItems_perm (ord : Order T) (hord : ∀ t m, (ord t m).Perm m) (n : PathNode T) :
    ∃ l, refItems ord n = some l ∧ l.Perm (all n) := by
  unfold refItems
  cases n with
  | leaf l0 =>
    obtain ⟨l, h1, h2⟩ := drain_ref ord hord (weight (.leaf l0) + 1) (iter ord (.leaf l0)) (by
      simp [iter, weightS, weight]; omega)
    exact ⟨l, h1, by simpa [iter, allS, all] using h2⟩
  | node m =>
    obtain ⟨l, h1, h2⟩ := drain_ref ord hord (weight (.node m) + 1) (iter ord (.node m)) (by
      have hw : weightF ((ord 0 m).map (·.2)) = weightL m := by
        rw [weightF_map, weightL_perm (hord 0 m)]
      simp only [iter, weightS, weight, Option.getD_none, List.drop_nil, List.length_nil,
        List.map_cons, List.map_nil, List.sum_cons, List.sum_nil, hw]
      omega)
    refine ⟨l, h1, h2.trans ?_⟩
    simp only [iter, Option.getD_none, List.drop_nil, List.nil_append, allS, List.flatMap_cons,
      allF_map, List.flatMap_nil, List.append_nil, all]
    exact allL_perm (hord 0 m)

/-! ### representation -/

/-- The tree stores exactly `items`: iteration contents and lookup results agree with it (as
multisets), and every stored pattern has non-empty segments. -/
structure Rep (n : PathNode T) (items : List (PathData T)) : Prop where
  shape : Shape n
  nonempty : ∀ d ∈ items, ∀ c ∈ d.origPath, c ≠ []
  contents : (all n).Perm items
  nodes : ∀ ks, HasNode n ks ↔
    ks = [] ∨ ∃ d ∈ items, ks <+: d.origPath.map fun s => if s.head? = some ':' then none else some s
  leaves : ∀ ks, HasLeaf n ks ↔
    ∃ d ∈ items, ks = d.origPath.map fun s => if s.head? = some ':' then none else some s
  lookup : ∀ uv q, ∃ l, dfs uv n q = .ok l ∧
    l.Perm (items.filter fun d => patMatchB uv d.origPath q)

theorem Rep.new : Rep (new : PathNode T) [] :=
  ⟨Shape.new, by simp, by simp [PathNode.new, all, allL],
    fun ks => by simp [hasNode_new], fun ks => by simp [hasLeaf_new], fun uv q => ⟨[], dfs_new uv q, by simp⟩⟩

theorem Rep.perm {n : PathNode T} {a b : List (PathData T)} (h : Rep n a) (hp : a.Perm b) : Rep n b :=
  ⟨h.shape, fun d hd => h.nonempty d (hp.mem_iff.2 hd), h.contents.trans hp,
    fun ks => by simp only [h.nodes, hp.mem_iff], fun ks => by simp only [h.leaves, hp.mem_iff], fun uv q => by
    obtain ⟨l, h1, h2⟩ := h.lookup uv q
    exact ⟨l, h1, h2.trans (hp.filter _)⟩⟩

theorem Rep.insert {n : PathNode T} {items : List (PathData T)} (h : Rep n items) (p : PathBuf) (x : T)
    (hp : ∀ c ∈ p, c ≠ []) :
    ∃ n', PathNode.insert n p x = .ok n' ∧ Rep n' (items ++ [⟨p, x⟩]) := by
  obtain ⟨n', hi, hs⟩ := insertAt_ok n p ⟨p, x⟩ h.shape hp
  refine ⟨n', hi, hs, ?_, ?_, ?_, ?_, ?_⟩
  · intro d hd
    rcases List.mem_append.1 hd with hd | hd
    · exact h.nonempty d hd
    · have : d = ⟨p, x⟩ := by simpa using hd
      subst this; exact hp
  · exact (all_insertAt h.shape hp hi).trans (h.contents.append_right _)
  · intro ks
    rw [hasNode_insertAt h.shape hp hi, h.nodes]
    simp only [List.mem_append, List.mem_singleton]
    constructor
    · rintro ((h | ⟨d, hd, h⟩) | h)
      · exact .inl h
      · exact .inr ⟨d, .inl hd, h⟩
      · exact .inr ⟨_, .inr rfl, h⟩
    · rintro (h | ⟨d, hd | rfl, h⟩)
      · exact .inl (.inl h)
      · exact .inl (.inr ⟨d, hd, h⟩)
      · exact .inr h
  · intro ks
    rw [hasLeaf_insertAt h.shape hp hi, h.leaves]
    simp only [List.mem_append, List.mem_singleton]
    constructor
    · rintro (⟨d, hd, h⟩ | h)
      · exact ⟨d, .inl hd, h⟩
      · exact ⟨_, .inr rfl, h⟩
    · rintro ⟨d, hd | rfl, h⟩
      · exact .inl ⟨d, hd, h⟩
      · exact .inr h
  · intro uv q
    obtain ⟨l, h1, h2⟩ := h.lookup uv q
    obtain ⟨l', h3, h4⟩ := dfs_insertAt uv h.shape hp hi q h1
    refine ⟨l', h3, h4.trans ?_⟩
    rw [List.filter_append]
    refine (h2.append_right _).trans ?_
    by_cases hm : patMatchB uv p q = true <;> simp [hm]

theorem Rep.extend {n : PathNode T} {items : List (PathData T)} (h : Rep n items)
    (ds : List (PathData T)) (hd : ∀ d ∈ ds, ∀ c ∈ d.origPath, c ≠ []) :
    ∃ n', PathNode.extend n ds = .ok n' ∧ Rep n' (items ++ ds) := by
  induction ds generalizing n items with
  | nil => exact ⟨n, rfl, by simpa using h⟩
  | cons d ds ih =>
    obtain ⟨n1, h1, h2⟩ := h.insert d.origPath d.data (hd d (by simp))
    obtain ⟨n2, h3, h4⟩ := ih h2 (fun x hx => hd x (List.mem_cons_of_mem _ hx))
    refine ⟨n2, by simp [PathNode.extend, h1, h3], ?_⟩
    simpa using h4

theorem attachVars_eq (uv : Bool) (q : PathBuf) (ds : List (PathData T))
    (hne : ∀ d ∈ ds, ∀ c ∈ d.origPath, c ≠ []) (hm : ∀ d ∈ ds, patMatchB uv d.origPath q = true) :
    attachVars uv q ds =
      .ok (ds.map fun d => ⟨if uv then bindings d.origPath q else [], d.data⟩) := by
  induction ds with
  | nil => rfl
  | cons d ds ih =>
    have ih' := ih (fun x hx => hne x (List.mem_cons_of_mem _ hx)) (fun x hx => hm x (List.mem_cons_of_mem _ hx))
    unfold attachVars
    cases uv with
    | false => simp only [Bool.false_eq_true, if_false, Res.bind_ok'] at ih' ⊢; rw [ih']; rfl
    | true =>
      have hmd := (patMatchB_iff _ _ _).1 (hm d (by simp))
      simp only [PatMatch, if_true] at hmd
      rw [checkMatches_bindings (hne d (by simp)) hmd]
      simp only [if_true, Res.bind_ok', Res.unwrap_some] at ih' ⊢
      rw [ih']; rfl

/-- Lookup returns exactly the applicable entries with the bindings of their own patterns. -/
theorem Rep.get {n : PathNode T} {items : List (PathData T)} (h : Rep n items) (uv : Bool)
    (q : PathBuf) :
    ∃ l, PathNode.get uv n q = .ok l ∧
      l.Perm ((items.filter fun d => patMatchB uv d.origPath q).map fun d =>
        ⟨if uv then bindings d.origPath q else [], d.data⟩) := by
  obtain ⟨l, h1, h2⟩ := h.lookup uv q
  have hmem : ∀ d ∈ l, d ∈ items ∧ patMatchB uv d.origPath q = true := by
    intro d hd
    simpa using h2.mem_iff.1 hd
  refine ⟨_, by
    unfold PathNode.get
    rw [h1, Res.bind_ok', attachVars_eq uv q l (fun d hd => h.nonempty d (hmem d hd).1)
      (fun d hd => (hmem d hd).2)], ?_⟩
  exact h2.map _

end PathNode

/-- Registering accepted patterns one after the other into an empty table
(`PathNode::insert` repeatedly). -/
def buildTable {T : Type u} (regs : List (PathBuf × T)) : Res (PathNode T) :=
  PathNode.extend PathNode.new (regs.map fun e => ⟨e.1, e.2⟩)

theorem buildTable_rep {T : Type u} (regs : List (PathBuf × T))
    (hp : ∀ e ∈ regs, ∃ s, Path.parse s = some e.1) :
    ∃ n, buildTable regs = .ok n ∧ PathNode.Rep n (regs.map fun e => ⟨e.1, e.2⟩) := by
  obtain ⟨n, h1, h2⟩ := PathNode.Rep.new.extend (regs.map fun e => (⟨e.1, e.2⟩ : PathData T)) (by
    intro d hd c hc
    obtain ⟨e, he, rfl⟩ := List.mem_map.1 hd
    obtain ⟨s, hs⟩ := hp e he
    exact (Path.parse_normal hs c hc).1)
  exact ⟨n, h1, by simpa using h2⟩

end Octane
