import Verif.Model.Size
import Verif.Spec.Size
import Verif.Proof.CostRoute
/-
Lemmas about the size of the tables of a router and about the cost of setting them up.
-/
namespace Octane
open Spec
namespace PathNode
variable {T : Type u}

/-! ### the positions of a tree -/

mutual
/-- the keys under which the nodes of a tree are found -/
def nodeKeys : PathNode T → List (List (Option Str))
  | .node m => [] :: nodeKeysL m
  | .leaf _ => []
def nodeKeysL : List (PathChunk × PathNode T) → List (List (Option Str))
  | [] => []
  | (k, n) :: m =>
    (match k with
      | .fin => []
      | .catchAll => (nodeKeys n).map (none :: ·)
      | .chunk s => (nodeKeys n).map (some s :: ·)) ++ nodeKeysL m
end

mutual
/-- the keys under which the lists of a tree are found -/
def leafKeys : PathNode T → List (List (Option Str))
  | .node m => leafKeysL m
  | .leaf _ => []
def leafKeysL : List (PathChunk × PathNode T) → List (List (Option Str))
  | [] => []
  | (k, n) :: m =>
    (match k with
      | .fin => [[]]
      | .catchAll => (leafKeys n).map (none :: ·)
      | .chunk s => (leafKeys n).map (some s :: ·)) ++ leafKeysL m
end

theorem keyOf_inj {a b : Option Str} (h : keyOf a = keyOf b) : a = b := by
  cases a <;> cases b <;> simp_all [keyOf]

theorem keyOf_ne_fin (a : Option Str) : keyOf a ≠ .fin := by cases a <;> simp [keyOf]

theorem ne_fin_keyOf {k : PathChunk} (h : k ≠ .fin) : ∃ a, k = keyOf a := by
  cases k with
  | fin => exact absurd rfl h
  | catchAll => exact ⟨none, rfl⟩
  | chunk s => exact ⟨some s, rfl⟩

theorem nodeKeysL_cons_key (a : Option Str) (n : PathNode T) (m : List (PathChunk × PathNode T)) :
    nodeKeysL ((keyOf a, n) :: m) = (nodeKeys n).map (a :: ·) ++ nodeKeysL m := by
  cases a <;> simp [nodeKeysL, keyOf]

theorem leafKeysL_cons_key (a : Option Str) (n : PathNode T) (m : List (PathChunk × PathNode T)) :
    leafKeysL ((keyOf a, n) :: m) = (leafKeys n).map (a :: ·) ++ leafKeysL m := by
  cases a <;> simp [leafKeysL, keyOf]

theorem nil_not_mem_nodeKeysL (m : List (PathChunk × PathNode T)) : [] ∉ nodeKeysL m := by
  induction m with
  | nil => simp [nodeKeysL]
  | cons e m ih =>
    obtain ⟨k, n⟩ := e
    cases k <;> simp [nodeKeysL, ih]

/-- a shape, as an inductive principle over the list of children -/
theorem Shape.rec_list {P : PathNode T → Prop} {Q : List (PathChunk × PathNode T) → Prop}
    (hn : ∀ m, HMap.Uniq m → Q m → P (.node m)) (h0 : Q [])
    (hf : ∀ l m, Q m → Q ((.fin, .leaf l) :: m))
    (hk : ∀ a n m, Shape n → P n → Q m → HMap.Uniq ((keyOf a, n) :: m) → Q ((keyOf a, n) :: m))
    {n : PathNode T} (h : Shape n) : P n := by
  induction h with
  | node h1 h2 h3 ih =>
    rename_i m
    refine hn m h1 ?_
    clear hn
    induction m with
    | nil => exact h0
    | cons e m ihm =>
      obtain ⟨k, v⟩ := e
      have hu : HMap.Uniq m := by
        simp only [HMap.Uniq, List.map_cons, List.nodup_cons] at h1; exact h1.2
      have hq := ihm hu (fun v hv => h2 v (List.mem_cons_of_mem _ hv))
        (fun k v hv hk => h3 k v (List.mem_cons_of_mem _ hv) hk)
        (fun k v hv hk => ih k v (List.mem_cons_of_mem _ hv) hk)
      by_cases hkf : k = .fin
      · subst hkf
        obtain ⟨l, rfl⟩ := h2 v (by simp)
        exact hf l m hq
      · obtain ⟨a, rfl⟩ := ne_fin_keyOf hkf
        exact hk a v m (h3 _ v (by simp) hkf) (ih _ v (by simp) hkf) hq h1

theorem nodeKeys_length {n : PathNode T} (h : Shape n) : (nodeKeys n).length = nodes n := by
  refine h.rec_list (P := fun n => (nodeKeys n).length = nodes n) (Q := fun m => (nodeKeysL m).length = nodesL m) ?_ ?_ ?_ ?_
  · intro m _ h; simp [nodeKeys, nodes, h]; omega
  · rfl
  · intro l m h; simp [nodeKeysL, nodesL, nodes, h]
  · intro a n m _ h1 h2 _; simp [nodeKeysL_cons_key, nodesL, h1, h2]

theorem leafKeys_length {n : PathNode T} (h : Shape n) : (leafKeys n).length = lists n := by
  refine h.rec_list (P := fun n => (leafKeys n).length = lists n) (Q := fun m => (leafKeysL m).length = listsL m) ?_ ?_ ?_ ?_
  · intro m _ h; simp [leafKeys, lists, h]
  · rfl
  · intro l m h; simp [leafKeysL, listsL, lists, h, Nat.add_comm]
  · intro a n m _ h1 h2 _; simp [leafKeysL_cons_key, listsL, h1, h2]

/-- membership in the keys of a list of children -/
theorem mem_nodeKeysL {m : List (PathChunk × PathNode T)} (a : Option Str) (ks : List (Option Str)) :
    a :: ks ∈ nodeKeysL m ↔ ∃ v, (keyOf a, v) ∈ m ∧ ks ∈ nodeKeys v := by
  induction m with
  | nil => simp [nodeKeysL]
  | cons e m ih =>
    obtain ⟨k, n⟩ := e
    by_cases hkf : k = .fin
    · subst hkf
      simp [nodeKeysL, ih, keyOf_ne_fin]
    · obtain ⟨b, rfl⟩ := ne_fin_keyOf hkf
      rw [nodeKeysL_cons_key, List.mem_append, ih]
      constructor
      · rintro (h | ⟨v, h1, h2⟩)
        · obtain ⟨x, hx, he⟩ := List.mem_map.1 h
          obtain ⟨rfl, rfl⟩ := List.cons.inj he
          exact ⟨n, by simp, hx⟩
        · exact ⟨v, List.mem_cons_of_mem _ h1, h2⟩
      · rintro ⟨v, h1, h2⟩
        rcases List.mem_cons.1 h1 with h1 | h1
        · obtain ⟨e1, rfl⟩ := Prod.mk.inj h1
          rw [keyOf_inj e1]
          exact .inl (List.mem_map.2 ⟨ks, h2, rfl⟩)
        · exact .inr ⟨v, h1, h2⟩

theorem mem_leafKeysL {m : List (PathChunk × PathNode T)} (a : Option Str) (ks : List (Option Str)) :
    a :: ks ∈ leafKeysL m ↔ ∃ v, (keyOf a, v) ∈ m ∧ ks ∈ leafKeys v := by
  induction m with
  | nil => simp [leafKeysL]
  | cons e m ih =>
    obtain ⟨k, n⟩ := e
    by_cases hkf : k = .fin
    · subst hkf
      simp [leafKeysL, ih, keyOf_ne_fin]
    · obtain ⟨b, rfl⟩ := ne_fin_keyOf hkf
      rw [leafKeysL_cons_key, List.mem_append, ih]
      constructor
      · rintro (h | ⟨v, h1, h2⟩)
        · obtain ⟨x, hx, he⟩ := List.mem_map.1 h
          obtain ⟨rfl, rfl⟩ := List.cons.inj he
          exact ⟨n, by simp, hx⟩
        · exact ⟨v, List.mem_cons_of_mem _ h1, h2⟩
      · rintro ⟨v, h1, h2⟩
        rcases List.mem_cons.1 h1 with h1 | h1
        · obtain ⟨e1, rfl⟩ := Prod.mk.inj h1
          rw [keyOf_inj e1]
          exact .inl (List.mem_map.2 ⟨ks, h2, rfl⟩)
        · exact .inr ⟨v, h1, h2⟩

theorem nil_mem_leafKeysL (m : List (PathChunk × PathNode T)) :
    [] ∈ leafKeysL m ↔ ∃ v, (PathChunk.fin, v) ∈ m := by
  induction m with
  | nil => simp [leafKeysL]
  | cons e m ih =>
    obtain ⟨k, n⟩ := e
    cases k <;> simp [leafKeysL, ih]

theorem Shape.uniq {m : List (PathChunk × PathNode T)} (h : Shape (.node m)) : HMap.Uniq m := h.inv.1

theorem mem_nodeKeys {n : PathNode T} (h : Shape n) (ks : List (Option Str)) :
    ks ∈ nodeKeys n ↔ HasNode n ks := by
  induction ks generalizing n with
  | nil => obtain ⟨m, rfl⟩ := h.node_of; simp [nodeKeys, HasNode]
  | cons a ks ih =>
    obtain ⟨m, rfl⟩ := h.node_of
    obtain ⟨h1, h2, h3⟩ := h.inv
    simp only [nodeKeys, HasNode, List.mem_cons, reduceCtorEq, false_or, mem_nodeKeysL]
    constructor
    · rintro ⟨v, hv, hk⟩
      have hg := HMap.get_of_mem h1 hv
      exact ⟨v, hg, (ih (h3 _ v (keyOf_ne_fin a) hg)).1 hk⟩
    · rintro ⟨v, hg, hk⟩
      exact ⟨v, HMap.mem_of_get hg, (ih (h3 _ v (keyOf_ne_fin a) hg)).2 hk⟩

theorem mem_leafKeys {n : PathNode T} (h : Shape n) (ks : List (Option Str)) :
    ks ∈ leafKeys n ↔ HasLeaf n ks := by
  induction ks generalizing n with
  | nil =>
    obtain ⟨m, rfl⟩ := h.node_of
    simp only [leafKeys, HasLeaf, nil_mem_leafKeysL, Option.isSome_iff_exists]
    exact ⟨fun ⟨v, hv⟩ => ⟨v, HMap.get_of_mem h.uniq hv⟩, fun ⟨v, hv⟩ => ⟨v, HMap.mem_of_get hv⟩⟩
  | cons a ks ih =>
    obtain ⟨m, rfl⟩ := h.node_of
    obtain ⟨h1, h2, h3⟩ := h.inv
    simp only [leafKeys, HasLeaf, mem_leafKeysL]
    constructor
    · rintro ⟨v, hv, hk⟩
      have hg := HMap.get_of_mem h1 hv
      exact ⟨v, hg, (ih (h3 _ v (keyOf_ne_fin a) hg)).1 hk⟩
    · rintro ⟨v, hg, hk⟩
      exact ⟨v, HMap.mem_of_get hg, (ih (h3 _ v (keyOf_ne_fin a) hg)).2 hk⟩

theorem nodup_map_cons (a : Option Str) {l : List (List (Option Str))} (h : l.Nodup) : (l.map (a :: ·)).Nodup := by
  simp only [List.Nodup, List.pairwise_map]
  exact List.Pairwise.imp (by simp) h

theorem not_mem_of_uniq {k : PathChunk} {n v : PathNode T} {m : List (PathChunk × PathNode T)}
    (h : HMap.Uniq ((k, n) :: m)) : (k, v) ∉ m := by
  simp only [HMap.Uniq, List.map_cons, List.nodup_cons] at h
  exact fun hv => h.1 (List.mem_map.2 ⟨_, hv, rfl⟩)

theorem nodeKeys_nodup {n : PathNode T} (h : Shape n) : (nodeKeys n).Nodup := by
  refine h.rec_list (P := fun n => (nodeKeys n).Nodup) (Q := fun m => (nodeKeysL m).Nodup) ?_ ?_ ?_ ?_
  · intro m _ h; exact List.nodup_cons.2 ⟨nil_not_mem_nodeKeysL m, h⟩
  · simp [nodeKeysL]
  · intro l m h; simpa [nodeKeysL] using h
  · intro a n m _ h1 h2 hu
    rw [nodeKeysL_cons_key, List.nodup_append]
    refine ⟨nodup_map_cons a h1, h2, ?_⟩
    rintro x hx y hy rfl
    obtain ⟨z, -, rfl⟩ := List.mem_map.1 hx
    obtain ⟨v, hv, -⟩ := (mem_nodeKeysL a z).1 hy
    exact not_mem_of_uniq hu hv

theorem leafKeys_nodup {n : PathNode T} (h : Shape n) : (leafKeys n).Nodup := by
  have key : ∀ m : List (PathChunk × PathNode T), Shape (.node m) → (leafKeysL m).Nodup := by
    intro m hm
    exact hm.rec_list (P := fun n => (leafKeys n).Nodup) (Q := fun m => HMap.Uniq m → (leafKeysL m).Nodup)
      (fun m hu h => h hu) (fun _ => by simp [leafKeysL])
      (fun l m h hu => by
        have hu' : HMap.Uniq m := by
          simp only [HMap.Uniq, List.map_cons, List.nodup_cons] at hu; exact hu.2
        simp only [leafKeysL, List.singleton_append]
        refine List.nodup_cons.2 ⟨?_, h hu'⟩
        rw [nil_mem_leafKeysL]
        rintro ⟨v, hv⟩
        exact not_mem_of_uniq hu hv)
      (fun a n m _ h1 h2 hu _ => by
        have hu' : HMap.Uniq m := by
          simp only [HMap.Uniq, List.map_cons, List.nodup_cons] at hu; exact hu.2
        rw [leafKeysL_cons_key, List.nodup_append]
        refine ⟨nodup_map_cons a h1, h2 hu', ?_⟩
        rintro x hx y hy rfl
        obtain ⟨z, -, rfl⟩ := List.mem_map.1 hx
        obtain ⟨v, hv, -⟩ := (mem_leafKeysL a z).1 hy
        exact not_mem_of_uniq hu hv)
  obtain ⟨m, rfl⟩ := h.node_of
  exact key m h

/-! ### the size of a tree -/

theorem Rep.nodes_count {n : PathNode T} {items : List (PathData T)} (h : Rep n items) :
    Count (Beginning (items.map (·.origPath))) n.nodes := by
  refine ⟨nodeKeys n, nodeKeys_nodup h.shape, fun ks => ?_, nodeKeys_length h.shape⟩
  rw [mem_nodeKeys h.shape, h.nodes]
  unfold Beginning generic
  simp only [List.mem_map]
  constructor
  · rintro (h | ⟨d, hd, h⟩)
    · exact .inl h
    · exact .inr ⟨_, ⟨d, hd, rfl⟩, h⟩
  · rintro (h | ⟨_, ⟨d, hd, rfl⟩, h⟩)
    · exact .inl h
    · exact .inr ⟨d, hd, h⟩

theorem Rep.lists_count {n : PathNode T} {items : List (PathData T)} (h : Rep n items) :
    Count (Whole (items.map (·.origPath))) n.lists := by
  refine ⟨leafKeys n, leafKeys_nodup h.shape, fun ks => ?_, leafKeys_length h.shape⟩
  rw [mem_leafKeys h.shape, h.leaves]
  unfold Whole generic
  simp only [List.mem_map]
  constructor
  · rintro ⟨d, hd, h⟩
    exact ⟨_, ⟨d, hd, rfl⟩, h⟩
  · rintro ⟨_, ⟨d, hd, rfl⟩, h⟩
    exact ⟨d, hd, h⟩

mutual
theorem entries_eq (n : PathNode T) : entries n = (all n).length := by
  cases n with
  | node m => simp [entries, all, entriesL_eq m]
  | leaf l => rfl
theorem entriesL_eq (m : List (PathChunk × PathNode T)) : entriesL m = (allL m).length := by
  cases m with
  | nil => rfl
  | cons e m =>
    obtain ⟨k, n⟩ := e
    simp [entriesL, allL, entries_eq n, entriesL_eq m]
end

theorem Rep.entries_count {n : PathNode T} {items : List (PathData T)} (h : Rep n items) :
    n.entries = items.length := by
  rw [entries_eq, h.contents.length_eq]

end PathNode

/-! ### bounds -/

theorem Spec.Count.unique {P : List (Option Str) → Prop} {a b : Nat} (h1 : Count P a) (h2 : Count P b) : a = b := by
  obtain ⟨l, hl, hl', rfl⟩ := h1
  obtain ⟨m, hm, hm', rfl⟩ := h2
  have e1 := Nodup.length_le_of_subset hl fun x hx => (hm' x).2 ((hl' x).1 hx)
  have e2 := Nodup.length_le_of_subset hm fun x hx => (hl' x).2 ((hm' x).1 hx)
  omega

theorem beginnings_le {ps : List PathBuf} {n : Nat} (h : Count (Beginning ps) n) :
    n ≤ 1 + (ps.map List.length).sum := by
  obtain ⟨l, h1, h2, rfl⟩ := h
  let M : List (List (Option Str)) :=
    [] :: ps.flatMap fun p => (List.range p.length).map fun i => (generic p).take (i + 1)
  have hM : M.length = 1 + (ps.map List.length).sum := by
    have : ∀ ps : List PathBuf, (ps.flatMap fun p => (List.range p.length).map fun i =>
        (generic p).take (i + 1)).length = (ps.map List.length).sum := by
      intro ps
      induction ps with
      | nil => simp
      | cons p ps ih => simp only [List.flatMap_cons, List.length_append, ih, List.length_map, List.length_range,
          List.map_cons, List.sum_cons]
    simp only [M, List.length_cons, this]
    omega
  rw [← hM]
  refine Nodup.length_le_of_subset h1 fun ks hks => ?_
  rcases (h2 ks).1 hks with rfl | ⟨p, hp, hpre⟩
  · simp [M]
  · cases ks with
    | nil => simp [M]
    | cons k ks =>
      have hlen := hpre.length_le
      simp only [generic, List.length_map, List.length_cons] at hlen
      refine List.mem_cons_of_mem _ (List.mem_flatMap.2 ⟨p, hp, List.mem_map.2 ⟨ks.length, ?_, ?_⟩⟩)
      · simp; omega
      · simpa using (List.prefix_iff_eq_take.1 hpre).symm

theorem whole_le {ps : List PathBuf} {n : Nat} (h : Count (Whole ps) n) : n ≤ ps.length := by
  obtain ⟨l, h1, h2, rfl⟩ := h
  have := Nodup.length_le_of_subset (m := ps.map generic) h1 fun ks hks => by
    obtain ⟨p, hp, rfl⟩ := (h2 ks).1 hks
    exact List.mem_map.2 ⟨p, hp, rfl⟩
  simpa using this

namespace Router
variable {S : Type u}

theorem itemsFrom_under (m : RequestMethod) (L : List (Reg S)) (ht : ∀ e ∈ L, ∀ p, e.target ≠ .on .all p) :
    (itemsFrom m 0 L).map (·.origPath) = patternsUnder m L := by
  unfold patternsUnder
  by_cases hm : m = .all
  · rw [if_pos hm, hm, itemsFrom_any 0 L ht]
  · rw [if_neg hm, itemsFrom_patterns m hm 0]

/-- the method under which a registration is kept -/
def regKey (e : Reg S) : Option RequestMethod :=
  match e.target with
  | .on m _ => some m
  | .anyMethod _ => some .all
  | .everywhere => none

theorem sum_if_eq (ks : List RequestMethod) (hn : ks.Nodup) (k : RequestMethod) (hk : k ∈ ks) (w : Nat) :
    (ks.map fun k' => if some k = some k' then w else 0).sum = w := by
  induction ks with
  | nil => simp at hk
  | cons a ks ih =>
    obtain ⟨h1, h2⟩ := List.nodup_cons.1 hn
    by_cases hka : k = a
    · subst hka
      have : (ks.map fun k' => if some k = some k' then w else 0) = ks.map fun _ => 0 := by
        refine List.map_congr_left fun x hx => if_neg fun e => h1 ?_
        rw [Option.some.inj e]; exact hx
      rw [List.map_cons, List.sum_cons, if_pos rfl, this, List.map_const', List.sum_replicate_nat]
      omega
    · rcases List.mem_cons.1 hk with rfl | hk
      · exact absurd rfl hka
      · have := ih h2 hk
        simp [hka] at this ⊢
        exact this

theorem sum_add (ks : List RequestMethod) (f g : RequestMethod → Nat) :
    (ks.map fun k => f k + g k).sum = (ks.map f).sum + (ks.map g).sum := by
  induction ks with
  | nil => rfl
  | cons a ks ih => simp only [List.map_cons, List.sum_cons, ih]; omega

/-- summing over the methods is summing over the registrations with a pattern -/
theorem sum_keys (ks : List RequestMethod) (hn : ks.Nodup) (w : Reg S → Nat) (L : List (Reg S))
    (hk : ∀ e ∈ L, ∀ k, regKey e = some k → k ∈ ks) :
    (ks.map fun k => (L.map fun e => if regKey e = some k then w e else 0).sum).sum =
      (L.map fun e => if e.routed then w e else 0).sum := by
  induction L with
  | nil =>
    simp
    induction ks with
    | nil => rfl
    | cons a ks ih => simpa using ih (List.nodup_cons.1 hn).2
  | cons e L ih =>
    simp only [List.map_cons, List.sum_cons]
    rw [sum_add, ih fun x hx => hk x (List.mem_cons_of_mem _ hx)]
    congr 1
    cases hr : regKey e with
    | none =>
      have : e.routed = false := by
        revert hr; unfold regKey Reg.routed; cases e.target <;> simp
      simp [this]
      clear hk ih hn
      induction ks with
      | nil => rfl
      | cons a ks ih => simpa using ih
    | some k =>
      have : e.routed = true := by
        revert hr; unfold regKey Reg.routed; cases e.target <;> simp
      rw [this, if_pos rfl]
      exact sum_if_eq ks hn k (hk e (by simp) k hr) (w e)

theorem itemsFrom_sum (m : RequestMethod) (i : Nat) (L : List (Reg S))
    (ht : ∀ e ∈ L, ∀ p, e.target ≠ .on .all p) (f : Nat → Nat) :
    ((itemsFrom m i L).map fun d => f d.origPath.length).sum =
      (L.map fun e => if regKey e = some m then f e.segments else 0).sum := by
  induction L generalizing i with
  | nil => rfl
  | cons e L ih =>
    unfold itemsFrom
    rw [List.map_append, List.sum_append, ih _ fun x hx => ht x (List.mem_cons_of_mem _ hx), List.map_cons,
      List.sum_cons]
    congr 1
    unfold itemOf regKey Reg.segments
    cases he : e.target with
    | on m' p => by_cases hm : m' = m <;> simp [hm]
    | anyMethod p => by_cases hm : m = .all <;> simp [hm, eq_comm]
    | everywhere => simp

theorem Inv.keys {r : Router S} {L : List (Reg S)} (h : Inv r L) {e : Reg S} (he : e ∈ L) {k : RequestMethod}
    (hk : regKey e = some k) : k ∈ r.paths.map Prod.fst := by
  have hrep := h.trees k
  cases hg : r.paths.get k with
  | some t => exact List.mem_map.2 ⟨_, HMap.mem_of_get hg, rfl⟩
  | none =>
    rw [hg] at hrep
    have hnil : itemsFrom k 0 L = [] := by
      have := hrep.contents
      simp only [Option.getD_none, PathNode.new, PathNode.all, PathNode.allL] at this
      exact List.perm_nil.1 this.symm
    have h0 := itemsFrom_sum k 0 L h.targets fun _ => 1
    rw [hnil] at h0
    simp only [List.map_nil, List.sum_nil] at h0
    exfalso
    clear hrep hg hnil
    have : ∀ L : List (Reg S), e ∈ L → 0 < (L.map fun e => if regKey e = some k then 1 else 0).sum := by
      intro L he
      induction L with
      | nil => simp at he
      | cons a L ih =>
        simp only [List.map_cons, List.sum_cons]
        rcases List.mem_cons.1 he with rfl | he
        · rw [if_pos hk]; omega
        · have := ih he; omega
    have := this L he
    omega

theorem sum_congr_mem {α : Type u} (l : List α) (f g : α → Nat) (h : ∀ x ∈ l, f x = g x) :
    (l.map f).sum = (l.map g).sum := by
  rw [List.map_congr_left h]

theorem sum_le_mem {α : Type u} (l : List α) (f g : α → Nat) (h : ∀ x ∈ l, f x ≤ g x) :
    (l.map f).sum ≤ (l.map g).sum := by
  induction l with
  | nil => simp
  | cons a l ih =>
    have h1 := h a (by simp)
    have h2 := ih fun x hx => h x (List.mem_cons_of_mem _ hx)
    simp only [List.map_cons, List.sum_cons]
    omega

theorem sum_routed (L : List (Reg S)) :
    (L.map fun e => if e.routed then 1 else 0).sum = (L.filter (·.routed)).length := by
  induction L with
  | nil => rfl
  | cons e L ih =>
    rw [List.map_cons, List.sum_cons, ih, List.filter_cons]
    cases e.routed <;> simp [Nat.add_comm]

/-- all the entries of all the trees: one for every registration with a pattern -/
theorem Inv.entries {r : Router S} {L : List (Reg S)} (h : Inv r L) :
    (r.paths.map fun e => e.2.entries).sum = (L.filter (·.routed)).length := by
  have h1 : (r.paths.map fun e => e.2.entries).sum =
      (r.paths.map fun e => (L.map fun x => if regKey x = some e.1 then 1 else 0).sum).sum := by
    refine sum_congr_mem _ _ _ fun e he => ?_
    have hrep := h.trees e.1
    rw [HMap.get_of_mem h.uniq (show (e.1, e.2) ∈ r.paths from he)] at hrep
    rw [show e.2.entries = _ from hrep.entries_count]
    rw [← itemsFrom_sum e.1 0 L h.targets fun _ => 1]
    simp [List.map_const']
  have h2 := sum_keys (r.paths.map Prod.fst) h.uniq (fun _ => 1) L fun e he k hk => h.keys he hk
  rw [List.map_map] at h2
  rw [h1, ← sum_routed, ← h2]
  rfl

/-- all the nodes of all the trees -/
theorem Inv.nodes_le {r : Router S} {L : List (Reg S)} (h : Inv r L) :
    (r.paths.map fun e => e.2.nodes).sum ≤ r.paths.length + (L.map (·.segments)).sum := by
  have h1 : (r.paths.map fun e => e.2.nodes).sum ≤
      (r.paths.map fun e => 1 + (L.map fun x => if regKey x = some e.1 then x.segments else 0).sum).sum := by
    refine sum_le_mem _ _ _ fun e he => ?_
    have hrep := h.trees e.1
    rw [HMap.get_of_mem h.uniq (show (e.1, e.2) ∈ r.paths from he)] at hrep
    have := beginnings_le (hrep.nodes_count)
    rw [← itemsFrom_sum e.1 0 L h.targets fun n => n]
    rw [List.map_map] at this
    exact this
  have h2 := sum_keys (r.paths.map Prod.fst) h.uniq (·.segments) L fun e he k hk => h.keys he hk
  rw [List.map_map] at h2
  have h3 : ∀ (l : HMap RequestMethod (PathNode (Closures S))) (g : RequestMethod → Nat),
      (l.map fun e => 1 + g e.1).sum = l.length + (l.map fun e => g e.1).sum := by
    intro l g
    induction l with
    | nil => rfl
    | cons a l ih => simp only [List.map_cons, List.sum_cons, List.length_cons, ih]; omega
  rw [h3 r.paths fun k => (L.map fun x => if regKey x = some k then x.segments else 0).sum] at h1
  have h4 : (L.map fun e => if e.routed then e.segments else 0).sum = (L.map (·.segments)).sum := by
    refine sum_congr_mem _ _ _ fun e _ => ?_
    unfold Reg.routed Reg.segments
    cases e.target <;> simp
  rw [h4] at h2
  have h5 : (r.paths.map fun e => (L.map fun x => if regKey x = some e.1 then x.segments else 0).sum).sum =
      (L.map (·.segments)).sum := h2
  omega

theorem midsFrom_length (i : Nat) (L : List (Reg S)) :
    (midsFrom i L).length + (L.filter (·.routed)).length = L.length := by
  induction L generalizing i with
  | nil => rfl
  | cons e L ih =>
    have := ih (i + 1)
    unfold midsFrom midOf
    rw [List.filter_cons]
    unfold Reg.routed at this ⊢
    cases e.target <;> simp <;> omega

/-! ### which trees there are -/

theorem appendPaths_isSome (inner : RequestMethod → PathNode.Order (Closures S)) (k : Nat)
    (l paths paths' : HMap RequestMethod (PathNode (Closures S)))
    (h : appendPaths inner k l paths = .ok paths') (m : RequestMethod) :
    (paths'.get m).isSome = true ↔ (paths.get m).isSome = true ∨ (l.get m).isSome = true := by
  induction l generalizing paths with
  | nil =>
    simp only [appendPaths, Res.ok.injEq] at h
    subst h
    simp
  | cons e l ih =>
    obtain ⟨meth, tree⟩ := e
    unfold appendPaths at h
    cases hi : PathNode.ownedItems (inner meth) tree with
    | none => simp [hi] at h
    | some items =>
      simp only [hi] at h
      have key : ∃ x', appendPaths inner k l (paths.insert meth x') = .ok paths' := by
        revert h
        cases hg : paths.get meth with
        | none =>
          simp only
          cases PathNode.fromIter _ with
          | panic => simp
          | ok x' => exact fun h => ⟨x', h⟩
        | some x =>
          simp only
          cases PathNode.extend x _ with
          | panic => simp
          | ok x' => exact fun h => ⟨x', h⟩
      obtain ⟨x', hx⟩ := key
      rw [ih _ hx, HMap.get_insert]
      by_cases hm : meth = m
      · simp [hm, HMap.get]
      · simp [hm, HMap.get]

mutual
theorem exec_isSome (c : Call S) (hf : Fair c) (r r' : Router S) (h : exec r c = .ok r') (m : RequestMethod) :
    (r'.paths.get m).isSome = true ↔ (r.paths.get m).isSome = true ∨ Names m c := by
  cases c with
  | route v path hd =>
    have key : ∃ t, (r'.paths.get m).isSome = ((HMap.insert r.paths v.method t).get m).isSome := by
      unfold exec injectMethod at h
      simp only at h
      revert h
      cases Path.parse path with
      | none =>
        simp only [Res.bind_ok', Res.ok.injEq]
        rintro rfl
        exact ⟨_, rfl⟩
      | some p =>
        simp only
        cases PathNode.insert _ p _ with
        | panic => simp
        | ok n =>
          simp only [Res.bind_ok', Res.ok.injEq]
          rintro rfl
          refine ⟨n, ?_⟩
          simp only [HMap.get_insert]
          split <;> rfl
    obtain ⟨t, ht⟩ := key
    rw [ht, HMap.get_insert]
    unfold Names
    by_cases hm : v.method = m <;> simp [hm]
  | add hd =>
    simp only [exec, Res.ok.injEq] at h
    subst h
    simp [Router.add, Names]
  | mount calls ord =>
    obtain ⟨f1, f2, f3⟩ : FairL calls ∧ _ ∧ _ := by simpa [Fair] using hf
    obtain ⟨sub, h1, h2⟩ := execL_inv calls f1 Router.new [] Inv.new
    have ih := execL_isSome calls f1 Router.new sub h1 m
    simp only [exec, h1, Res.bind_ok', Router.append] at h
    revert h
    cases ha : appendPaths ord.inner r.routeCounter (ord.outer sub.paths) r.paths with
    | panic => simp
    | ok paths =>
      simp only [Res.bind_ok', Res.ok.injEq]
      rintro rfl
      simp only
      rw [appendPaths_isSome _ _ _ _ _ ha m, HMap.get_perm h2.uniq (f2 sub.paths), ih]
      simp [Router.new, Names]
theorem execL_isSome (cs : List (Call S)) (hf : FairL cs) (r r' : Router S) (h : execL r cs = .ok r')
    (m : RequestMethod) :
    (r'.paths.get m).isSome = true ↔ (r.paths.get m).isSome = true ∨ NamesL m cs := by
  cases cs with
  | nil =>
    simp only [execL, Res.ok.injEq] at h
    subst h
    simp [NamesL]
  | cons c cs =>
    obtain ⟨f1, f2⟩ : Fair c ∧ FairL cs := by simpa [FairL] using hf
    simp only [execL] at h
    revert h
    cases hc : exec r c with
    | panic => simp
    | ok r1 =>
      simp only [Res.bind_ok']
      intro h
      rw [execL_isSome cs f2 r1 r' h m, exec_isSome c f1 r r1 hc m]
      simp only [NamesL, or_assoc]
end

end Router

/-! ### setting up -/

namespace PathNode
variable {T : Type u}

theorem extendC_fst (n : PathNode T) (ds : List (PathData T)) : (extendC n ds).1 = extend n ds := by
  induction ds generalizing n with
  | nil => rfl
  | cons d ds ih =>
    unfold extendC extend
    cases insert n d.origPath d.data with
    | panic => rfl
    | ok n' => simp [ih]

theorem extendC_snd {n n' : PathNode T} {ds : List (PathData T)} (h : extend n ds = .ok n') :
    (extendC n ds).2 = ds.length := by
  induction ds generalizing n with
  | nil => rfl
  | cons d ds ih =>
    unfold extend at h
    unfold extendC
    revert h
    cases insert n d.origPath d.data with
    | panic => simp
    | ok n1 =>
      simp only [Res.bind_ok']
      intro h
      simp [ih h, Nat.add_comm]

end PathNode

namespace Router
variable {S : Type u}

theorem appendPathsC_fst (inner : RequestMethod → PathNode.Order (Closures S)) (k : Nat)
    (l paths : HMap RequestMethod (PathNode (Closures S))) :
    (appendPathsC inner k l paths).1 = appendPaths inner k l paths := by
  induction l generalizing paths with
  | nil => rfl
  | cons e l ih =>
    obtain ⟨meth, tree⟩ := e
    unfold appendPathsC appendPaths
    cases PathNode.ownedItems (inner meth) tree with
    | none => rfl
    | some items =>
      simp only
      cases paths.get meth with
      | none =>
        simp only [PathNode.extendC_fst, PathNode.fromIter]
        cases PathNode.extend PathNode.new _ with
        | panic => rfl
        | ok x => simp [ih]
      | some x =>
        simp only [PathNode.extendC_fst]
        cases PathNode.extend x _ with
        | panic => rfl
        | ok x => simp [ih]

theorem appendPathsC_snd (inner : RequestMethod → PathNode.Order (Closures S))
    (hin : ∀ meth t m, (inner meth t m).Perm m) (k : Nat)
    (l paths paths' : HMap RequestMethod (PathNode (Closures S))) (h : appendPaths inner k l paths = .ok paths') :
    (appendPathsC inner k l paths).2 = (l.map fun e => e.2.entries).sum := by
  induction l generalizing paths with
  | nil => rfl
  | cons e l ih =>
    obtain ⟨meth, tree⟩ := e
    obtain ⟨items, hi, hperm⟩ := PathNode.ownedItems_perm (inner meth) (hin meth) tree
    unfold appendPathsC
    unfold appendPaths at h
    simp only [hi] at h ⊢
    have hlen : tree.entries = items.length := by rw [PathNode.entries_eq, hperm.length_eq]
    revert h
    cases paths.get meth with
    | none =>
      simp only [PathNode.extendC_fst, PathNode.fromIter]
      cases hx : PathNode.extend PathNode.new _ with
      | panic => simp
      | ok x' =>
        simp only [Res.bind_ok']
        intro h
        simp [PathNode.extendC_snd hx, ih _ h, hlen]
    | some x =>
      simp only [PathNode.extendC_fst]
      cases hx : PathNode.extend x _ with
      | panic => simp
      | ok x' =>
        simp only [Res.bind_ok']
        intro h
        simp [PathNode.extendC_snd hx, ih _ h, hlen]

theorem appendC_fst (ord : AppendOrder S) (r r2 : Router S) : (appendC ord r r2).1 = append ord r r2 := by
  unfold appendC append
  simp only [appendPathsC_fst]

mutual
theorem execC_fst (r : Router S) (c : Call S) : (execC r c).1 = exec r c := by
  cases c with
  | route v path h => rfl
  | add h => rfl
  | mount calls ord =>
    unfold execC exec
    simp only [execLC_fst]
    cases execL Router.new calls with
    | panic => rfl
    | ok sub => simp [appendC_fst]
theorem execLC_fst (r : Router S) (cs : List (Call S)) : (execLC r cs).1 = execL r cs := by
  cases cs with
  | nil => rfl
  | cons c cs =>
    unfold execLC execL
    simp only [execC_fst]
    cases exec r c with
    | panic => rfl
    | ok r' => simp [execLC_fst r' cs]
end

theorem sum_perm {a b : List Nat} (h : a.Perm b) : a.sum = b.sum := by
  induction h with
  | nil => rfl
  | cons x _ ih => simp [ih]
  | swap x y l => simp; omega
  | trans _ _ h1 h2 => exact h1.trans h2

mutual
/-- one more router around a program: every route is put into one more table -/
theorem placed_succ (d : Nat) (c : Call S) :
    placed (d + 1) c = placed d c + ((logOf c).filter (·.routed)).length := by
  cases c with
  | route v path h =>
    unfold placed logOf
    cases Path.parse path with
    | none => rfl
    | some p => cases v <;> simp [Verb.target, Reg.routed]
  | add h => simp [placed, logOf, Reg.routed]
  | mount calls ord => simpa [placed, logOf] using placedL_succ (d + 1) calls
theorem placedL_succ (d : Nat) (cs : List (Call S)) :
    placedL (d + 1) cs = placedL d cs + ((logOfL cs).filter (·.routed)).length := by
  cases cs with
  | nil => rfl
  | cons c cs =>
    simp only [placedL, logOfL, List.filter_append, List.length_append, placed_succ d c, placedL_succ d cs]
    omega
end

mutual
theorem execC_snd (c : Call S) (hf : Fair c) (r : Router S) (L : List (Reg S)) (h : Inv r L) :
    (execC r c).2 = placed 0 c := by
  cases c with
  | route v path hd => simp [execC, injectMethodC, placed]
  | add hd => rfl
  | mount calls ord =>
    obtain ⟨f1, f2, f3⟩ : FairL calls ∧ _ ∧ _ := by simpa [Fair] using hf
    obtain ⟨sub, h1, h2⟩ := execL_inv calls f1 Router.new [] Inv.new
    rw [List.nil_append] at h2
    obtain ⟨r', h3, h4⟩ := h.append h2 ord f2 f3
    have ih := execLC_snd calls f1 Router.new [] Inv.new
    unfold execC
    simp only [execLC_fst, h1, ih, placed]
    rw [placedL_succ]
    congr 1
    unfold append at h3
    revert h3
    unfold appendC
    simp only
    cases ha : appendPaths ord.inner r.routeCounter (ord.outer sub.paths) r.paths with
    | panic => simp
    | ok paths =>
      intro _
      rw [appendPathsC_snd _ f3 _ _ _ _ ha, sum_perm ((f2 sub.paths).map _), h2.entries]
theorem execLC_snd (cs : List (Call S)) (hf : FairL cs) (r : Router S) (L : List (Reg S)) (h : Inv r L) :
    (execLC r cs).2 = placedL 0 cs := by
  cases cs with
  | nil => rfl
  | cons c cs =>
    obtain ⟨f1, f2⟩ : Fair c ∧ FairL cs := by simpa [FairL] using hf
    obtain ⟨r1, h1, h2⟩ := exec_inv c f1 r L h
    unfold execLC
    simp only [execC_fst, h1, placedL, execC_snd c f1 r L h, execLC_snd cs f2 r1 _ h2]
end

end Router
end Octane
