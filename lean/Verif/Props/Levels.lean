import Verif.Spec.Levels
import Verif.Proof.Levels
/-
C171: how deep the tables of a router are, and what going through them needs.
-/
namespace Octane
open Spec
variable {S : Type u}

private theorem rep_at (calls : List (Call S)) (hf : FairL calls) (r : Router S)
    (hr : execL Router.new calls = .ok r) (m : RequestMethod) (t : PathNode (Closures S))
    (ht : r.paths.get m = some t) : ∃ items : List (PathData (Closures S)), PathNode.Rep t items ∧
      items.map (·.origPath) = patternsUnder m (logOfL calls) := by
  obtain ⟨r', h1, h2⟩ := Router.execL_inv calls hf Router.new [] Router.Inv.new
  rw [hr, Res.ok.injEq] at h1
  subst h1
  rw [List.nil_append] at h2
  have := h2.trees m
  rw [ht] at this
  exact ⟨_, this, Router.itemsFrom_under m _ h2.targets⟩

theorem PathNode.Rep.levels_eq {T : Type u} {n : PathNode T} {items : List (PathData T)} (h : PathNode.Rep n items)
    (d : Nat) (hd : Longest (items.map (·.origPath)) d) : n.levels = d + 1 := by
  apply Nat.le_antisymm
  · refine (PathNode.levels_le h.shape _).2 fun ks hks => ?_
    rw [PathNode.mem_nodeKeys h.shape, h.nodes] at hks
    rcases hks with rfl | ⟨e, he, hp⟩
    · simp
    · have h1 := hp.length_le
      have h2 := hd.1 e.origPath (List.mem_map.2 ⟨e, he, rfl⟩)
      rw [List.length_map] at h1
      omega
  · have key := (PathNode.levels_le h.shape _).1 (Nat.le_refl _)
    rcases hd.2 with ⟨-, rfl⟩ | ⟨p, hp, rfl⟩
    · exact key [] ((PathNode.mem_nodeKeys h.shape _).2 ((h.nodes _).2 (.inl rfl)))
    · obtain ⟨e, he, rfl⟩ := List.mem_map.1 hp
      have := key _ ((PathNode.mem_nodeKeys h.shape _).2 ((h.nodes _).2 (.inr ⟨e, he, List.prefix_refl _⟩)))
      simpa using this

theorem PathNode.Rep.drops_eq {T : Type u} {n : PathNode T} {items : List (PathData T)} (h : PathNode.Rep n items)
    (d : Nat) (hd : Longest (items.map (·.origPath)) d) : n.drops = if items = [] then 1 else d + 2 := by
  apply Nat.le_antisymm
  · refine (PathNode.drops_le h.shape _).2 ⟨fun ks hks => ?_, fun ks hks => ?_⟩
    · rw [PathNode.mem_nodeKeys h.shape, h.nodes] at hks
      rcases hks with rfl | ⟨e, he, hp⟩
      · split <;> simp
      · have h1 := hp.length_le
        have h2 := hd.1 e.origPath (List.mem_map.2 ⟨e, he, rfl⟩)
        rw [List.length_map] at h1
        rw [if_neg (List.ne_nil_of_mem he)]
        omega
    · rw [PathNode.mem_leafKeys h.shape, h.leaves] at hks
      obtain ⟨e, he, rfl⟩ := hks
      have h2 := hd.1 e.origPath (List.mem_map.2 ⟨e, he, rfl⟩)
      rw [if_neg (List.ne_nil_of_mem he), List.length_map]
      omega
  · obtain ⟨k1, k2⟩ := (PathNode.drops_le h.shape _).1 (Nat.le_refl _)
    split
    · exact k1 [] ((PathNode.mem_nodeKeys h.shape _).2 ((h.nodes _).2 (.inl rfl)))
    · rename_i hne
      rcases hd.2 with ⟨h0, -⟩ | ⟨p, hp, rfl⟩
      · exact absurd (List.map_eq_nil_iff.1 h0) hne
      · obtain ⟨e, he, rfl⟩ := List.mem_map.1 hp
        have := k2 _ ((PathNode.mem_leafKeys h.shape _).2 ((h.leaves _).2 ⟨e, he, rfl⟩))
        simpa using this

/-! ### C171 -/

/-- C171: dropping the tree of a method opens two calls more than the longest pattern under it has segments; one if
there is no pattern. -/
theorem C171_drop (calls : List (Call S)) (hf : FairL calls) (r : Router S) (hr : execL Router.new calls = .ok r)
    (m : RequestMethod) (t : PathNode (Closures S)) (ht : r.paths.get m = some t) (d : Nat)
    (hd : Longest (patternsUnder m (logOfL calls)) d) :
    t.drops = if patternsUnder m (logOfL calls) = [] then 1 else d + 2 := by
  obtain ⟨items, h1, h2⟩ := rep_at calls hf r hr m t ht
  rw [← h2] at hd ⊢
  rw [h1.drops_eq d hd]
  simp

/-- C171: the stack of the consuming iterator (with which a router is mounted) is never higher than the longest pattern
has segments and one, and gets as high, in whatever order the maps are gone through. -/
theorem C171_owned (calls : List (Call S)) (hf : FairL calls) (r : Router S) (hr : execL Router.new calls = .ok r)
    (m : RequestMethod) (t : PathNode (Closures S)) (ht : r.paths.get m = some t) (d : Nat)
    (hd : Longest (patternsUnder m (logOfL calls)) d) (ord : PathNode.Order (Closures S))
    (hord : ∀ k e, (ord k e).Perm e) :
    (∀ k it, PathNode.after (PathNode.OwnedIter.step ord) k (PathNode.intoIter ord t) = some it →
      it.stack.length ≤ d + 1) ∧
    ∃ k it, PathNode.after (PathNode.OwnedIter.step ord) k (PathNode.intoIter ord t) = some it ∧
      it.stack.length = d + 1 := by
  obtain ⟨items, h1, h2⟩ := rep_at calls hf r hr m t ht
  rw [← h2] at hd
  have e := h1.levels_eq d hd
  obtain ⟨n, rfl⟩ := h1.shape.node_of
  refine ⟨fun k it hk => ?_, ?_⟩
  · rw [← e]
    exact (PathNode.owned_fits hord k _ it (PathNode.Fits.root _ (hord 0 n)) hk).length
  · obtain ⟨k, it, h3, h4⟩ := PathNode.visited_root (PathNode.owned_visits ord) hord n (PathNode.intoIter ord (.node n)) 0
      (.inl rfl) rfl
    exact ⟨k, it, h3, by rw [h4, e]⟩

/-- C171: the same of the borrowing iterator. -/
theorem C171_borrowed (calls : List (Call S)) (hf : FairL calls) (r : Router S) (hr : execL Router.new calls = .ok r)
    (m : RequestMethod) (t : PathNode (Closures S)) (ht : r.paths.get m = some t) (d : Nat)
    (hd : Longest (patternsUnder m (logOfL calls)) d) (ord : PathNode.Order (Closures S))
    (hord : ∀ k e, (ord k e).Perm e) :
    (∀ k it, PathNode.after (PathNode.RefIter.step ord) k (PathNode.iter ord t) = some it → it.stack.length ≤ d + 1) ∧
    ∃ k it, PathNode.after (PathNode.RefIter.step ord) k (PathNode.iter ord t) = some it ∧ it.stack.length = d + 1 := by
  obtain ⟨items, h1, h2⟩ := rep_at calls hf r hr m t ht
  rw [← h2] at hd
  have e := h1.levels_eq d hd
  obtain ⟨n, rfl⟩ := h1.shape.node_of
  refine ⟨fun k it hk => ?_, ?_⟩
  · rw [← e]
    exact (PathNode.ref_fits hord k _ it (PathNode.Fits.root _ (hord 0 n)) hk).length
  · obtain ⟨k, it, h3, h4⟩ := PathNode.visited_root (PathNode.ref_visits ord) hord n (PathNode.iter ord (.node n)) 0
      (.inl rfl) rfl
    exact ⟨k, it, h3, by rw [h4, e]⟩

namespace LevelsExample

def h : Closure Nat := fun _ s => .ok (s, .stop)
def calls : List (Call Nat) := [.route .get c!"/a/:x/c" h, .route .get c!"/a" h, .route .addRoute c!"/" h, .add h]

theorem under_get : patternsUnder .get (logOfL calls) = [[c!"a", c!":x", c!"c"], [c!"a"]] := by
  have h1 : Path.parse c!"/a/:x/c" = some [c!"a", c!":x", c!"c"] := by decide
  have h2 : Path.parse c!"/a" = some [c!"a"] := by decide
  have h3 : Path.parse c!"/" = some [] := by decide
  simp only [calls, logOfL, logOf, h1, h2, h3]
  rfl

theorem longest_get : Longest (patternsUnder .get (logOfL calls)) 3 := by
  rw [under_get]
  exact ⟨by simp, .inr ⟨_, .head _, rfl⟩⟩

/-- the tree for `GET` with patterns of three segments and of one: five calls, and a stack of four -/
example : ∃ r t, execL Router.new calls = .ok r ∧ r.paths.get .get = some t ∧ t.drops = 5 ∧
    ∃ k it, PathNode.after (PathNode.OwnedIter.step fun _ e => e) k (PathNode.intoIter (fun _ e => e) t) = some it ∧
      it.stack.length = 4 := by
  have hf : FairL calls := by simp [calls, FairL, Fair]
  obtain ⟨r, hr, -⟩ := Router.execL_inv calls hf Router.new [] Router.Inv.new
  have ht := (Router.execL_isSome calls hf Router.new r hr .get).2 (.inr (.inl rfl))
  obtain ⟨t, ht⟩ := Option.isSome_iff_exists.1 ht
  refine ⟨r, t, hr, ht, ?_, (C171_owned calls hf r hr .get t ht 3 longest_get _ fun _ e => .refl e).2⟩
  rw [C171_drop calls hf r hr .get t ht 3 longest_get, under_get]
  rfl

end LevelsExample
end Octane
