import Verif.Proof.Trie
/-
Properties C08 – C10: the route table.
-/
namespace Octane
open Spec

/-! ## C08 -/

/-- C08: after any sequence of registrations of accepted patterns, looking up any path returns (in
some order) exactly the registered entries whose pattern applies to the path, each as often as it
was registered. -/
theorem C08_lookup_exact {T : Type u} (regs : List (PathBuf × T))
    (hp : ∀ e ∈ regs, ∃ s, Path.parse s = some e.1) (n : PathNode T)
    (hn : buildTable regs = .ok n) (uv : Bool) (q : PathBuf) :
    ∃ l, PathNode.get uv n q = .ok l ∧
      (l.map (·.data)).Perm ((regs.filter fun e => decide (PatMatch uv e.1 q)).map (·.2)) := by
  obtain ⟨n', h1, h2⟩ := buildTable_rep regs hp
  rw [hn] at h1; cases h1
  obtain ⟨l, h3, h4⟩ := h2.get uv q
  refine ⟨l, h3, (h4.map _).trans ?_⟩
  rw [List.map_map, List.filter_map, List.map_map]
  simp only [decide_patMatch]
  exact .refl _

/-- a registered table, a path matching two of its three entries, and one matching none -/
example : (buildTable [([c!"a", c!":x"], 1), ([c!"a", c!"b"], 2), ([c!":x"], 3)]).bind
      (fun n => PathNode.get true n [c!"a", c!"b"]) =
    .ok [⟨[], 2⟩, ⟨[(c!"x", c!"b")], 1⟩] := rfl
example : (buildTable [([c!"a", c!":x"], 1), ([c!"a", c!"b"], 2), ([c!":x"], 3)]).bind
      (fun n => PathNode.get true n [c!"b", c!"b"]) = .ok [] := rfl

/-! ## C09 -/

/-- C09: registering accepted patterns and looking up any accepted path never panics. -/
theorem C09_no_panic {T : Type u} (regs : List (PathBuf × T))
    (hp : ∀ e ∈ regs, ∃ s, Path.parse s = some e.1) :
    ∃ n, buildTable regs = .ok n ∧
      ∀ (uv : Bool) (s : Str) (q : PathBuf), Path.parse s = some q →
        PathNode.get uv n q ≠ .panic := by
  obtain ⟨n, h1, h2⟩ := buildTable_rep regs hp
  refine ⟨n, h1, fun uv s q _ => ?_⟩
  obtain ⟨l, h3, -⟩ := h2.get uv q
  simp [h3]

/-- The panicking branches exist: inserting an unparsed path with an empty segment panics, so the
hypothesis that the patterns were accepted by the parser is needed. -/
example : buildTable [([c!""], 1)] = .panic := rfl

/-! ## C10 -/

/-- C10: both iterators terminate and yield every registered entry exactly once (with its pattern),
for every order in which the hash maps are enumerated. -/
theorem C10_iterators {T : Type u} (regs : List (PathBuf × T))
    (hp : ∀ e ∈ regs, ∃ s, Path.parse s = some e.1) (n : PathNode T)
    (hn : buildTable regs = .ok n) (ord : PathNode.Order T) (hord : ∀ t m, (ord t m).Perm m) :
    (∃ l, PathNode.ownedItems ord n = some l ∧ (l.map fun d => (d.origPath, d.data)).Perm regs) ∧
    (∃ l, PathNode.refItems ord n = some l ∧ (l.map fun d => (d.origPath, d.data)).Perm regs) := by
  obtain ⟨n', h1, h2⟩ := buildTable_rep regs hp
  rw [hn] at h1; cases h1
  have hmap : ((regs.map fun e => (⟨e.1, e.2⟩ : PathData T)).map fun d => (d.origPath, d.data)) = regs := by
    simp [Function.comp_def]
  constructor
  · obtain ⟨l, h3, h4⟩ := PathNode.ownedItems_perm ord hord n
    exact ⟨l, h3, by rw [← hmap]; exact (h4.trans h2.contents).map _⟩
  · obtain ⟨l, h3, h4⟩ := PathNode.refItems_perm ord hord n
    exact ⟨l, h3, by rw [← hmap]; exact (h4.trans h2.contents).map _⟩

/-- two enumeration orders of the same table -/
example : (buildTable [([c!"a"], 1), ([c!"b"], 2), ([c!"a"], 3)]).bind
      (fun n => .ok ((PathNode.ownedItems (fun _ m => m) n).map fun l => l.map (·.data))) =
    .ok (some [3, 1, 2]) := rfl
example : (buildTable [([c!"a"], 1), ([c!"b"], 2), ([c!"a"], 3)]).bind
      (fun n => .ok ((PathNode.refItems (fun _ m => m.reverse) n).map fun l => l.map (·.data))) =
    .ok (some [2, 1, 3]) := rfl

end Octane
