import Verif.Model.Depth
import Verif.Proof.CostRoute
import Verif.Props.Router
/-
C119: how deep a request makes the lookup call itself.
-/
namespace Octane
open Spec
universe u
variable {S T : Type u}

/-- `d` is one more than the length of the longest beginning of the patterns `ps` that permits `q`. -/
def Spec.Deepest (uv : Bool) (ps : List PathBuf) (q : PathBuf) (d : Nat) : Prop :=
  (∃ ks, Reached uv ps q ks ∧ d = ks.length + 1) ∧ ∀ ks, Reached uv ps q ks → ks.length + 1 ≤ d

namespace PathNode

theorem dfsD_fst (uv : Bool) (n : PathNode T) (q : List Str) : (dfsD uv n q).1 = dfs uv n q := by
  induction q generalizing n with
  | nil =>
    cases n with
    | leaf l => rfl
    | node m =>
      unfold dfsD dfs
      cases hg : HMap.get m PathChunk.fin with
      | none => rfl
      | some v => cases v <;> rfl
  | cons c q ih =>
    cases n with
    | leaf l => rfl
    | node m =>
      unfold dfsD dfs
      cases h1 : HMap.get m (.chunk c) with
      | none =>
        cases uv with
        | false => simp
        | true =>
          cases h2 : HMap.get m .catchAll with
          | none => simp
          | some w => simp [ih]
      | some v =>
        simp only [ih]
        cases dfs uv v q with
        | panic => rfl
        | ok ret =>
          cases uv with
          | false => simp
          | true =>
            cases h2 : HMap.get m .catchAll with
            | none => simp
            | some w => simp [ih]

theorem dfsD_snd {n : PathNode T} (hs : Shape n) (uv : Bool) (q : List Str) :
    (∃ ks ∈ visitedKeys uv n q, (dfsD uv n q).2 = ks.length + 1) ∧
      ∀ ks ∈ visitedKeys uv n q, ks.length + 1 ≤ (dfsD uv n q).2 := by
  induction q generalizing n with
  | nil =>
    obtain ⟨m, rfl⟩ := hs.node_of
    unfold dfsD visitedKeys
    cases hg : HMap.get m PathChunk.fin with
    | none => simp
    | some v => cases v <;> simp
  | cons c q ih =>
    obtain ⟨m, rfl⟩ := hs.node_of
    obtain ⟨h1, h2, h3⟩ := hs.inv
    unfold dfsD visitedKeys
    cases hg1 : HMap.get m (.chunk c) with
    | none =>
      cases uv with
      | false => simp
      | true =>
        cases hg2 : HMap.get m .catchAll with
        | none => simp
        | some w =>
          obtain ⟨⟨ks, hk, e⟩, hle⟩ := ih (h3 _ w (by simp) hg2)
          refine ⟨⟨none :: ks, by simp [hk], by simp [e]; omega⟩, ?_⟩
          intro ks' hk'
          simp only [List.cons_append, List.nil_append, if_true, List.mem_cons, List.mem_map] at hk'
          rcases hk' with rfl | ⟨x, hx, rfl⟩
          · simp
          · have := hle x hx
            simp
            omega
    | some v =>
      have hv := h3 _ v (by simp) hg1
      obtain ⟨l, hl⟩ := dfs_ok uv v q hv
      obtain ⟨⟨ks, hk, e⟩, hle⟩ := ih hv
      simp only [dfsD_fst, hl]
      cases uv with
      | false =>
        refine ⟨⟨some c :: ks, by simp [hk], by simp [e]; omega⟩, ?_⟩
        intro ks' hk'
        simp only [List.cons_append, Bool.false_eq_true, if_false, List.append_nil, List.mem_cons, List.mem_map] at hk'
        rcases hk' with rfl | ⟨x, hx, rfl⟩
        · simp
        · have := hle x hx
          simp
          omega
      | true =>
        cases hg2 : HMap.get m .catchAll with
        | none =>
          refine ⟨⟨some c :: ks, by simp [hk], by simp [e]; omega⟩, ?_⟩
          intro ks' hk'
          simp only [List.cons_append, if_true, List.append_nil, List.mem_cons, List.mem_map] at hk'
          rcases hk' with rfl | ⟨x, hx, rfl⟩
          · simp
          · have := hle x hx
            simp
            omega
        | some w =>
          obtain ⟨⟨ks2, hk2, e2⟩, hle2⟩ := ih (h3 _ w (by simp) hg2)
          refine ⟨?_, ?_⟩
          · by_cases h : (dfsD true w q).2 ≤ (dfsD true v q).2
            · exact ⟨some c :: ks, by simp [hk], by simp [e] at *; omega⟩
            · exact ⟨none :: ks2, by simp [hk2], by simp [e2] at *; omega⟩
          · intro ks' hk'
            simp only [List.cons_append, if_true, List.mem_cons, List.mem_append, List.mem_map] at hk'
            rcases hk' with rfl | ⟨x, hx, rfl⟩ | ⟨x, hx, rfl⟩
            · simp
            · have := hle x hx
              simp
              omega
            · have := hle2 x hx
              simp
              omega

theorem Rep.depth {n : PathNode T} {items : List (PathData T)} (h : Rep n items) (uv : Bool) (q : PathBuf) :
    Deepest uv (items.map (·.origPath)) q (dfsD uv n q).2 := by
  have key : ∀ ks, ks ∈ visitedKeys uv n q ↔ Reached uv (items.map (·.origPath)) q ks := by
    intro ks
    rw [mem_visitedKeys h.shape, h.nodes]
    unfold Reached generic
    simp only [List.mem_map]
    constructor
    · rintro ⟨h1 | ⟨d, hd, h1⟩, h2⟩
      · exact ⟨.inl h1, h2⟩
      · exact ⟨.inr ⟨_, ⟨d, hd, rfl⟩, h1⟩, h2⟩
    · rintro ⟨h1 | ⟨_, ⟨d, hd, rfl⟩, h1⟩, h2⟩
      · exact ⟨.inl h1, h2⟩
      · exact ⟨.inr ⟨d, hd, h1⟩, h2⟩
  obtain ⟨⟨ks, hk, e⟩, hle⟩ := dfsD_snd h.shape uv q
  exact ⟨⟨ks, (key ks).1 hk, e⟩, fun ks hk => hle ks ((key ks).2 hk)⟩

end PathNode

/-- What is counted is what the code does. -/
theorem C119_same (uv : Bool) (n : PathNode T) (q : List Str) : (PathNode.dfsD uv n q).1 = PathNode.dfs uv n q :=
  PathNode.dfsD_fst uv n q

private theorem depth_of {r : Router S} {L : List (Reg S)} (h : Router.Inv r L) (uv : Bool) (m : RequestMethod) (q : PathBuf) :
    Deepest uv ((Router.itemsFrom m 0 L).map (·.origPath)) q (Router.methodDepth uv r m q) ∨
      Router.methodDepth uv r m q = 0 ∧ Router.itemsFrom m 0 L = [] := by
  have hrep := h.trees m
  unfold Router.methodDepth
  cases hg : r.paths.get m with
  | none =>
    rw [hg] at hrep
    have := hrep.contents
    simp only [Option.getD_none, PathNode.new, PathNode.all, PathNode.allL] at this
    exact .inr ⟨rfl, List.perm_nil.1 this.symm⟩
  | some n =>
    rw [hg] at hrep
    exact .inl (hrep.depth uv q)

/-- Exactly: the lookup in the tree of a method is one call deeper than the longest beginning of a pattern registered
for it that permits the path; the tree for all methods likewise. -/
theorem C119_exact (calls : List (Call S)) (hf : FairL calls) (r : Router S) (hr : execL Router.new calls = .ok r)
    (uv : Bool) (m : RequestMethod) (hm : m ≠ .all) (path : PathBuf) :
    (Deepest uv (patternsOf m (logOfL calls)) path (Router.methodDepth uv r m path) ∨
      Router.methodDepth uv r m path = 0 ∧ patternsOf m (logOfL calls) = []) ∧
    (Deepest uv (patternsOfAny (logOfL calls)) path (Router.methodDepth uv r .all path) ∨
      Router.methodDepth uv r .all path = 0 ∧ patternsOfAny (logOfL calls) = []) := by
  obtain ⟨r', h1, h2⟩ := Router.execL_inv calls hf Router.new [] Router.Inv.new
  rw [hr, Res.ok.injEq] at h1
  subst h1
  rw [List.nil_append] at h2
  constructor
  · rw [← Router.itemsFrom_patterns _ hm 0]
    simpa using depth_of h2 uv m path
  · rw [← Router.itemsFrom_any 0 _ h2.targets]
    simpa using depth_of h2 uv .all path

/-- C119: whatever path a client asks for, the lookup is at most one call deeper than the longest pattern registered,
and one call deeper than the path has segments. -/
theorem C119_bound (calls : List (Call S)) (hf : FairL calls) (r : Router S) (hr : execL Router.new calls = .ok r)
    (longest : Nat) (hl : ∀ p, p ∈ patternsOfAny (logOfL calls) ∨ (∃ m, p ∈ patternsOf m (logOfL calls)) → p.length ≤ longest)
    (uv : Bool) (m : RequestMethod) (path : PathBuf) :
    Router.methodDepth uv r m path ≤ longest + 1 ∧ Router.methodDepth uv r m path ≤ path.length + 1 := by
  have key : ∀ ps d, (∀ p ∈ ps, p.length ≤ longest) → (Deepest uv ps path d ∨ d = 0 ∧ ps = []) →
      d ≤ longest + 1 ∧ d ≤ path.length + 1 := by
    rintro ps d hp (⟨⟨ks, ⟨hk, hperm⟩, e⟩, -⟩ | ⟨e, -⟩)
    · have := hperm.length_le
      refine ⟨?_, by omega⟩
      rcases hk with rfl | ⟨p, hmem, hpre⟩
      · simp at e; omega
      · have h1 := hpre.length_le
        have h2 := hp p hmem
        simp only [generic, List.length_map] at h1
        omega
    · omega
  by_cases hm : m = .all
  · subst hm
    exact key _ _ (fun p hp => hl p (.inl hp)) (C119_exact calls hf r hr uv .get (by decide) path).2
  · exact key _ _ (fun p hp => hl p (.inr ⟨m, hp⟩)) (C119_exact calls hf r hr uv m hm path).1

namespace DepthExample

def h : Closure Nat := fun _ s => .ok (s, .stop)

def calls : List (Call Nat) := [.route .get c!"/a/:x/c" h, .route .addRoute c!"/a" h]

/-- the hypothesis of `C119_bound` with three segments -/
example : ∀ p, p ∈ patternsOfAny (logOfL calls) ∨ (∃ m, p ∈ patternsOf m (logOfL calls)) → p.length ≤ 3 := by
  have h1 : Path.parse c!"/a/:x/c" = some [c!"a", c!":x", c!"c"] := by decide
  have h2 : Path.parse c!"/a" = some [c!"a"] := by decide
  intro p hp
  simp only [calls, logOfL, logOf, h1, h2, patternsOfAny, patternsOf, Verb.target, Verb.method, List.append_nil,
    List.singleton_append, List.filterMap_cons, List.filterMap_nil] at hp
  rcases hp with hp | ⟨m, hp⟩
  · simp at hp
    subst hp
    simp
  · split at hp
    · simp at hp
    · rename_i heq
      split at heq
      · simp at heq
        subst heq
        simp at hp
        subst hp
        simp
      · simp at heq

/-- a path of 1000 segments makes it three calls deep and not 1001 -/
example : ((execL Router.new calls).bind fun r =>
    .ok (Router.methodDepth true r .get (List.replicate 1000 c!"a"), Router.methodDepth true r .get [c!"a", c!"q", c!"c"],
      Router.methodDepth true r .all [c!"b"])) = .ok (3, 4, 1) := by
  decide +kernel

end DepthExample
end Octane
