import Verif.Proof.Size
/-
C126: how big the tables of a router are. C127: what setting them up costs.
-/
namespace Octane
open Spec

section
variable {S : Type u}

private theorem inv_of (calls : List (Call S)) (hf : FairL calls) (r : Router S)
    (hr : execL Router.new calls = .ok r) : Router.Inv r (logOfL calls) := by
  obtain ⟨r', h1, h2⟩ := Router.execL_inv calls hf Router.new [] Router.Inv.new
  rw [hr, Res.ok.injEq] at h1
  subst h1
  rwa [List.nil_append] at h2

private theorem rep_of (calls : List (Call S)) (hf : FairL calls) (r : Router S)
    (hr : execL Router.new calls = .ok r) (m : RequestMethod) (t : PathNode (Closures S))
    (ht : r.paths.get m = some t) : PathNode.Rep t (Router.itemsFrom m 0 (logOfL calls)) := by
  have := (inv_of calls hf r hr).trees m
  rwa [ht] at this

/-! ### C126 -/

/-- C126: there is a tree for exactly the methods the program names, whether the paths were accepted or not. -/
theorem C126_trees (calls : List (Call S)) (hf : FairL calls) (r : Router S)
    (hr : execL Router.new calls = .ok r) (m : RequestMethod) :
    (∃ t, r.paths.get m = some t) ↔ NamesL m calls := by
  have := Router.execL_isSome calls hf Router.new r hr m
  rw [Option.isSome_iff_exists] at this
  rw [this]
  simp [Router.new]

/-- C126: the tree of a method has one node for every different beginning of its patterns. -/
theorem C126_nodes (calls : List (Call S)) (hf : FairL calls) (r : Router S)
    (hr : execL Router.new calls = .ok r) (m : RequestMethod) (t : PathNode (Closures S))
    (ht : r.paths.get m = some t) : Count (Beginning (patternsUnder m (logOfL calls))) t.nodes := by
  rw [← Router.itemsFrom_under m _ (inv_of calls hf r hr).targets]
  exact (rep_of calls hf r hr m t ht).nodes_count

/-- C126: it has one list for every different pattern; patterns that differ only in the names of their variables
share one. -/
theorem C126_lists (calls : List (Call S)) (hf : FairL calls) (r : Router S)
    (hr : execL Router.new calls = .ok r) (m : RequestMethod) (t : PathNode (Closures S))
    (ht : r.paths.get m = some t) : Count (Whole (patternsUnder m (logOfL calls))) t.lists := by
  rw [← Router.itemsFrom_under m _ (inv_of calls hf r hr).targets]
  exact (rep_of calls hf r hr m t ht).lists_count

/-- C126: it has one entry for every accepted registration; none is lost, replaced or doubled, also not by
mounting. -/
theorem C126_entries (calls : List (Call S)) (hf : FairL calls) (r : Router S)
    (hr : execL Router.new calls = .ok r) (m : RequestMethod) (t : PathNode (Closures S))
    (ht : r.paths.get m = some t) : t.entries = (patternsUnder m (logOfL calls)).length := by
  rw [← Router.itemsFrom_under m _ (inv_of calls hf r hr).targets, List.length_map]
  exact (rep_of calls hf r hr m t ht).entries_count

/-- C126: all trees together and the middleware hold as many handlers as the program registers. -/
theorem C126_total (calls : List (Call S)) (hf : FairL calls) (r : Router S)
    (hr : execL Router.new calls = .ok r) :
    (r.paths.map fun e => e.2.entries).sum + r.middlewares.length = (logOfL calls).length := by
  have h := inv_of calls hf r hr
  have := Router.midsFrom_length 0 (logOfL calls)
  rw [h.entries, h.mids]
  omega

/-- C126: the nodes of one tree are at most a root and one for every segment of every pattern; the lists at most
one for every pattern. -/
theorem C126_bound (calls : List (Call S)) (hf : FairL calls) (r : Router S)
    (hr : execL Router.new calls = .ok r) (m : RequestMethod) (t : PathNode (Closures S))
    (ht : r.paths.get m = some t) :
    t.nodes ≤ 1 + ((patternsUnder m (logOfL calls)).map List.length).sum ∧
      t.lists ≤ (patternsUnder m (logOfL calls)).length :=
  ⟨beginnings_le (C126_nodes calls hf r hr m t ht), whole_le (C126_lists calls hf r hr m t ht)⟩

/-- C126: the nodes of all trees together: seven roots at most, and one for every segment of every pattern. -/
theorem C126_total_bound (calls : List (Call S)) (hf : FairL calls) (r : Router S)
    (hr : execL Router.new calls = .ok r) :
    (r.paths.map fun e => e.2.nodes).sum ≤ 7 + ((logOfL calls).map (·.segments)).sum := by
  have h := inv_of calls hf r hr
  have h1 := h.nodes_le
  have h2 : r.paths.length ≤ 7 := by
    have hs : ∀ x ∈ r.paths.map Prod.fst,
        x ∈ [RequestMethod.get, .post, .put, .delete, .head, .patch, .all] := by
      intro x hx
      obtain ⟨e, he, rfl⟩ := List.mem_map.1 hx
      have hn := (C126_trees calls hf r hr e.1).1 ⟨e.2, HMap.get_of_mem h.uniq he⟩
      have hv : ∀ v : Verb, v.method ∈ [RequestMethod.get, .post, .put, .delete, .head, .patch, .all] := by
        intro v; cases v <;> simp [Verb.method]
      have names : (∀ c : Call S, Names e.1 c → ∃ v : Verb, v.method = e.1) ∧
          ∀ cs : List (Call S), NamesL e.1 cs → ∃ v : Verb, v.method = e.1 := by
        have aux : ∀ n, (∀ c : Call S, sizeOf c < n → Names e.1 c → ∃ v : Verb, v.method = e.1) ∧
            ∀ cs : List (Call S), sizeOf cs < n → NamesL e.1 cs → ∃ v : Verb, v.method = e.1 := by
          intro n
          induction n with
          | zero => exact ⟨fun _ h => absurd h (by omega), fun _ h => absurd h (by omega)⟩
          | succ n ih =>
            refine ⟨fun c hc hN => ?_, fun cs hc hN => ?_⟩
            · cases c with
              | route v _ _ => exact ⟨v, by simpa [Names] using hN⟩
              | add _ => simp [Names] at hN
              | mount cs ord =>
                refine ih.2 cs ?_ (by simpa [Names] using hN)
                simp at hc; omega
            · cases cs with
              | nil => simp [NamesL] at hN
              | cons c cs =>
                simp at hc
                simp only [NamesL] at hN
                rcases hN with hN | hN
                · exact ih.1 c (by omega) hN
                · exact ih.2 cs (by omega) hN
        exact ⟨fun c => (aux _).1 c (Nat.lt_succ_self _), fun cs => (aux _).2 cs (Nat.lt_succ_self _)⟩
      obtain ⟨v, hv'⟩ := names.2 calls hn
      rw [← hv']; exact hv v
    have := Nodup.length_le_of_subset h.uniq hs
    simpa using this
  omega

/-- C126: a refused registration adds no handler and no node but the root of a tree that is not there yet. -/
theorem C126_refused (calls : List (Call S)) (hf : FairL calls) (v : Verb) (path : Str) (c : Closure S)
    (hp : Path.parse path = none) (r r' : Router S) (hr : execL Router.new calls = .ok r)
    (hr' : execL Router.new (calls ++ [.route v path c]) = .ok r') :
    r'.middlewares = r.middlewares ∧ r'.routeCounter = r.routeCounter ∧
      ∀ m, r'.paths.get m = r.paths.get m ∨
        m = v.method ∧ r.paths.get m = none ∧ r'.paths.get m = some PathNode.new := by
  have happ : ∀ (cs : List (Call S)) (a : Router S),
      execL a (cs ++ [.route v path c]) = (execL a cs).bind fun b => exec b (.route v path c) := by
    intro cs
    induction cs with
    | nil =>
      intro a
      show (exec a _).bind _ = _
      simp only [execL, Res.bind_ok']
      cases exec a (.route v path c) <;> rfl
    | cons x cs ih =>
      intro a
      simp only [List.cons_append, execL]
      cases exec a x with
      | panic => rfl
      | ok b => exact ih b
  rw [happ, hr, Res.bind_ok'] at hr'
  simp only [exec, Router.injectMethod, hp, Res.bind_ok', Res.ok.injEq] at hr'
  subst hr'
  refine ⟨rfl, rfl, fun m => ?_⟩
  simp only [HMap.get_insert]
  by_cases hm : v.method = m
  · subst hm
    rw [if_pos rfl]
    cases hg : r.paths.get v.method with
    | none => exact .inr ⟨rfl, rfl, rfl⟩
    | some t => exact .inl rfl
  · rw [if_neg hm]; exact .inl rfl

end

namespace SizeExample

def h : Closure Unit := fun _ s => .ok (s, .next)
def ord : Router.AppendOrder Unit := ⟨List.reverse, fun _ _ m => m⟩

/-- Two routes and a middleware, a refused route, and a router with two routes mounted among them. -/
def calls : List (Call Unit) :=
  [.route .get c!"/a/:x" h, .add h, .route .put c!"/a/../.." h,
    .mount [.route .get c!"/a/:y" h, .route .addRoute c!"/a/b" h] ord, .route .get c!"/" h]

theorem fair : FairL calls := by
  simp [calls, FairL, Fair, ord, List.reverse_perm]

/-- the sizes of the three trees: nodes, lists, entries -/
def sizes (m : RequestMethod) : Res (Option (Nat × Nat × Nat)) :=
  (execL Router.new calls).bind fun r => .ok ((r.paths.get m).map fun t => (t.nodes, t.lists, t.entries))

/-- `/a/:x`, `/a/:y` and `/` have three beginnings and are two patterns and three entries. -/
example : sizes .get = .ok (some (3, 2, 3)) := by decide +kernel
/-- `put` was refused: an empty tree. -/
example : sizes .put = .ok (some (1, 0, 0)) := by decide +kernel
example : sizes .all = .ok (some (3, 1, 1)) := by decide +kernel
example : sizes .post = .ok none := by decide +kernel
example : Path.parse c!"/a/../.." = none := by decide +kernel

end SizeExample

/-! ### C127 -/

section
variable {S : Type u}

/-- What is counted is what the code does. -/
theorem C127_same (calls : List (Call S)) (r : Router S) : (execLC r calls).1 = execL r calls :=
  Router.execLC_fst r calls

/-- C127: how often `insert` is called while a router is set up: for every accepted route once, and once more for
every router that the router it was registered with ends up in. -/
theorem C127_exact (calls : List (Call S)) (hf : FairL calls) :
    (execLC Router.new calls).2 = placedL 0 calls :=
  Router.execLC_snd calls hf Router.new [] Router.Inv.new

mutual
private theorem placed_le (d : Nat) (c : Call S) :
    placed d c ≤ (d + 1 + nesting c) * ((logOf c).filter (·.routed)).length := by
  cases c with
  | route v path h =>
    unfold placed logOf nesting
    cases Path.parse path with
    | none => simp
    | some p => cases v <;> simp [Verb.target, Reg.routed]
  | add h => simp [placed]
  | mount calls ord =>
    have := placedL_le (d + 1) calls
    simp only [placed, logOf, nesting]
    rw [show d + 1 + (1 + nestingL calls) = d + 1 + 1 + nestingL calls by omega]
    exact this
private theorem placedL_le (d : Nat) (cs : List (Call S)) :
    placedL d cs ≤ (d + 1 + nestingL cs) * ((logOfL cs).filter (·.routed)).length := by
  cases cs with
  | nil => simp [placedL]
  | cons c cs =>
    have h1 := placed_le d c
    have h2 := placedL_le d cs
    simp only [placedL, logOfL, nestingL, List.filter_append, List.length_append]
    have e1 : (d + 1 + nesting c) * ((logOf c).filter (·.routed)).length ≤
        (d + 1 + max (nesting c) (nestingL cs)) * ((logOf c).filter (·.routed)).length :=
      Nat.mul_le_mul_right _ (by omega)
    have e2 : (d + 1 + nestingL cs) * ((logOfL cs).filter (·.routed)).length ≤
        (d + 1 + max (nesting c) (nestingL cs)) * ((logOfL cs).filter (·.routed)).length :=
      Nat.mul_le_mul_right _ (by omega)
    rw [Nat.mul_add]
    omega
end

/-- C127: so no more than the number of routes times one more than the depth of the mounts; without mounts once
for each route. -/
theorem C127_bound (calls : List (Call S)) (hf : FairL calls) :
    (execLC Router.new calls).2 ≤ (1 + nestingL calls) * ((logOfL calls).filter (·.routed)).length := by
  rw [C127_exact calls hf]
  simpa using placedL_le 0 calls

mutual
private theorem nesting_le (c : Call S) :
    nesting c + ((logOf c).filter (·.routed)).length ≤ callCount c := by
  cases c with
  | route v path h =>
    unfold logOf nesting callCount
    cases Path.parse path with
    | none => simp
    | some p => cases v <;> simp [Verb.target, Reg.routed]
  | add h => simp [nesting, logOf, callCount, Reg.routed]
  | mount calls ord =>
    have := nestingL_le calls
    simp only [nesting, logOf, callCount]
    omega
private theorem nestingL_le (cs : List (Call S)) :
    nestingL cs + ((logOfL cs).filter (·.routed)).length ≤ callCountL cs := by
  cases cs with
  | nil => simp [nestingL, logOfL, callCountL]
  | cons c cs =>
    have h1 := nesting_le c
    have h2 := nestingL_le cs
    simp only [nestingL, logOfL, callCountL, List.filter_append, List.length_append]
    omega
end

/-- C127: never more than the square of the number of calls. -/
theorem C127_square (calls : List (Call S)) (hf : FairL calls) :
    (execLC Router.new calls).2 ≤ callCountL calls * callCountL calls := by
  have h1 := C127_bound calls hf
  have h2 := nestingL_le calls
  refine Nat.le_trans h1 ?_
  by_cases h0 : ((logOfL calls).filter (·.routed)).length = 0
  · rw [h0]; simp
  · exact Nat.mul_le_mul (by omega) (by omega)

end

/-- The claim in full: setting up costs at most a constant number of insertions for every call. -/
def C127_statement : Prop :=
  ∃ c, ∀ calls : List (Call Unit), FairL calls → (execLC Router.new calls).2 ≤ c * callCountL calls

/-- C127, the part that holds: it does while routers are mounted at most to a fixed depth. -/
theorem C127_linear_partial {S : Type u} (k : Nat) (calls : List (Call S)) (hf : FairL calls)
    (hk : nestingL calls ≤ k) : (execLC Router.new calls).2 ≤ (1 + k) * callCountL calls := by
  have h1 := C127_bound calls hf
  have h2 := nestingL_le calls
  exact Nat.le_trans h1 (Nat.mul_le_mul (by omega) (by omega))

namespace SizeExample

/-- A route and a router that contains a route and a router that … -/
def deep : Nat → List (Call Unit)
  | 0 => []
  | n + 1 => [.route .get c!"/" h, .mount (deep n) ord]

theorem deep_fair (n : Nat) : FairL (deep n) := by
  induction n with
  | zero => simp [deep, FairL]
  | succ n ih => simp [deep, FairL, Fair, ih, ord, List.reverse_perm]

theorem deep_calls (n : Nat) : callCountL (deep n) = 2 * n := by
  induction n with
  | zero => rfl
  | succ n ih => simp only [deep, callCountL, callCount, ih]; omega

theorem deep_routed (n : Nat) : ((logOfL (deep n)).filter (·.routed)).length = n := by
  induction n with
  | zero => rfl
  | succ n ih =>
    have hp : Path.parse c!"/" = some [] := by decide +kernel
    simp only [deep, logOfL, logOf, hp, List.append_nil, List.filter_append, List.length_append, ih]
    have : ([(⟨Verb.get.target [], h⟩ : Reg Unit)].filter (·.routed)).length = 1 := rfl
    rw [this]; omega

theorem deep_placed (n : Nat) : 2 * placedL 0 (deep n) = n * (n + 1) := by
  induction n with
  | zero => rfl
  | succ n ih =>
    have hp : (Path.parse c!"/").isSome = true := by decide +kernel
    simp only [deep, placedL, placed, hp, if_true, Router.placedL_succ, deep_routed, Nat.add_zero]
    simp only [Nat.add_mul, Nat.mul_add] at ih ⊢
    omega

end SizeExample

/-- C127 is false: every route of a mounted router is inserted again for every router around it. -/
theorem C127_counterexample : ¬ C127_statement := by
  rintro ⟨c, hc⟩
  have h1 := hc (SizeExample.deep (4 * c + 1)) (SizeExample.deep_fair _)
  rw [C127_exact _ (SizeExample.deep_fair _), SizeExample.deep_calls] at h1
  have h2 := SizeExample.deep_placed (4 * c + 1)
  have h3 : 2 * (c * (2 * (4 * c + 1))) = (4 * c + 1) * (4 * c) := by
    rw [Nat.mul_comm (4 * c + 1), ← Nat.mul_assoc, ← Nat.mul_assoc]
    congr 1
    omega
  have h4 : (4 * c + 1) * (4 * c + 1 + 1) = (4 * c + 1) * (4 * c) + (4 * c + 1) * 2 := by rw [← Nat.mul_add]
  omega

/-- four routes, of which two are mounted: six insertions -/
example : (execLC Router.new SizeExample.calls).2 = 6 ∧ nestingL SizeExample.calls = 1 ∧
    callCountL SizeExample.calls = 7 := by decide +kernel
/-- ten routes, each nine, eight, … deep -/
example : (execLC Router.new (SizeExample.deep 10)).2 = 55 ∧ callCountL (SizeExample.deep 10) = 20 := by
  decide +kernel

end Octane
