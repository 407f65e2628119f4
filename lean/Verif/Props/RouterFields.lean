import Verif.Proof.RouterFields
/-
Property C169: what a router runs when its public fields have been written.
-/
namespace Octane
open Spec
variable {S : Type u}

/-! ## C169 -/

/-- C169: setting up panics exactly if an addition overflows. -/
theorem C169_panics (calls : List (FCall S)) (hf : FairFL calls) :
    (execFL Router.new calls = .panic ↔ ¬ FieldFitsL .empty calls) ∧
    (FieldFitsL .empty calls → ∃ r, execFL Router.new calls = .ok r) := by
  obtain ⟨ok, bad⟩ := Router.execFL_inv calls hf Router.new .empty Router.InvT.new
  refine ⟨⟨fun h hfit => ?_, bad⟩, fun hfit => ?_⟩
  · obtain ⟨r, h1, -⟩ := ok hfit
    rw [h1] at h
    simp at h
  · obtain ⟨r, h1, -⟩ := ok hfit
    exact ⟨r, h1⟩

/-- C169: what runs is the merge of three sequences: the matching handlers of the method, sorted by number, the matching
handlers for all methods, sorted by number, and the handlers without a path as they are in the vector. At every point
the sequence whose next handler has the smallest number goes on. All numbers have to be below the largest one. -/
theorem C169_merge {calls : List (FCall S)} (hf : FairFL calls) {r : Router S} (h : execFL Router.new calls = .ok r)
    (hb : ∀ m, ∀ e ∈ (tableL .empty calls).trees m, e.data.index < 2 ^ 64 - 1)
    (hbm : ∀ c ∈ (tableL .empty calls).middlewares, c.index < 2 ^ 64 - 1) (uv : Bool) (req : Request) :
    ∃ A B, A.Perm (due uv req.requestLine.path ((tableL .empty calls).trees req.requestLine.method)) ∧
      A.Pairwise (fun a b => a.data.index ≤ b.data.index) ∧
      B.Perm (due uv req.requestLine.path ((tableL .empty calls).trees .all)) ∧
      B.Pairwise (fun a b => a.data.index ≤ b.data.index) ∧
      ∀ s, Router.run uv r req s =
        runDue req (List.merge A (List.merge B (always (tableL .empty calls).middlewares) before) before) s :=
  Router.runT_eq (Router.execFL_table hf h) uv req hb hbm

/-- C169: if no two handlers of a tree that match have the same number, there is only one such merge, so the hash maps
play no part. -/
theorem C169_one {calls : List (FCall S)} (hf : FairFL calls) {r : Router S} (h : execFL Router.new calls = .ok r)
    (hb : ∀ m, ∀ e ∈ (tableL .empty calls).trees m, e.data.index < 2 ^ 64 - 1)
    (hbm : ∀ c ∈ (tableL .empty calls).middlewares, c.index < 2 ^ 64 - 1) (uv : Bool) (req : Request)
    (A B : List (MatchedPath (Closures S)))
    (hA : A.Perm (due uv req.requestLine.path ((tableL .empty calls).trees req.requestLine.method)))
    (sA : A.Pairwise fun a b => a.data.index < b.data.index)
    (hB : B.Perm (due uv req.requestLine.path ((tableL .empty calls).trees .all)))
    (sB : B.Pairwise fun a b => a.data.index < b.data.index) (s : S) :
    Router.run uv r req s =
      runDue req (List.merge A (List.merge B (always (tableL .empty calls).middlewares) before) before) s := by
  obtain ⟨A', B', a1, a2, b1, b2, hrun⟩ := C169_merge hf h hb hbm uv req
  have one : ∀ (X Y : List (MatchedPath (Closures S))), X.Perm Y → X.Pairwise (fun a b => a.data.index ≤ b.data.index) →
      Y.Pairwise (fun a b => a.data.index < b.data.index) → X = Y := by
    intro X Y hp hX hY
    have hX' : X.Pairwise fun a b => a.data.index < b.data.index := by
      have hn : (X.map fun a => a.data.index).Nodup := by
        rw [(hp.map fun a => a.data.index).nodup_iff, List.Nodup, List.pairwise_map]
        exact hY.imp fun hab => by omega
      rw [List.Nodup, List.pairwise_map] at hn
      exact (hX.and hn).imp fun hab => by omega
    refine List.Perm.eq_of_pairwise (le := fun a b => a.data.index < b.data.index) ?_ hX' hY hp
    intro a b _ _ h1 h2
    omega
  rw [hrun, one A' A (a1.trans hA.symm) a2 sA, one B' B (b1.trans hB.symm) b2 sB]

/-- C169: whatever the numbers, handlers of one kind keep their order: the three sequences are parts of the merge in
their order, and nothing else is in it. -/
theorem C169_kinds (A B C : List (MatchedPath (Closures S))) :
    A.Sublist (List.merge A (List.merge B C before) before) ∧
    B.Sublist (List.merge A (List.merge B C before) before) ∧
    C.Sublist (List.merge A (List.merge B C before) before) ∧
    (List.merge A (List.merge B C before) before).Perm (A ++ (B ++ C)) := by
  have key : ∀ (X Y : List (MatchedPath (Closures S))), X.Sublist (List.merge X Y before) ∧
      Y.Sublist (List.merge X Y before) := by
    intro X
    induction X with
    | nil => intro Y; simp
    | cons x X ih =>
      intro Y
      induction Y with
      | nil => simp [List.merge_right]
      | cons y Y ihY =>
        rw [List.cons_merge_cons]
        split
        · exact ⟨(ih _).1.cons_cons x, (ih _).2.cons x⟩
        · exact ⟨ihY.1.cons y, ihY.2.cons_cons y⟩
  obtain ⟨h1, h2⟩ := key A (List.merge B C before)
  obtain ⟨h3, h4⟩ := key B C
  exact ⟨h1, h3.trans h2, h4.trans h2,
    (List.merge_perm_append before).trans ((List.merge_perm_append before).append_left A)⟩

/-! ### concrete cases -/

section
private def noted (n : Nat) : Closure (List Nat) := fun _ s => .ok (s ++ [n], .next)
private def anyOrd : Router.AppendOrder (List Nat) := ⟨id, fun _ _ => id⟩
private def reqTo (m : RequestMethod) : Request := ⟨⟨m, [], .http11⟩, ⟨[], []⟩, [], []⟩
private theorem parseSlash : Path.parse c!"/" = some [] := by decide

/-- a router whose handlers for GET become handlers for OPTIONS, with two handlers without a path in reverse order -/
private def moved : List (FCall (List Nat)) :=
  [.mount [.add (noted 0), .add (noted 1), .route .get c!"/" (noted 2), .route .addRoute c!"/" (noted 3),
    .swapTrees .get .options, .middlewares List.reverse] anyOrd]

private theorem moved_fair : FairFL moved := by
  simp only [moved, FairFL, FairF]
  exact ⟨⟨by simp, fun _ => .refl _, fun _ _ _ => .refl _⟩, trivial⟩

private theorem moved_trees (m : RequestMethod) : (tableL .empty moved).trees m =
    if m = .options then [⟨[], ⟨noted 2, 2⟩⟩] else if m = .all then [⟨[], ⟨noted 3, 3⟩⟩] else [] := by
  cases m <;> simp [moved, tableL, table, parseSlash, Holding.empty, Verb.method, renumber]

private theorem moved_mids : (tableL .empty moved).middlewares = [⟨noted 1, 1⟩, ⟨noted 0, 0⟩] := by
  simp [moved, tableL, table, parseSlash, Holding.empty, renumber]

/-- C169: OPTIONS, for which no handler can be registered (C158), now runs the one registered for GET, and GET does not;
the handlers without a path run in the order of the vector. -/
theorem C169_options : FairFL moved ∧ ∃ r, execFL Router.new moved = .ok r ∧
    Router.run true r (reqTo .options) [] = .ok [1, 0, 2, 3] ∧ Router.run true r (reqTo .get) [] = .ok [1, 0, 3] := by
  obtain ⟨r, hr⟩ := (C169_panics moved moved_fair).2 (by
    simp [moved, FieldFitsL, FieldFits, tableL, table, parseSlash, Holding.empty, Verb.method, Holding.Fits]
    intro m e
    cases m <;> simp
    all_goals (rintro rfl; simp))
  have hb : ∀ m, ∀ e ∈ (tableL .empty moved).trees m, e.data.index < 2 ^ 64 - 1 := by
    intro m e
    rw [moved_trees]
    cases m <;> simp
    all_goals (rintro rfl; simp)
  have hbm : ∀ c ∈ (tableL .empty moved).middlewares, c.index < 2 ^ 64 - 1 := by
    rw [moved_mids]; simp
  refine ⟨moved_fair, r, hr, ?_, ?_⟩
  · rw [C169_one moved_fair hr hb hbm true (reqTo .options) [⟨[], ⟨noted 2, 2⟩⟩] [⟨[], ⟨noted 3, 3⟩⟩]
      (by rw [moved_trees]; exact .refl _) (by simp) (by rw [moved_trees]; exact .refl _) (by simp), moved_mids]
    simp [always, List.cons_merge_cons, List.merge_right, before, runDue, noted]
  · rw [C169_one moved_fair hr hb hbm true (reqTo .get) [] [⟨[], ⟨noted 3, 3⟩⟩]
      (by rw [moved_trees]; exact .refl _) (by simp) (by rw [moved_trees]; exact .refl _) (by simp), moved_mids]
    simp [always, List.cons_merge_cons, List.merge_right, before, runDue, noted]

/-- two handlers for GET whose numbers are exchanged, and one that is put into the tree of OPTIONS -/
private def rewritten : List (FCall (List Nat)) :=
  [.route .get c!"/" (noted 1), .route .get c!"/" (noted 2),
    .remakeTree (fun _ => id) .get (fun d => some ⟨d.origPath, ⟨d.data.closure, 1 - d.data.index⟩⟩),
    .insertTree .options c!"/" ⟨noted 3, 7⟩]

private theorem rewritten_fair : FairFL rewritten := by
  simp only [rewritten, FairFL, FairF]
  refine ⟨trivial, trivial, ⟨fun _ _ => .refl _, ?_⟩, trivial, trivial⟩
  intro d d' h
  obtain rfl := Option.some.inj h
  exact .inl rfl

private theorem rewritten_trees (m : RequestMethod) : (tableL .empty rewritten).trees m =
    if m = .options then [⟨[], ⟨noted 3, 7⟩⟩] else if m = .get then [⟨[], ⟨noted 1, 1⟩⟩, ⟨[], ⟨noted 2, 0⟩⟩] else [] := by
  cases m <;> simp [rewritten, tableL, table, parseSlash, Holding.empty, Verb.method]

private theorem rewritten_mids : (tableL .empty rewritten).middlewares = [] := by
  simp [rewritten, tableL, table, parseSlash, Holding.empty]

/-- C169: the handlers for GET now run in the other order, and OPTIONS has a handler. -/
theorem C169_rewritten : FairFL rewritten ∧ ∃ r, execFL Router.new rewritten = .ok r ∧
    Router.run true r (reqTo .get) [] = .ok [2, 1] ∧ Router.run true r (reqTo .options) [] = .ok [3] := by
  obtain ⟨r, hr⟩ := (C169_panics rewritten rewritten_fair).2 (by
    simp [rewritten, FieldFitsL, FieldFits, table, parseSlash, Holding.empty])
  have hb : ∀ m, ∀ e ∈ (tableL .empty rewritten).trees m, e.data.index < 2 ^ 64 - 1 := by
    intro m e
    rw [rewritten_trees]
    cases m <;> simp
    all_goals (rintro (rfl | rfl) <;> simp)
  have hbm : ∀ c ∈ (tableL .empty rewritten).middlewares, c.index < 2 ^ 64 - 1 := by
    rw [rewritten_mids]; simp
  refine ⟨rewritten_fair, r, hr, ?_, ?_⟩
  · rw [C169_one rewritten_fair hr hb hbm true (reqTo .get) [⟨[], ⟨noted 2, 0⟩⟩, ⟨[], ⟨noted 1, 1⟩⟩] []
      (by rw [rewritten_trees]; exact .swap _ _ _) (by simp) (by rw [rewritten_trees]; exact .refl _) (by simp),
      rewritten_mids]
    simp [always, List.merge_right, runDue, noted]
  · rw [C169_one rewritten_fair hr hb hbm true (reqTo .options) [⟨[], ⟨noted 3, 7⟩⟩] []
      (by rw [rewritten_trees]; exact .refl _) (by simp) (by rw [rewritten_trees]; exact .refl _) (by simp),
      rewritten_mids]
    simp [always, List.merge_right, runDue, noted]

end

end Octane
