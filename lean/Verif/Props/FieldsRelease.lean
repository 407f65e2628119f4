import Verif.Proof.FieldsRelease
import Verif.Props.RouterFields
/-
Property C174: what a router runs when its public fields have been written, in a release build.
-/
namespace Octane
open Spec
variable {S : Type u}

/-! ## C174 -/

/-- C174: setting up never panics. -/
theorem C174_runs (calls : List (FCall S)) (hf : FairFL calls) : ∃ r, execFRL Router.new calls = .ok r := by
  obtain ⟨r, h, -⟩ := Router.execFRL_inv calls hf Router.new .empty Router.InvT.new
  exact ⟨r, h⟩

/-- C174: where a build with overflow checks does not panic, the release build makes the same router. -/
theorem C174_checked {calls : List (FCall S)} {r : Router S} (h : execFL Router.new calls = .ok r) :
    execFRL Router.new calls = .ok r :=
  Router.execFRL_eq calls _ _ h

private theorem release_table {calls : List (FCall S)} (hf : FairFL calls) {r : Router S}
    (h : execFRL Router.new calls = .ok r) : Router.InvT r (tableRL .empty calls) := by
  obtain ⟨r', h1, h2⟩ := Router.execFRL_inv calls hf Router.new .empty Router.InvT.new
  rw [h] at h1
  obtain rfl := Res.ok.inj h1
  exact h2

/-- C174: what runs is the merge of the same three sequences as in the other build (C169), with numbers counted modulo
2^64. All numbers have to be below the largest one. -/
theorem C174_merge {calls : List (FCall S)} (hf : FairFL calls) {r : Router S} (h : execFRL Router.new calls = .ok r)
    (hb : ∀ m, ∀ e ∈ (tableRL .empty calls).trees m, e.data.index < 2 ^ 64 - 1)
    (hbm : ∀ c ∈ (tableRL .empty calls).middlewares, c.index < 2 ^ 64 - 1) (uv : Bool) (req : Request) :
    ∃ A B, A.Perm (due uv req.requestLine.path ((tableRL .empty calls).trees req.requestLine.method)) ∧
      A.Pairwise (fun a b => a.data.index ≤ b.data.index) ∧
      B.Perm (due uv req.requestLine.path ((tableRL .empty calls).trees .all)) ∧
      B.Pairwise (fun a b => a.data.index ≤ b.data.index) ∧
      ∀ s, Router.run uv r req s =
        runDue req (List.merge A (List.merge B (always (tableRL .empty calls).middlewares) before) before) s :=
  Router.runT_eq (release_table hf h) uv req hb hbm

/-- C174: if no two handlers of a tree that match have the same number modulo 2^64, there is only one such merge. -/
theorem C174_one {calls : List (FCall S)} (hf : FairFL calls) {r : Router S} (h : execFRL Router.new calls = .ok r)
    (hb : ∀ m, ∀ e ∈ (tableRL .empty calls).trees m, e.data.index < 2 ^ 64 - 1)
    (hbm : ∀ c ∈ (tableRL .empty calls).middlewares, c.index < 2 ^ 64 - 1) (uv : Bool) (req : Request)
    (A B : List (MatchedPath (Closures S)))
    (hA : A.Perm (due uv req.requestLine.path ((tableRL .empty calls).trees req.requestLine.method)))
    (sA : A.Pairwise fun a b => a.data.index < b.data.index)
    (hB : B.Perm (due uv req.requestLine.path ((tableRL .empty calls).trees .all)))
    (sB : B.Pairwise fun a b => a.data.index < b.data.index) (s : S) :
    Router.run uv r req s =
      runDue req (List.merge A (List.merge B (always (tableRL .empty calls).middlewares) before) before) s := by
  obtain ⟨A', B', a1, a2, b1, b2, hrun⟩ := C174_merge hf h hb hbm uv req
  have one : ∀ (X Y : List (MatchedPath (Closures S))), X.Perm Y → X.Pairwise (fun a b => a.data.index ≤ b.data.index) →
      Y.Pairwise (fun a b => a.data.index < b.data.index) → X = Y := by
    intro X Y hp hX hY
    have hX' : X.Pairwise fun a b => a.data.index < b.data.index := by
      have hn : (X.map fun a => a.data.index).Nodup := by
        rw [(hp.map fun a => a.data.index).nodup_iff, List.Nodup, List.pairwise_map]
        exact hY.imp fun hab => by omega
      rw [List.Nodup, List.pairwise_map] at hn
      exact (hX.and hn).imp fun hab => by omega
    refine List.Perm.eq_of_pairwise (le := fun a b => a.data.index < b.data.index) ?_ hX' hY hp
    intro a b _ _ h1 h2
    omega
  rw [hrun, one A' A (a1.trans hA.symm) a2 sA, one B' B (b1.trans hB.symm) b2 sB]

/-! ### concrete case -/

section
private def noted (n : Nat) : Closure (List Nat) := fun _ s => .ok (s ++ [n], .next)
private def anyOrd : Router.AppendOrder (List Nat) := ⟨id, fun _ _ => id⟩
private def reqTo (m : RequestMethod) : Request := ⟨⟨m, [], .http11⟩, ⟨[], []⟩, [], []⟩
private theorem parseSlash : Path.parse c!"/" = some [] := by decide

/-- a handler with the number 3, and a router with a handler with the number 2^64 - 2, mounted when the counter is 4 -/
private def around : List (FCall (List Nat)) :=
  [.counter 3, .add (noted 1), .mount [.insertTree .get c!"/" ⟨noted 2, 2 ^ 64 - 2⟩] anyOrd]

private theorem around_fair : FairFL around := by
  simp only [around, FairFL, FairF]
  exact ⟨trivial, trivial, ⟨by simp, fun _ => .refl _, fun _ _ _ => .refl _⟩, trivial⟩

private theorem around_trees (m : RequestMethod) : (tableRL .empty around).trees m =
    if m = .get then [⟨[], ⟨noted 2, 2⟩⟩] else [] := by
  cases m <;> simp [around, tableRL, tableR, table, parseSlash, Holding.empty, renumberR]

private theorem around_mids : (tableRL .empty around).middlewares = [⟨noted 1, 3⟩] := by
  simp [around, tableRL, tableR, table, parseSlash, Holding.empty]

/-- C174: where the other build panics, in this one the number of the mounted handler becomes 2, and it runs before the
handler that was added first. -/
theorem C174_around : FairFL around ∧ execFL Router.new around = .panic ∧
    ∃ r, execFRL Router.new around = .ok r ∧ Router.run true r (reqTo .get) [] = .ok [2, 1] := by
  obtain ⟨r, hr⟩ := C174_runs around around_fair
  have hb : ∀ m, ∀ e ∈ (tableRL .empty around).trees m, e.data.index < 2 ^ 64 - 1 := by
    intro m e
    rw [around_trees]
    cases m <;> simp
    all_goals (rintro rfl; simp)
  have hbm : ∀ c ∈ (tableRL .empty around).middlewares, c.index < 2 ^ 64 - 1 := by
    rw [around_mids]; simp
  refine ⟨around_fair, (C169_panics around around_fair).1.2 ?_, r, hr, ?_⟩
  · intro h
    simp only [around, FieldFitsL, FieldFits, Holding.Fits] at h
    have := h.2.2.1.2.1 .get ⟨[], ⟨noted 2, 2 ^ 64 - 2⟩⟩ (by simp [tableL, table, parseSlash, Holding.empty])
    simp [table] at this
  · rw [C174_one around_fair hr hb hbm true (reqTo .get) [⟨[], ⟨noted 2, 2⟩⟩] []
      (by rw [around_trees]; exact .refl _) (by simp) (by rw [around_trees]; exact .refl _) (by simp), around_mids]
    simp [always, List.cons_merge_cons, List.merge_right, before, runDue, noted]

end

end Octane
