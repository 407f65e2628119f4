import Verif.Proof.Counter
import Verif.Props.Router
/-
Property C168: the numbers of the handlers, when the public counter of a router is written.
-/
namespace Octane
open Spec
variable {S : Type u}

/-! ## C168 -/

/-- C168: setting up a router panics exactly if some number does not fit into 64 bits. -/
theorem C168_panics (calls : List (WCall S)) (hf : FairWL calls) :
    (execWL Router.new calls = .panic ↔ ¬ NumFitsL 0 calls) ∧ (NumFitsL 0 calls → ∃ r, execWL Router.new calls = .ok r) := by
  obtain ⟨ok, bad⟩ := Router.execWL_inv calls hf Router.new [] 0 Router.InvN.new
  refine ⟨⟨fun h hfit => ?_, bad⟩, fun hfit => ?_⟩
  · obtain ⟨r, h1, -⟩ := ok hfit
    rw [h1] at h
    simp at h
  · obtain ⟨r, h1, -⟩ := ok hfit
    exact ⟨r, h1⟩

theorem C168_inv {calls : List (WCall S)} (hf : FairWL calls) {r : Router S} (h : execWL Router.new calls = .ok r) :
    NumFitsL 0 calls ∧ Router.InvN r (numberedL 0 calls).1 (numberedL 0 calls).2 := by
  obtain ⟨ok, bad⟩ := Router.execWL_inv calls hf Router.new [] 0 Router.InvN.new
  have hfit : NumFitsL 0 calls := by
    apply Classical.byContradiction
    intro hn
    rw [bad hn] at h
    simp at h
  obtain ⟨r', h1, h2⟩ := ok hfit
  rw [h] at h1
  obtain rfl : r = r' := by simpa using h1
  exact ⟨hfit, by simpa using h2⟩

/-- C168: handlers run in the order of their numbers, whatever was written: `M` is the registrations sorted by number.
The numbers have to be different, smaller than the largest one, and those of the handlers without a path in the order
in which these were added. -/
theorem C168_by_number {calls : List (WCall S)} (hf : FairWL calls) {r : Router S}
    (h : execWL Router.new calls = .ok r) (hp : PathlessInOrder (numberedL 0 calls).1)
    (hb : ∀ e ∈ (numberedL 0 calls).1, e.2 < 2 ^ 64 - 1)
    (M : List (Reg S × Nat)) (hM : M.Perm (numberedL 0 calls).1) (ho : M.Pairwise fun a b => a.2 < b.2)
    (uv : Bool) (req : Request) (hm : req.requestLine.method ≠ .all) (s : S) :
    Router.run uv r req s = replay uv req (M.map (·.1)) s := by
  obtain ⟨-, hi⟩ := C168_inv hf h
  have hmid : Router.midsN M = Router.midsN (numberedL 0 calls).1 :=
    Router.sorted_unique (hM.flatMap_right _) (Router.midsN_ord M (ho.imp fun hab _ _ => hab))
      (Router.midsN_ord _ hp)
  exact Router.runN_eq (hi.perm hM hmid) ho (fun e he => hb e (hM.mem_iff.1 he)) uv req hm s

/-- The full claim: whatever is written, handlers run in the order in which they were registered. -/
def C168_statement : Prop :=
  ∀ {S : Type} (calls : List (WCall S)), FairWL calls → ∀ r, execWL Router.new calls = .ok r →
    ∀ (uv : Bool) (req : Request), req.requestLine.method ≠ .all → ∀ s,
      Router.run uv r req s = replay uv req (wlog calls) s

/-- C168, partial: they do if the counter is only ever raised. Missing: writes that lower it. -/
theorem C168_raised_partial {calls : List (WCall S)} (hf : FairWL calls) (hr : RaisingL 0 calls) {r : Router S}
    (h : execWL Router.new calls = .ok r) (uv : Bool) (req : Request) (hm : req.requestLine.method ≠ .all) (s : S) :
    Router.run uv r req s = replay uv req (wlog calls) s := by
  obtain ⟨hfit, hi⟩ := C168_inv hf h
  obtain ⟨-, h2, h3⟩ := Router.raisingL_order 0 calls hr
  have hend := Router.fitsL_counter 0 calls hf hfit (by decide)
  refine Router.runN_eq hi h3 (fun e he => ?_) uv req hm s
  have := (h2 e he).2
  unfold u64Max
  omega

/-- C168, partial: the router then does what it does without the writes. -/
theorem C168_same_partial {calls : List (WCall S)} (hf : FairWL calls) (hr : RaisingL 0 calls) {r : Router S}
    (h : execWL Router.new calls = .ok r) (hn : (wlog calls).length < 2 ^ 64) :
    ∃ r', execL Router.new (plainL calls) = .ok r' ∧
      ∀ (uv : Bool) (req : Request) (s : S), req.requestLine.method ≠ .all →
        Router.run uv r req s = Router.run uv r' req s := by
  have hl : logOfL (plainL calls) = wlog calls := Router.plainL_log 0 calls
  obtain ⟨r', h1, h2⟩ := C12_run_is_replay (plainL calls) (Router.plainL_fair calls hf) (by rw [hl]; exact hn)
  exact ⟨r', h1, fun uv req s hm => by rw [h2 uv req s hm, hl, C168_raised_partial hf hr h uv req hm s]⟩

/-- C168: a handler with the largest number is never found by the scan: a request that only this handler applies to
panics as soon as one other handler is registered with a path for the method of the request or for every method. -/
theorem C168_last {calls : List (WCall S)} (hf : FairWL calls) {r : Router S} (h : execWL Router.new calls = .ok r)
    (A B : List (Reg S × Nat)) (hd : Closure S)
    (hN : (numberedL 0 calls).1 = A ++ (⟨.everywhere, hd⟩, 2 ^ 64 - 1) :: B) (uv : Bool) (req : Request)
    (hm : req.requestLine.method ≠ .all)
    (hno : ∀ e ∈ A ++ B, e.1.target.applies uv req.requestLine.method req.requestLine.path = false)
    (hin : ∃ e ∈ A ++ B, e.1.target.inTree req.requestLine.method) (s : S) :
    Router.run uv r req s = .panic :=
  Router.run_last (C168_inv hf h).2 uv req hm A B hd hN hno hin s

/-! ### concrete cases -/

section
/-- a handler that notes its name and hands on -/
private def note (n : Nat) : Closure (List Nat) := fun _ s => .ok (s ++ [n], .next)
private def ordId : Router.AppendOrder (List Nat) := ⟨id, fun _ _ => id⟩
private def get0 : Request := ⟨⟨.get, [], .http11⟩, ⟨[], []⟩, [], []⟩

/-- an application that mounts a router whose counter was set to 5 for one handler and back to 0 for the next -/
private def lowered : List (WCall (List Nat)) :=
  [.mount [.write 5, .add (note 1), .write 0, .route .get c!"/" (note 2)] ordId]
/-- the same with two handlers without a path -/
private def lowered2 : List (WCall (List Nat)) :=
  [.mount [.write 5, .add (note 1), .write 0, .add (note 2)] ordId]
private def raised : List (WCall (List Nat)) :=
  [.add (note 1), .mount [.write 10, .route .get c!"/" (note 2)] ordId, .add (note 3)]
private def largest : List (WCall (List Nat)) :=
  [.route .get c!"/other" (note 1), .mount [.write (2 ^ 64 - 2), .add (note 2), .write 0] ordId]

private theorem ordFair : (∀ m, (ordId.outer m).Perm m) ∧ ∀ meth t m, (ordId.inner meth t m).Perm m :=
  ⟨fun _ => .refl _, fun _ _ _ => .refl _⟩

private theorem slash : Path.parse c!"/" = some [] := by decide
private theorem slashOther : Path.parse c!"/other" = some [c!"other"] := by decide

private theorem lowered_numbers : numberedL 0 lowered = ([(⟨.everywhere, note 1⟩, 5), (⟨.on .get [], note 2⟩, 0)], 1) := by
  simp [lowered, numberedL, numbered, slash, Verb.target, Verb.method]

private theorem lowered_fair : FairWL lowered := by
  simp only [lowered, FairWL, FairW]
  exact ⟨⟨⟨by decide, trivial, by decide, trivial, trivial⟩, ordFair.1, ordFair.2⟩, trivial⟩

private theorem lowered_fits : NumFitsL 0 lowered := by
  simp [lowered, NumFitsL, NumFits, numberedL, numbered, slash]

/-- C168: the handler registered second runs first. -/
theorem C168_lowered : ∃ r, execWL Router.new lowered = .ok r ∧ Router.run true r get0 [] = .ok [2, 1] := by
  obtain ⟨r, hr⟩ := (C168_panics lowered lowered_fair).2 lowered_fits
  refine ⟨r, hr, ?_⟩
  rw [C168_by_number lowered_fair hr ?_ ?_ [(⟨.on .get [], note 2⟩, 0), (⟨.everywhere, note 1⟩, 5)] ?_ ?_ true get0
    (by decide)]
  · rfl
  · rw [lowered_numbers]
    simp [PathlessInOrder]
  · rw [lowered_numbers]
    simp
  · rw [lowered_numbers]
    exact .swap _ _ _
  · simp

/-- C168: the full claim is false. -/
theorem C168_counterexample : ¬ C168_statement := by
  intro hs
  obtain ⟨r, h1, h2⟩ := C168_lowered
  have h3 := hs lowered lowered_fair r h1 true get0 (by decide) []
  rw [h2] at h3
  have h4 : replay true get0 (wlog lowered) [] = .ok [1, 2] := by
    rw [wlog, lowered_numbers]; rfl
  rw [h4] at h3
  simp at h3

/-- C168: handlers without a path are not sorted: here the one numbered 5 runs before the one numbered 0, so the
condition of `C168_by_number` on them is needed. -/
theorem C168_pathless : ∃ r, execWL Router.new lowered2 = .ok r ∧
    (numberedL 0 lowered2).1 = [(⟨.everywhere, note 1⟩, 5), (⟨.everywhere, note 2⟩, 0)] ∧
    Router.run true r get0 [] = .ok [1, 2] := by
  exact ⟨_, rfl, rfl, rfl⟩

private theorem raised_numbers : numberedL 0 raised =
    ([(⟨.everywhere, note 1⟩, 0), (⟨.on .get [], note 2⟩, 11), (⟨.everywhere, note 3⟩, 12)], 13) := by
  simp [raised, numberedL, numbered, slash, Verb.target, Verb.method]

private theorem raised_fair : FairWL raised := by
  simp only [raised, FairWL, FairW]
  exact ⟨trivial, ⟨⟨by decide, trivial, trivial⟩, ordFair.1, ordFair.2⟩, trivial, trivial⟩

/-- a mounted router whose counter was raised: the hypotheses of `C168_raised_partial` and `C168_same_partial` hold -/
example : FairWL raised ∧ RaisingL 0 raised ∧ (wlog raised).length = 3 ∧
    ∃ r, execWL Router.new raised = .ok r ∧ Router.run true r get0 [] = .ok [1, 2, 3] := by
  have hr : RaisingL 0 raised := by simp [raised, RaisingL, Raising]
  obtain ⟨r, h1⟩ := (C168_panics raised raised_fair).2 (by
    simp [raised, NumFitsL, NumFits, numberedL, numbered, slash])
  refine ⟨raised_fair, hr, by simp [wlog, raised_numbers], r, h1, ?_⟩
  rw [C168_raised_partial raised_fair hr h1 true get0 (by decide), wlog, raised_numbers]
  rfl

private theorem largest_numbers : numberedL 0 largest =
    ([(⟨.on .get [c!"other"], note 1⟩, 0), (⟨.everywhere, note 2⟩, 2 ^ 64 - 1)], 1) := by
  simp [largest, numberedL, numbered, slashOther, Verb.target, Verb.method]

/-- an application whose only handler for `/` is mounted with the largest number: set-up succeeds, the request
panics -/
example : ∃ r, execWL Router.new largest = .ok r ∧ Router.run true r get0 [] = .panic := by
  have hf : FairWL largest := by
    simp only [largest, FairWL, FairW]
    exact ⟨trivial, ⟨⟨by decide, trivial, by decide, trivial⟩, ordFair.1, ordFair.2⟩, trivial⟩
  obtain ⟨r, h1⟩ := (C168_panics largest hf).2 (by
    simp [largest, NumFitsL, NumFits, numberedL, numbered, slashOther])
  refine ⟨r, h1, C168_last hf h1 [(⟨.on .get [c!"other"], note 1⟩, 0)] [] (note 2) ?_ true get0 (by decide) ?_ ?_ []⟩
  · rw [largest_numbers]; rfl
  · intro e he
    rw [List.append_nil, List.mem_singleton] at he
    subst he
    decide
  · exact ⟨(⟨.on .get [c!"other"], note 1⟩, 0), by simp, rfl⟩

/-- a set-up that panics: the second handler would need the number 2^64 on the counter -/
example : FairWL [WCall.write (2 ^ 64 - 1), .add (note 1)] ∧
    execWL Router.new [WCall.write (2 ^ 64 - 1), .add (note 1)] = .panic := by
  have hf : FairWL [WCall.write (2 ^ 64 - 1), .add (note 1)] := by
    simp only [FairWL, FairW]; exact ⟨by decide, trivial, trivial⟩
  exact ⟨hf, (C168_panics _ hf).1.2 (by simp [NumFitsL, NumFits, numbered])⟩

end

end Octane
