import Verif.Proof.Wrap
import Verif.Props.Counter
/-
Property C170: the numbers of the handlers in a release build.
-/
namespace Octane
open Spec
variable {S : Type u}

/-! ## C170 -/

/-- C170: in a release build setting up a router never panics, whatever is written to the counters. -/
theorem C170_total (calls : List (WCall S)) (hf : FairWL calls) : ∃ r, execRL Router.new calls = .ok r := by
  obtain ⟨r, h, -⟩ := Router.execRL_inv calls hf Router.new [] 0 Router.InvN.new
  exact ⟨r, h⟩

/-- C170: where a build with overflow checks does not panic, the release build makes the same router. -/
theorem C170_checked {calls : List (WCall S)} {r : Router S} (h : execWL Router.new calls = .ok r) :
    execRL Router.new calls = .ok r :=
  Router.execRL_eq calls _ _ h

/-- C170: a program that writes no counter makes the same router in both builds, the one of the model with numbers of
any size, as long as it makes fewer than 2^64 registrations. -/
theorem C170_unwritten (calls : List (Call S)) (hf : FairL calls) (hn : (logOfL calls).length < 2 ^ 64) :
    ∃ r, execL Router.new calls = .ok r ∧ execWL Router.new (unwrittenL calls) = .ok r ∧
      execRL Router.new (unwrittenL calls) = .ok r := by
  obtain ⟨r, h⟩ := (C168_panics (unwrittenL calls) (Router.unwrittenL_fair calls hf)).2
    (Router.unwrittenL_fits 0 calls (by omega))
  exact ⟨r, Router.unwrittenL_exec calls _ _ h, h, C170_checked h⟩

theorem wrapped_inv {calls : List (WCall S)} (hf : FairWL calls) {r : Router S} (h : execRL Router.new calls = .ok r) :
    Router.InvN r (wrapped calls) ((numberedL 0 calls).2 % 2 ^ 64) := by
  obtain ⟨r', h1, h2⟩ := Router.execRL_inv calls hf Router.new [] 0 Router.InvN.new
  rw [h] at h1
  obtain rfl : r = r' := by simpa using h1
  simpa [wrapped, Router.modN] using h2

/-- C170: handlers run in the order of their numbers modulo 2^64: `M` is the registrations sorted by them. They have to
be different, smaller than the largest one, and those of the handlers without a path in the order in which these were
added. -/
theorem C170_by_number {calls : List (WCall S)} (hf : FairWL calls) {r : Router S}
    (h : execRL Router.new calls = .ok r) (hp : PathlessInOrder (wrapped calls))
    (hb : ∀ e ∈ wrapped calls, e.2 < 2 ^ 64 - 1)
    (M : List (Reg S × Nat)) (hM : M.Perm (wrapped calls)) (ho : M.Pairwise fun a b => a.2 < b.2)
    (uv : Bool) (req : Request) (hm : req.requestLine.method ≠ .all) (s : S) :
    Router.run uv r req s = replay uv req (M.map (·.1)) s := by
  have hi := wrapped_inv hf h
  have hmid : Router.midsN M = Router.midsN (wrapped calls) :=
    Router.sorted_unique (hM.flatMap_right _) (Router.midsN_ord M (ho.imp fun hab _ _ => hab))
      (Router.midsN_ord _ hp)
  exact Router.runN_eq (hi.perm hM hmid) ho (fun e he => hb e (hM.mem_iff.1 he)) uv req hm s

/-- The full claim: as long as the counter is only ever raised, handlers run in the order in which they were registered
(as they do in a build with overflow checks, `C168_raised_partial`). -/
def C170_statement : Prop :=
  ∀ {S : Type} (calls : List (WCall S)), FairWL calls → RaisingL 0 calls → ∀ r, execRL Router.new calls = .ok r →
    ∀ (uv : Bool) (req : Request), req.requestLine.method ≠ .all → ∀ s,
      Router.run uv r req s = replay uv req (wlog calls) s

/-- C170, partial: they do if no number reaches 2^64. Missing: those that do, see `C170_first`. -/
theorem C170_raised_partial {calls : List (WCall S)} (hf : FairWL calls) (hr : RaisingL 0 calls)
    (hfit : NumFitsL 0 calls) {r : Router S} (h : execRL Router.new calls = .ok r) (uv : Bool) (req : Request)
    (hm : req.requestLine.method ≠ .all) (s : S) :
    Router.run uv r req s = replay uv req (wlog calls) s := by
  obtain ⟨r', h1⟩ := (C168_panics calls hf).2 hfit
  have h2 := C170_checked h1
  rw [h] at h2
  obtain rfl : r = r' := by simpa using h2
  exact C168_raised_partial hf hr h1 uv req hm s

/-- C170: a handler whose number is the largest one makes requests panic, as in the other build. -/
theorem C170_last {calls : List (WCall S)} (hf : FairWL calls) {r : Router S} (h : execRL Router.new calls = .ok r)
    (A B : List (Reg S × Nat)) (hd : Closure S)
    (hN : wrapped calls = A ++ (⟨.everywhere, hd⟩, 2 ^ 64 - 1) :: B) (uv : Bool) (req : Request)
    (hm : req.requestLine.method ≠ .all)
    (hno : ∀ e ∈ A ++ B, e.1.target.applies uv req.requestLine.method req.requestLine.path = false)
    (hin : ∃ e ∈ A ++ B, e.1.target.inTree req.requestLine.method) (s : S) :
    Router.run uv r req s = .panic :=
  Router.run_last (wrapped_inv hf h) uv req hm A B hd hN hno hin s

/-! ### concrete cases -/

section
/-- a handler that notes its name and hands on -/
private def note (n : Nat) : Closure (List Nat) := fun _ s => .ok (s ++ [n], .next)
private def ordId : Router.AppendOrder (List Nat) := ⟨id, fun _ _ => id⟩
private def get0 : Request := ⟨⟨.get, [], .http11⟩, ⟨[], []⟩, [], []⟩
private theorem slash : Path.parse c!"/" = some [] := by decide

private theorem ordFair : (∀ m, (ordId.outer m).Perm m) ∧ ∀ meth t m, (ordId.inner meth t m).Perm m :=
  ⟨fun _ => .refl _, fun _ _ _ => .refl _⟩

/-- a counter raised to nearly the largest number, one handler, and a mounted router with one more -/
private def around : List (WCall (List Nat)) :=
  [.write (2 ^ 64 - 2), .add (note 1), .mount [.write 1, .route .get c!"/" (note 2)] ordId]

private theorem around_fair : FairWL around := by
  simp only [around, FairWL, FairW]
  exact ⟨by decide, trivial, ⟨⟨by decide, trivial, trivial⟩, ordFair.1, ordFair.2⟩, trivial⟩

private theorem around_numbers : wrapped around =
    [(⟨.everywhere, note 1⟩, 2 ^ 64 - 2), (⟨.on .get [], note 2⟩, 0)] := by
  simp [wrapped, around, numberedL, numbered, slash, Verb.target, Verb.method]

/-- C170: the handler registered second runs first, though the counter was only raised; the other build panics. -/
theorem C170_first : RaisingL 0 around ∧ execWL Router.new around = .panic ∧
    ∃ r, execRL Router.new around = .ok r ∧ Router.run true r get0 [] = .ok [2, 1] := by
  refine ⟨by simp [around, RaisingL, Raising], (C168_panics around around_fair).1.2 ?_, ?_⟩
  · simp [around, NumFitsL, NumFits, numberedL, numbered, slash]
  · obtain ⟨r, hr⟩ := C170_total around around_fair
    refine ⟨r, hr, ?_⟩
    rw [C170_by_number around_fair hr ?_ ?_ [(⟨.on .get [], note 2⟩, 0), (⟨.everywhere, note 1⟩, 2 ^ 64 - 2)] ?_ ?_ true
      get0 (by decide)]
    · rfl
    · rw [around_numbers]
      simp [PathlessInOrder]
    · rw [around_numbers]
      simp
    · rw [around_numbers]
      exact .swap _ _ _
    · simp

/-- C170: the full claim is false. -/
theorem C170_counterexample : ¬ C170_statement := by
  intro hs
  obtain ⟨h0, -, r, h1, h2⟩ := C170_first
  have h3 := hs around around_fair h0 r h1 true get0 (by decide) []
  rw [h2] at h3
  have h4 : replay true get0 (wlog around) [] = .ok [1, 2] := by
    have : wlog around = (wrapped around).map (·.1) := by simp [wlog, wrapped]
    rw [this, around_numbers]; rfl
  rw [h4] at h3
  simp at h3

/-- a program that raises the counter and stays below 2^64: the hypotheses of `C170_raised_partial` -/
example : FairWL [WCall.write 7, .add (note 1), .route .get c!"/" (note 2)] ∧
    RaisingL 0 [WCall.write 7, .add (note 1), .route .get c!"/" (note 2)] ∧
    NumFitsL 0 [WCall.write 7, .add (note 1), .route .get c!"/" (note 2)] := by
  simp [FairWL, FairW, RaisingL, Raising, NumFitsL, NumFits, numbered]

/-- a program without writes and with a mounted router: the hypotheses of `C170_unwritten` -/
example : FairL [Call.add (note 1), .mount [.route .get c!"/" (note 2)] ordId] ∧
    (logOfL [Call.add (note 1), .mount [.route .get c!"/" (note 2)] ordId]).length = 2 := by
  refine ⟨?_, by simp [logOfL, logOf, slash]⟩
  simp only [FairL, Fair]
  exact ⟨trivial, ⟨⟨trivial, trivial⟩, ordFair.1, ordFair.2⟩, trivial⟩

private theorem slashOther : Path.parse c!"/other" = some [c!"other"] := by decide

/-- a handler with the largest number: the hypotheses of `C170_last` -/
private def top1 : List (WCall (List Nat)) := [.route .get c!"/other" (note 1), .write (2 ^ 64 - 1), .add (note 2)]

example : ∃ r, execRL Router.new top1 = .ok r ∧ Router.run true r get0 [] = .panic := by
  have hf : FairWL top1 := by
    simp only [top1, FairWL, FairW]
    exact ⟨trivial, by decide, trivial, trivial⟩
  obtain ⟨r, h1⟩ := C170_total top1 hf
  refine ⟨r, h1, C170_last hf h1 [(⟨.on .get [c!"other"], note 1⟩, 0)] [] (note 2) ?_ true get0 (by decide) ?_ ?_ []⟩
  · simp [wrapped, top1, numberedL, numbered, slashOther, Verb.target, Verb.method]
  · intro e he
    rw [List.append_nil, List.mem_singleton] at he
    subst he
    decide
  · exact ⟨(⟨.on .get [c!"other"], note 1⟩, 0), by simp, rfl⟩

end

end Octane
