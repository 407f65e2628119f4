import Verif.Props.Target
/-
C79: the query does not lead to another path.
-/
namespace Octane
open Spec
variable {W : Type}

/-- a name followed by `..` is as if neither were there -/
theorem resolve_cancel (ps : List Str) (x : Str) (h : isName x = true) (rest : List Str) :
    resolve (ps ++ x :: c!".." :: rest) = resolve (ps ++ rest) := by
  have hx : isUp x = false := by
    cases hu : isUp x with
    | false => rfl
    | true => rw [isUp, beq_iff_eq] at hu; subst hu; exact absurd h (by decide)
  have key : ∀ (l r : List Str) (up : Nat), survivorsRev up (l ++ c!".." :: x :: r) = survivorsRev up (l ++ r) := by
    intro l r
    induction l with
    | nil =>
      intro up
      have hu : isUp c!".." = true := by decide
      simp [survivorsRev, hu, hx, h]
    | cons s l ih =>
      intro up
      simp only [List.cons_append, survivorsRev, ih]
  unfold resolve
  have := key rest.reverse ps.reverse 0
  simp only [List.reverse_append, List.reverse_cons, List.append_assoc, List.cons_append, List.nil_append] at this ⊢
  rw [this]

/-- the `..` of a list of pieces that nothing before them in the list answers to -/
def pend : Nat → List Str → Nat
  | up, [] => up
  | up, s :: l => if isUp s then pend (up + 1) l else if isName s then pend (up - 1) l else pend up l

theorem survivorsRev_append (l r : List Str) (up : Nat) :
    survivorsRev up (l ++ r) = survivorsRev up l ++ survivorsRev (pend up l) r := by
  induction l generalizing up with
  | nil => simp [survivorsRev, pend]
  | cons s l ih =>
    simp only [List.cons_append, survivorsRev, pend]
    by_cases h1 : isUp s = true
    · simp [h1, ih]
    · by_cases h2 : isName s = true
      · cases up <;> simp [h1, h2, ih]
      · simp [h1, h2, ih]

theorem pend_append (l r : List Str) (up : Nat) : pend up (l ++ r) = pend (pend up l) r := by
  induction l generalizing up with
  | nil => simp [pend]
  | cons s l ih =>
    simp only [List.cons_append, pend, ih]
    split
    · rfl
    · split <;> rfl

theorem pend_le (m : List Str) (k : Nat)
    (h : ∀ j, (m.take j).countP isUp ≤ (m.take j).countP isName + k) : pend 0 m.reverse ≤ k := by
  induction m generalizing k with
  | nil => simp [pend]
  | cons s m ih =>
    rw [List.reverse_cons, pend_append]
    have hs := fun j => h (j + 1)
    simp only [List.take_succ_cons, List.countP_cons] at hs
    simp only [pend]
    by_cases h1 : isUp s = true
    · have h2 : isName s = false := by
        rw [isUp, beq_iff_eq] at h1; subst h1; decide
      simp only [h1, h2, if_true, Bool.false_eq_true, if_false, Nat.add_zero] at hs ⊢
      have h0 := hs 0
      simp only [List.take_zero, List.countP_nil] at h0
      have := ih (k - 1) fun j => by have := hs j; omega
      omega
    · simp only [h1, Bool.false_eq_true, if_false, Nat.add_zero] at hs ⊢
      by_cases h2 : isName s = true
      · simp only [h2, if_true] at hs ⊢
        have := ih (k + 1) fun j => by have := hs j; omega
        omega
      · simp only [h2, Bool.false_eq_true, if_false, Nat.add_zero] at hs ⊢
        exact ih k hs

/-- a name stays if what follows it does not climb above it -/
theorem resolve_keeps (ps : List Str) (x : Str) (h : isName x = true) (more : List Str) (hc : ¬ Climbs more) :
    resolve (ps ++ x :: more) = resolve ps ++ x :: resolve more := by
  have hx : isUp x = false := by
    cases hu : isUp x with
    | false => rfl
    | true => rw [isUp, beq_iff_eq] at hu; subst hu; exact absurd h (by decide)
  have hp : pend 0 more.reverse = 0 := Nat.le_zero.1 (pend_le more 0 fun j =>
    Nat.not_lt.1 fun hj => hc ⟨j, by omega⟩)
  unfold resolve
  rw [List.reverse_append, List.reverse_cons, List.append_assoc, survivorsRev_append, hp]
  simp [survivorsRev, hx, h]

/-- every registration is for a path of literal segments without `?` -/
def Spec.Literal (e : Target) : Prop :=
  match e with
  | .on _ p | .anyMethod p => ∀ a ∈ p, a.head? ≠ some ':' ∧ '?' ∉ a
  | .everywhere => False

/-- The full claim of C79: if all handlers are registered for literal paths other than the path before
the `?`, then whatever the query is, none of them runs and the answer is 404. -/
def C79_statement : Prop :=
  ∀ (W : Type) (sv : Server W) (calls : List (Call (W × Response))), FairL calls →
    (logOfL calls).length < 2 ^ 64 → execL Router.new calls = .ok sv.router →
    (∀ k, sv.allocOk k = true) → (∀ e ∈ logOfL calls, Literal e.target) →
    ∀ (q : WireReq) (ps : List Str) (last query : Str) (more : List Str), q.Good →
      q.pieces = ps ++ (last ++ '?' :: query) :: more →
      (∀ e ∈ logOfL calls, ∀ m p, e.target = .on m p ∨ e.target = .anyMethod p → p ≠ resolve (ps ++ [last])) →
      ∀ m, (q.method, m) ∈ methodTable →
      (q.version = c!"1.1" → ∃ h ∈ q.headers, lowered h.1 = c!"host") → q.body.length ≤ i64Max →
      ∀ (s : Sock), s.bytes = q.bytes → ∀ w, 0 ≤ sv.clock w →
      ∃ bytes v, sv.serve w s = .ok (w, bytes) ∧ ClientParses bytes v ∧ v.code = c!"404"

/-- What holds of C79: no handler runs if the query does not climb, that is if no prefix of it has more
`..` than names. Missing: queries that do, see `C79_reaches`. -/
theorem C79_other_partial (sv : Server W) (calls : List (Call (W × Response))) (hf : FairL calls)
    (hn : (logOfL calls).length < 2 ^ 64) (hsetup : execL Router.new calls = .ok sv.router)
    (halloc : ∀ k, sv.allocOk k = true) (hlit : ∀ e ∈ logOfL calls, Literal e.target)
    (q : WireReq) (ps : List Str) (last query : Str) (more : List Str) (hq : q.Good)
    (hp : q.pieces = ps ++ (last ++ '?' :: query) :: more) (hclimb : ¬ Climbs more)
    (m : RequestMethod) (hm : (q.method, m) ∈ methodTable)
    (hhost : q.version = c!"1.1" → ∃ h ∈ q.headers, lowered h.1 = c!"host")
    (hmax : q.body.length ≤ i64Max) (s : Sock) (hb : s.bytes = q.bytes) (w : W) (hc : 0 ≤ sv.clock w) :
    ∃ bytes v, sv.serve w s = .ok (w, bytes) ∧ ClientParses bytes v ∧ v.code = c!"404" := by
  obtain ⟨bytes, v, h1, h2, h3, -⟩ := C69_unmatched sv calls hf hn hsetup q hq s hb (fun k _ => halloc k) hmax m hm hhost
    (by
      intro e he
      rw [hp, resolve_keeps _ _ (isName_query _ _) _ hclimb]
      have key : ∀ uv p, (∀ a ∈ p, a.head? ≠ some ':' ∧ '?' ∉ a) →
          ¬ PatMatch uv p (resolve ps ++ (last ++ '?' :: query) :: resolve more) := by
        intro uv p hpl h
        have hmem : last ++ '?' :: query ∈ p := by
          cases uv with
          | false =>
            simp only [PatMatch, Bool.false_eq_true, if_false] at h
            rw [h.1]; simp
          | true =>
            simp only [PatMatch, if_true] at h
            obtain ⟨hl, h⟩ := h
            have hlt : (resolve ps).length < p.length := by rw [hl]; simp
            have h1 : p[(resolve ps).length]? = some p[(resolve ps).length] := List.getElem?_eq_getElem hlt
            rcases h _ _ (last ++ '?' :: query) h1 (by simp) with h2 | h2
            · exact absurd h2 (hpl _ (List.getElem_mem _)).1
            · rw [← h2]; exact List.getElem_mem _
        exact (hpl _ hmem).2 (by simp)
      have hv := hlit e he
      cases ht : e.target with
      | everywhere => rw [ht] at hv; exact hv.elim
      | on m' p => rw [ht] at hv; simp [Target.applies, key _ p hv]
      | anyMethod p => rw [ht] at hv; simp [Target.applies, key _ p hv]) w hc
  exact ⟨bytes, v, h1, h2, h3⟩

/-- How far the failure goes: every route can be reached through the query of any path of the same
directory. `…/last?query/../rest` is answered as `…/rest`. -/
theorem C79_reaches (sv : Server W) (calls : List (Call (W × Response))) (hf : FairL calls)
    (hn : (logOfL calls).length < 2 ^ 64) (hsetup : execL Router.new calls = .ok sv.router)
    (halloc : ∀ k, sv.allocOk k = true) (hblind : ∀ e ∈ logOfL calls, Blind e.handler)
    (q : WireReq) (ps : List Str) (last query : Str) (rest : List Str)
    (hp : q.pieces = ps ++ rest) (hq : q.Good)
    (hq' : { q with pieces := ps ++ (last ++ '?' :: query) :: c!".." :: rest }.Good)
    (hmax : q.body.length ≤ i64Max) (s s' : Sock) (hb : s.bytes = q.bytes)
    (hb' : s'.bytes = { q with pieces := ps ++ (last ++ '?' :: query) :: c!".." :: rest }.bytes) (w : W) :
    sv.serve w s' = sv.serve w s := by
  refine (serve_same sv calls hf hn hsetup hblind q _ hq hq' s s' hb hb' (fun k _ => halloc k) hmax ?_ w).symm
  intro e he m
  rw [hp, resolve_cancel _ _ (isName_query _ _)]

namespace ClimbExample
open TargetExample

/-- `GET /p?/../a` -/
def pieces : List Str := [] :: [c!"p?", c!"..", c!"a"]

theorem good : { q [c!"a"] with pieces := pieces }.Good := by
  have g := TargetExample.good [c!"a"] (by decide) (by decide)
  refine ⟨⟨g.method, ⟨by decide, by decide⟩, ?_, g.version, g.headers, g.length⟩, g.cookies⟩
  rintro ⟨k, hk⟩
  match k, hk with
  | 0, hk => revert hk; decide
  | 1, hk => revert hk; decide
  | 2, hk => revert hk; decide
  | 3, hk => revert hk; decide
  | k + 4, hk =>
    have : pieces.take (k + 4) = pieces := List.take_of_length_le (by simp [pieces])
    rw [show ({ q [c!"a"] with pieces := pieces } : WireReq).pieces = pieces from rfl, this] at hk
    revert hk; decide

def sock : Sock := ⟨[{ q [c!"a"] with pieces := pieces }.bytes], .eof⟩

theorem reached (router : Router (Unit × Response)) (hr : execL Router.new calls = .ok router) :
    ({ empty with router } : Server Unit).serve () sock =
      ({ empty with router } : Server Unit).serve () (TargetExample.sock [c!"a"]) :=
  C79_reaches { empty with router } calls (by simp [calls, FairL, Fair]) (by rw [log]; decide) hr
    (fun _ => rfl) (by rw [log]; simp [Blind]; intro _ _; rfl) (q [c!"a"]) [[]] c!"p" [] [c!"a"] rfl
    (TargetExample.good _ (by decide) (by decide)) good (by decide) _ _ (sock_bytes _)
    (by simp [sock, Sock.bytes, pieces]) ()

end ClimbExample

open TargetExample in
/-- C79 is false of the code: `GET /p?/../a` runs the handler of `/a`. -/
theorem C79_counterexample : ¬ C79_statement := by
  intro h
  obtain ⟨router, hr, -⟩ := C12_run_is_replay calls (by simp [calls, FairL, Fair]) (by rw [log]; decide)
  obtain ⟨b, v, h1, h2, h3⟩ := h Unit { empty with router } calls (by simp [calls, FairL, Fair]) (by rw [log]; decide) hr
    (fun _ => rfl) (by rw [log]; simp [Literal]) { q [c!"a"] with pieces := ClimbExample.pieces } [[]] c!"p" []
    [c!"..", c!"a"] ClimbExample.good rfl (by rw [log]; simp; decide) .get (by decide +kernel)
    (by intro h; cases h) (by decide) ClimbExample.sock (by simp [ClimbExample.sock, Sock.bytes]) () (by simp [empty])
  obtain ⟨b', v', h1', h2', h3'⟩ := plain { empty with router } ⟨router, rfl⟩ hr
  rw [ClimbExample.reached router hr, h1'] at h1
  simp only [Io.ok.injEq, Prod.mk.injEq, true_and] at h1
  subst h1
  rw [h2.unique h2', h3'] at h3
  exact absurd h3 (by decide)

/-- a query with `..` that does not climb: `/p?x/y/../z` -/
example : ¬ Climbs [c!"y", c!"..", c!"z"] := by
  rintro ⟨k, hk⟩
  match k, hk with
  | 0, hk => revert hk; decide
  | 1, hk => revert hk; decide
  | 2, hk => revert hk; decide
  | k + 3, hk =>
    rw [List.take_of_length_le (by simp)] at hk
    revert hk; decide

namespace ClimbExample
open TargetExample

/-- `GET /p?x/y/../z` -/
def level : List Str := [] :: [c!"p?x", c!"y", c!"..", c!"z"]

theorem level_good : { q [c!"a"] with pieces := level }.Good := by
  have g := TargetExample.good [c!"a"] (by decide) (by decide)
  refine ⟨⟨g.method, ⟨by decide, by decide⟩, ?_, g.version, g.headers, g.length⟩, g.cookies⟩
  rintro ⟨k, hk⟩
  match k, hk with
  | 0, hk => revert hk; decide
  | 1, hk => revert hk; decide
  | 2, hk => revert hk; decide
  | 3, hk => revert hk; decide
  | 4, hk => revert hk; decide
  | k + 5, hk =>
    have : level.take (k + 5) = level := List.take_of_length_le (by simp [level])
    rw [show ({ q [c!"a"] with pieces := level } : WireReq).pieces = level from rfl, this] at hk
    revert hk; decide

/-- the hypotheses of `C79_other_partial` are met -/
example (router : Router (Unit × Response)) (hr : execL Router.new calls = .ok router) :
    ∃ bytes v, ({ empty with router } : Server Unit).serve ()
      ⟨[{ q [c!"a"] with pieces := level }.bytes], .eof⟩ = .ok ((), bytes) ∧ ClientParses bytes v ∧ v.code = c!"404" := by
  refine C79_other_partial { empty with router } calls (by simp [calls, FairL, Fair]) (by rw [log]; decide) hr
    (fun _ => rfl) (by rw [log]; simp [Literal]) { q [c!"a"] with pieces := level } [[]] c!"p" c!"x"
    [c!"y", c!"..", c!"z"] level_good rfl ?_ .get (by decide +kernel) (by intro h; cases h) (by decide) _
    (by simp [Sock.bytes]) () (by simp [empty])
  rintro ⟨k, hk⟩
  match k, hk with
  | 0, hk => revert hk; decide
  | 1, hk => revert hk; decide
  | 2, hk => revert hk; decide
  | k + 3, hk =>
    rw [List.take_of_length_le (by simp)] at hk
    revert hk; decide

end ClimbExample

end Octane
