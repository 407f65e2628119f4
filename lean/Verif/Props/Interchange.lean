import Verif.Proof.Interchange
import Verif.Props.Response
/-
C160: two tables of registrations can stand for each other exactly if every request calls the same handlers with the
same variables. C161: finitely many test requests suffice to find out.
-/
namespace Octane
open Spec Query

/-- A server with nothing but noting handlers. -/
def noteServer (feat : Features) (r : Router (Notes × Response)) : Server Notes :=
  ⟨feat, fun _ => true, .asciiOnly, .id, fun _ => 0, r⟩

/-- a server with noting handlers leaves a note of the calls -/
theorem serve_noting (feat : Features) {name : Str} {m : RequestMethod} (hm : (name, m) ∈ methodTable) {path : PathBuf}
    (hs : ∀ x ∈ path, SegOk x) :
    ∃ bytes, ∀ (T : Table) (c : List (Call (Notes × Response))) (r : Router (Notes × Response)), T.length < 2 ^ 64 →
      FairL c → logOfL c = T.log noting → execL Router.new c = .ok r →
      (noteServer feat r).serve [] ⟨[testBytes name path], .eof⟩ = .ok (T.calls feat.urlVariables m path, bytes) := by
  obtain ⟨req, h1, h2, h3⟩ := serve_to (noteServer feat Router.new) hm hs
  obtain ⟨bytes, -, hb, -⟩ := C55_error_pages Unicode.asciiOnly feat.cookies MapOrder.id 0 25 (by decide)
  refine ⟨bytes, fun T c r hn hf hl hr => ?_⟩
  have := h3 c r hf (by rw [hl, table_length]; exact hn) hr []
  rw [hl, replay_noting, h1, h2] at this
  show Server.serve { noteServer feat Router.new with router := r } [] ⟨[bytesTo name ([] :: path)], .eof⟩ = _
  rw [this]
  rw [Res.bind_ok', if_pos (show Response.newEmpty.hasBody = false from rfl)]
  show Io.ofRes ((errorPage Unicode.asciiOnly feat.cookies MapOrder.id 0 (.named 25)).bind _) = _
  rw [hb]
  rfl

/-- C160: two tables can stand for each other if and only if for the request at the beginning of every byte stream they
call the same names in the same order with the same variables. -/
theorem C160_iff (feat : Features) (T T' : Table) (hT : T.Good) (hT' : T'.Good) :
    T.Interchangeable feat T' ↔
      ∀ bytes q n m, Asked.In feat.faithful feat.cookies bytes q n → (q.method, m) ∈ methodTable →
        T.calls feat.urlVariables m (resolve q.pieces) = T'.calls feat.urlVariables m (resolve q.pieces) := by
  constructor
  · intro h bytes q n m hq hm
    obtain ⟨c, c1, c2⟩ := table_program T hT.1 noting
    obtain ⟨c', c1', c2'⟩ := table_program T' hT'.1 noting
    obtain ⟨r, hr, -⟩ := C12_run_is_replay c c1 (by rw [c2, table_length]; exact hT.2)
    obtain ⟨r', hr', -⟩ := C12_run_is_replay c' c1' (by rw [c2', table_length]; exact hT'.2)
    obtain ⟨page, k⟩ := serve_noting feat hm (asked_segOk hq)
    have e := h Notes (noteServer feat Router.new) rfl noting noting_byName c c' r r' c1 c1' c2 c2' hr hr' []
      ⟨[testBytes q.method (resolve q.pieces)], .eof⟩
    rw [show ({ noteServer feat Router.new with router := r' } : Server Notes) = noteServer feat r' from rfl,
      show ({ noteServer feat Router.new with router := r } : Server Notes) = noteServer feat r from rfl,
      k T c r hT.2 c1 c2 hr, k T' c' r' hT'.2 c1' c2' hr'] at e
    simp only [Io.ok.injEq, Prod.mk.injEq, and_true] at e
    exact e.symm
  · intro h W sv hfeat handlers hb c c' r r' hf hf' hl hl' hr hr' w s
    subst hfeat
    refine serve_congr_known { sv with router := r } r' w s fun req q n hq hw hm => ?_
    have hall := (known_not_all hm).1
    rw [run_replays (sv := sv) hf hl (by rw [table_length]; exact hT.2) hr req hall,
      run_replays (sv := sv) hf' hl' (by rw [table_length]; exact hT'.2) hr' req hall]
    exact (replay_calls _ req handlers hb T T' _ (by rw [hw.path]; exact h s.bytes q n _ hq hm)).symm

/-- C161: for all tables whose patterns have at most `N` segments and constants among `K`, the connections of the suite
are enough: two tables can stand for each other if and only if two servers with these registrations, whose handlers
only note that they are called, do the same with each connection of the suite. -/
theorem C161_complete (feat : Features) (K : List Str) (N : Nat) (T T' : Table) (hT : T.Good) (hT' : T'.Good)
    (ho : ∀ e ∈ T, e.1.Over K N) (ho' : ∀ e ∈ T', e.1.Over K N)
    (c c' : List (Call (Notes × Response))) (r r' : Router (Notes × Response)) (hf : FairL c) (hf' : FairL c')
    (hl : logOfL c = T.log noting) (hl' : logOfL c' = T'.log noting)
    (hr : execL Router.new c = .ok r) (hr' : execL Router.new c' = .ok r') :
    T.Interchangeable feat T' ↔
      ∀ b ∈ suite K N, (noteServer feat r').serve [] ⟨[b], .eof⟩ = (noteServer feat r).serve [] ⟨[b], .eof⟩ := by
  constructor
  · intro h b _
    exact h Notes (noteServer feat Router.new) rfl noting noting_byName c c' r r' hf hf' hl hl' hr hr' [] _
  · intro h
    have hL := longest_longer K
    rw [C160_iff feat T T' hT hT']
    intro bytes q n m hq hm
    have hs := asked_segOk hq
    -- one of the test paths
    have test : ∀ path : PathBuf, (∀ x ∈ path, SegOk x) → path.length ≤ N + 1 →
        T.calls feat.urlVariables m path = T'.calls feat.urlVariables m path := by
      intro path hp hlen
      refine typical_calls hL T T' ho ho' m path ?_
      have hk : ∀ x ∈ typical K (longest K + 1) 0 path, SegOk x := typical_ok K _ 0 path hp
      obtain ⟨page, k⟩ := serve_noting feat hm hk
      have e := h (testBytes q.method (typical K (longest K + 1) 0 path)) (by
        simp only [suite, List.mem_flatMap, List.mem_map, List.mem_range]
        exact ⟨_, hm, path.length, by omega, _, typical_mem K _ 0 path, rfl⟩)
      rw [k T c r hT.2 hf hl hr, k T' c' r' hT'.2 hf' hl' hr'] at e
      simp only [Io.ok.injEq, Prod.mk.injEq, and_true] at e
      exact e.symm
    by_cases hlen : (resolve q.pieces).length ≤ N + 1
    · exact test _ hs hlen
    · have hlen' : N < (resolve q.pieces).length := by omega
      have h2 : N < ((resolve q.pieces).take (N + 1)).length := by simp; omega
      rw [long_calls T ho m _ _ hlen' h2, long_calls T' ho' m _ _ hlen' h2]
      exact test _ (fun x hx => hs x (List.mem_of_mem_take hx)) (by simp; omega)

/-- How many connections these are. -/
theorem C161_number (K : List Str) (N : Nat) : (suite K N).length ≤ 9 * ((N + 2) * (K.length + 1) ^ (N + 1)) := by
  have key : ∀ (l : List Nat), (∀ n ∈ l, n ≤ N + 1) →
      (l.map fun n => (K.length + 1) ^ n).sum ≤ l.length * (K.length + 1) ^ (N + 1) := by
    intro l
    induction l with
    | nil => simp
    | cons a l ih =>
      intro h
      simp only [List.map_cons, List.sum_cons, List.length_cons, Nat.succ_mul]
      have h1 := ih fun n hn => h n (List.mem_cons_of_mem _ hn)
      have h2 : (K.length + 1) ^ a ≤ (K.length + 1) ^ (N + 1) := Nat.pow_le_pow_right (by omega) (h a (by simp))
      omega
  have h1 := key (List.range (N + 2)) (by simp; omega)
  rw [List.length_range] at h1
  simp only [suite, List.length_flatMap, List.length_map, typicals_length]
  have : ∀ (l : List (Str × RequestMethod)) (x : Nat), (l.map fun _ => x).sum = l.length * x := by
    intro l x
    induction l with
    | nil => simp
    | cons a l ih => simp [ih, Nat.succ_mul, Nat.add_comm]
  rw [this, show methodTable.length = 9 from rfl]
  exact Nat.mul_le_mul_left _ h1

namespace InterchangeExample

/-- `/:a/:b/:a` and `/:b/:b/:a` show their handlers the same: the last segment under `a`, the one before it under `b` -/
def aba : Table := [(.on .get [c!":a", c!":b", c!":a"], 7)]
def bba : Table := [(.on .get [c!":b", c!":b", c!":a"], 7)]
/-- `/:a/:b` and `/:b/:a` do not -/
def ab : Table := [(.on .get [c!":a", c!":b"], 7)]
def ba : Table := [(.on .get [c!":b", c!":a"], 7)]

theorem aba_good : aba.Good := by
  refine ⟨fun e he => .inr ⟨.get, c!"/:a/:b/:a", [c!":a", c!":b", c!":a"], by decide +kernel, ?_⟩, by decide⟩
  rw [List.mem_singleton.1 he]; rfl
theorem bba_good : bba.Good := by
  refine ⟨fun e he => .inr ⟨.get, c!"/:b/:b/:a", [c!":b", c!":b", c!":a"], by decide +kernel, ?_⟩, by decide⟩
  rw [List.mem_singleton.1 he]; rfl
theorem ab_good : ab.Good := by
  refine ⟨fun e he => .inr ⟨.get, c!"/:a/:b", [c!":a", c!":b"], by decide +kernel, ?_⟩, by decide⟩
  rw [List.mem_singleton.1 he]; rfl
theorem ba_good : ba.Good := by
  refine ⟨fun e he => .inr ⟨.get, c!"/:b/:a", [c!":b", c!":a"], by decide +kernel, ?_⟩, by decide⟩
  rw [List.mem_singleton.1 he]; rfl

theorem vars_only {p path : PathBuf} (hp : ∀ s ∈ p, s.head? = some ':') : Matches p path ↔ p.length = path.length :=
  ⟨fun h => h.1, fun h => ⟨h, fun _ a _ ha _ => .inl (hp a (List.mem_of_getElem? ha))⟩⟩

/-- these two can stand for each other -/
example : aba.Interchangeable .default bba := by
  rw [C160_iff .default aba bba aba_good bba_good]
  intro bytes q n m _ _
  generalize resolve q.pieces = path
  have h : ∀ p : PathBuf, p.length = 3 → (∀ s ∈ p, s.head? = some ':') →
      ((Target.on .get p).applies true m path = true ↔ RequestMethod.get = m ∧ path.length = 3) := by
    intro p h1 h2
    simp only [Target.applies, Bool.and_eq_true, decide_eq_true_eq, PatMatch, if_true, vars_only h2, h1]
    exact and_congr_right fun _ => eq_comm
  have ha := h [c!":a", c!":b", c!":a"] rfl (by decide)
  have hb := h [c!":b", c!":b", c!":a"] rfl (by decide)
  have hab := ha.trans hb.symm
  show Table.calls true aba m path = Table.calls true bba m path
  simp only [Table.calls, aba, bba, List.filter_cons, List.filter_nil]
  by_cases k : (Target.on .get [c!":a", c!":b", c!":a"]).applies true m path = true
  · rw [if_pos k, if_pos (hab.1 k)]
    simp only [List.map_cons, List.map_nil, List.cons.injEq, Prod.mk.injEq, true_and, and_true]
    funext x
    rw [vars_place k, vars_place (hab.1 k)]
    simp only [Target.place, if_true, place, List.cons.injEq, true_and]
    by_cases h1 : ['a'] = x
    · simp [← h1]
    · by_cases h2 : ['b'] = x
      · simp [← h2]
      · simp [h1, h2]
  · rw [if_neg k, if_neg fun h => k (hab.2 h)]

/-- these two cannot: `/x/y` shows different variables -/
example : ¬ ab.Interchangeable .default ba := by
  rw [C160_iff .default ab ba ab_good ba_good]
  intro h
  have hp : ∀ x ∈ [c!"x", c!"y"], SegOk x := by
    intro x hx
    simp only [List.mem_cons, List.not_mem_nil, or_false] at hx
    rcases hx with rfl | rfl <;>
      exact ⟨by decide, by decide, by decide, by decide, by decide, no_crlf_of_no_cr (by decide)⟩
  have := h _ _ 0 .get (asked_bytesTo true true c!"GET" [c!"x", c!"y"] (by decide) hp) (by decide)
  have e : resolve ([] :: [c!"x", c!"y"]) = [c!"x", c!"y"] := by decide
  change Table.calls true ab .get (resolve ([] :: [c!"x", c!"y"])) = Table.calls true ba .get (resolve ([] :: [c!"x", c!"y"])) at this
  rw [e] at this
  have f := congrArg (fun l : Notes => l.map fun c => c.2 c!"a") this
  exact absurd f (by decide +kernel)

/-- and the suite for two variables and no constant finds that out with 36 connections -/
example (r r' : Router (Notes × Response)) (hr : execL Router.new [.route .get c!"/:a/:b" (noting 7)] = .ok r)
    (hr' : execL Router.new [.route .get c!"/:b/:a" (noting 7)] = .ok r') :
    ab.Interchangeable .default ba ↔ ∀ b ∈ suite [] 2,
      (noteServer .default r').serve [] ⟨[b], .eof⟩ = (noteServer .default r).serve [] ⟨[b], .eof⟩ := by
  have p1 : Path.parse c!"/:a/:b" = some [c!":a", c!":b"] := by decide +kernel
  have p2 : Path.parse c!"/:b/:a" = some [c!":b", c!":a"] := by decide +kernel
  refine C161_complete .default [] 2 ab ba ab_good ba_good ?_ ?_ _ _ r r' (by simp [FairL, Fair]) (by simp [FairL, Fair])
    ?_ ?_ hr hr'
  · intro e he
    rw [List.mem_singleton.1 he]
    exact ⟨by decide, fun s hs => .inl (by revert s; decide)⟩
  · intro e he
    rw [List.mem_singleton.1 he]
    exact ⟨by decide, fun s hs => .inl (by revert s; decide)⟩
  · simp [logOfL, logOf, p1, ab, Table.log, Verb.target, Verb.method]
  · simp [logOfL, logOf, p2, ba, Table.log, Verb.target, Verb.method]

example : (suite [] 2).length = 36 := by decide +kernel
example : (suite [c!"a", c!"b"] 3).length = 9 * (1 + 3 + 9 + 27 + 81) := by decide +kernel

end InterchangeExample

end Octane
