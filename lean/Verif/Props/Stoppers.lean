import Verif.Props.Routes
import Verif.Spec.Stoppers
/-
C164: when two tables of registrations can stand for each other if some handlers are known never to hand on.
-/
namespace Octane
open Spec Query
universe u
variable {S : Type u}

theorem tillStop_map {α : Type _} {β : Type _} (stops : Nat → Bool) (f : Nat × α → Nat × β) (hf : ∀ c, (f c).1 = c.1)
    (l : List (Nat × α)) : tillStop stops (l.map f) = (tillStop stops l).map f := by
  induction l with
  | nil => rfl
  | cons c l ih =>
    simp only [List.map_cons, tillStop, hf, ih]
    split <;> rfl

/-- the registrations a request reaches -/
def Spec.Table.reached (stops : Nat → Bool) (uv : Bool) (T : Table) (m : RequestMethod) (path : PathBuf) : Table :=
  match T with
  | [] => []
  | e :: T =>
    if e.1.applies uv m path then
      if stops e.2 then [e] else e :: Table.reached stops uv T m path
    else Table.reached stops uv T m path

theorem reached_mem {stops : Nat → Bool} {uv : Bool} {T : Table} {m : RequestMethod} {path : PathBuf} :
    ∀ e ∈ T.reached stops uv m path, e ∈ T := by
  induction T with
  | nil => simp [Table.reached]
  | cons a T ih =>
    intro e he
    simp only [Table.reached] at he
    split at he
    · split at he
      · rw [List.mem_singleton.1 he]; simp
      · rcases List.mem_cons.1 he with rfl | he
        · simp
        · exact List.mem_cons_of_mem _ (ih e he)
    · exact List.mem_cons_of_mem _ (ih e he)

theorem reached_calls (stops : Nat → Bool) (uv : Bool) (T : Table) (m : RequestMethod) (path : PathBuf) :
    Table.calls uv (T.reached stops uv m path) m path = tillStop stops (T.calls uv m path) := by
  induction T with
  | nil => rfl
  | cons e T ih =>
    simp only [Table.reached]
    by_cases h : e.1.applies uv m path = true
    · rw [if_pos h]
      have hc : Table.calls uv (e :: T) m path = (e.2, fun k => (e.1.vars uv path).get k) :: Table.calls uv T m path := by
        simp [Table.calls, h]
      rw [hc]
      simp only [tillStop]
      split
      · simp [Table.calls, h]
      · rw [← ih]; simp [Table.calls, h]
    · rw [if_neg h, ih]
      simp [Table.calls, h]

theorem reached_congr {stops : Nat → Bool} {uv : Bool} {T : Table} {m : RequestMethod} {path path' : PathBuf}
    (h : ∀ e ∈ T, e.1.applies uv m path = e.1.applies uv m path') :
    T.reached stops uv m path = T.reached stops uv m path' := by
  induction T with
  | nil => rfl
  | cons e T ih =>
    simp only [Table.reached, h e (by simp), ih fun x hx => h x (List.mem_cons_of_mem _ hx)]

/-- what is behind a handler that never hands on does not matter -/
theorem replay_reached (stops : Nat → Bool) (uv : Bool) (req : Request) (handlers : Nat → Closure S)
    (hs : ∀ n, stops n = true → Stops (handlers n)) (T : Table) (s : S) :
    replay uv req (T.log handlers) s =
      replay uv req (Table.log (T.reached stops uv req.requestLine.method req.requestLine.path) handlers) s := by
  induction T generalizing s with
  | nil => rfl
  | cons e T ih =>
    simp only [Table.reached]
    by_cases h : e.1.applies uv req.requestLine.method req.requestLine.path = true
    · rw [if_pos h]
      by_cases hst : stops e.2 = true
      · rw [if_pos hst]
        simp only [Table.log, List.map_cons, List.map_nil, replay, if_pos h]
        cases hh : handlers e.2 ⟨req, e.1.vars uv req.requestLine.path⟩ s with
        | panic => rfl
        | ok o =>
          obtain ⟨s', fl⟩ := o
          rw [hs e.2 hst _ _ _ _ hh]
      · rw [if_neg hst]
        simp only [Table.log, List.map_cons, replay, if_pos h]
        split
        · rfl
        · rfl
        · exact ih _
    · rw [if_neg h, ← ih]
      simp only [Table.log, List.map_cons, replay]
      rw [if_neg h]

theorem replay_callsWith (stops : Nat → Bool) (uv : Bool) (req : Request) (handlers : Nat → Closure S)
    (hb : ∀ n, ByName (handlers n)) (hs : ∀ n, stops n = true → Stops (handlers n)) (T T' : Table) (s : S)
    (h : tillStop stops (T.calls uv req.requestLine.method req.requestLine.path) =
      tillStop stops (T'.calls uv req.requestLine.method req.requestLine.path)) :
    replay uv req (T.log handlers) s = replay uv req (T'.log handlers) s := by
  rw [replay_reached stops uv req handlers hs T, replay_reached stops uv req handlers hs T']
  exact replay_calls uv req handlers hb _ _ s (by rw [reached_calls, reached_calls, h])

theorem notingWith_byName (stops : Nat → Bool) (n : Nat) : ByName (notingWith stops n) := by
  intro mr mr' s _ h
  simp only [notingWith]
  rw [show (fun k => mr.vars.get k) = fun k => mr'.vars.get k from funext h]

theorem notingWith_stops (stops : Nat → Bool) (n : Nat) (h : stops n = true) : Stops (notingWith stops n) := by
  intro mr s s' fl e
  simp only [notingWith, h, if_true, Res.ok.injEq, Prod.mk.injEq] at e
  exact e.2.symm

theorem replay_notingWith (stops : Nat → Bool) (uv : Bool) (req : Request) (T : Table) (st : Notes × Response) :
    replay uv req (T.log (notingWith stops)) st =
      .ok (st.1 ++ tillStop stops (T.calls uv req.requestLine.method req.requestLine.path), st.2) := by
  induction T generalizing st with
  | nil => simp [Table.log, replay, Table.calls, tillStop]
  | cons e T ih =>
    simp only [Table.log, List.map_cons, replay]
    by_cases h : e.1.applies uv req.requestLine.method req.requestLine.path = true
    · rw [if_pos h]
      have hc : Table.calls uv (e :: T) req.requestLine.method req.requestLine.path =
          (e.2, fun k => (e.1.vars uv req.requestLine.path).get k) ::
            Table.calls uv T req.requestLine.method req.requestLine.path := by simp [Table.calls, h]
      rw [hc]
      simp only [notingWith, tillStop]
      cases hst : stops e.2 with
      | true => rfl
      | false =>
        simp only [Bool.false_eq_true, if_false]
        rw [show replay uv req (List.map (fun e => ⟨e.1, notingWith stops e.2⟩) T) _ = _ from ih _]
        simp
    · rw [if_neg h, show replay uv req (List.map (fun e => ⟨e.1, notingWith stops e.2⟩) T) _ = _ from ih _]
      simp [Table.calls, h]

theorem serve_notingWith (stops : Nat → Bool) (feat : Features) {name : Str} {m : RequestMethod}
    (hm : (name, m) ∈ methodTable) {path : PathBuf} (hs : ∀ x ∈ path, SegOk x) :
    ∃ bytes, ∀ (T : Table) (c : List (Call (Notes × Response))) (r : Router (Notes × Response)), T.length < 2 ^ 64 →
      FairL c → logOfL c = T.log (notingWith stops) → execL Router.new c = .ok r →
      (noteServer feat r).serve [] ⟨[testBytes name path], .eof⟩ =
        .ok (tillStop stops (T.calls feat.urlVariables m path), bytes) := by
  obtain ⟨req, h1, h2, h3⟩ := serve_to (noteServer feat Router.new) hm hs
  obtain ⟨bytes, -, hb, -⟩ := C55_error_pages Unicode.asciiOnly feat.cookies MapOrder.id 0 25 (by decide)
  refine ⟨bytes, fun T c r hn hf hl hr => ?_⟩
  have := h3 c r hf (by rw [hl, table_length]; exact hn) hr []
  rw [hl, replay_notingWith, h1, h2] at this
  show Server.serve { noteServer feat Router.new with router := r } [] ⟨[bytesTo name ([] :: path)], .eof⟩ = _
  rw [this]
  rw [Res.bind_ok', if_pos (show Response.newEmpty.hasBody = false from rfl)]
  show Io.ofRes ((errorPage Unicode.asciiOnly feat.cookies MapOrder.id 0 (.named 25)).bind _) = _
  rw [hb]
  rfl

/-- C164: as long as the handlers with these names never hand on, two tables can stand for each other if and only if for
the request at the beginning of every byte stream they call the same names in the same order with the same variables up
to the first of these. -/
theorem C164_iff (stops : Nat → Bool) (feat : Features) (T T' : Table) (hT : T.Good) (hT' : T'.Good) :
    T.InterchangeableWith stops feat T' ↔
      ∀ bytes q n m, Asked.In feat.faithful feat.cookies bytes q n → (q.method, m) ∈ methodTable →
        tillStop stops (T.calls feat.urlVariables m (resolve q.pieces)) =
          tillStop stops (T'.calls feat.urlVariables m (resolve q.pieces)) := by
  constructor
  · intro h bytes q n m hq hm
    obtain ⟨c, c1, c2⟩ := table_program T hT.1 (notingWith stops)
    obtain ⟨c', c1', c2'⟩ := table_program T' hT'.1 (notingWith stops)
    obtain ⟨r, hr, -⟩ := C12_run_is_replay c c1 (by rw [c2, table_length]; exact hT.2)
    obtain ⟨r', hr', -⟩ := C12_run_is_replay c' c1' (by rw [c2', table_length]; exact hT'.2)
    obtain ⟨page, k⟩ := serve_notingWith stops feat hm (asked_segOk hq)
    have e := h Notes (noteServer feat Router.new) rfl _ (notingWith_byName stops) (notingWith_stops stops)
      c c' r r' c1 c1' c2 c2' hr hr' [] ⟨[testBytes q.method (resolve q.pieces)], .eof⟩
    rw [show ({ noteServer feat Router.new with router := r' } : Server Notes) = noteServer feat r' from rfl,
      show ({ noteServer feat Router.new with router := r } : Server Notes) = noteServer feat r from rfl,
      k T c r hT.2 c1 c2 hr, k T' c' r' hT'.2 c1' c2' hr'] at e
    simp only [Io.ok.injEq, Prod.mk.injEq, and_true] at e
    exact e.symm
  · intro h W sv hfeat handlers hb hs c c' r r' hf hf' hl hl' hr hr' w s
    subst hfeat
    refine serve_congr_known { sv with router := r } r' w s fun req q n hq hw hm => ?_
    have hall := (known_not_all hm).1
    rw [run_replays (sv := sv) hf hl (by rw [table_length]; exact hT.2) hr req hall,
      run_replays (sv := sv) hf' hl' (by rw [table_length]; exact hT'.2) hr' req hall]
    exact (replay_callsWith stops _ req handlers hb hs T T' _ (by rw [hw.path]; exact h s.bytes q n _ hq hm)).symm

/-- the test paths decide about all paths -/
theorem callsWith_of_typical {stops : Nat → Bool} {uv : Bool} {K : List Str} {N : Nat} (T T' : Table)
    (ho : ∀ e ∈ T, e.1.Over K N) (ho' : ∀ e ∈ T', e.1.Over K N) (m : RequestMethod)
    (h : ∀ n, n < N + 2 → ∀ path ∈ typicals K (longest K + 1) 0 n, (∀ x ∈ path, SegOk x) →
      tillStop stops (T.calls uv m path) = tillStop stops (T'.calls uv m path)) (path : PathBuf) (hs : ∀ x ∈ path, SegOk x) :
    tillStop stops (T.calls uv m path) = tillStop stops (T'.calls uv m path) := by
  have hL := longest_longer K
  have test : ∀ path : PathBuf, (∀ x ∈ path, SegOk x) → path.length ≤ N + 1 →
      tillStop stops (T.calls uv m path) = tillStop stops (T'.calls uv m path) := by
    intro path hp hlen
    have := h path.length (by omega) _ (typical_mem K _ 0 path) (typical_ok K _ 0 path hp)
    rw [← reached_calls, ← reached_calls,
      reached_congr (fun e he => typical_applies hL e.1 (ho e he) m path),
      reached_congr (fun e he => typical_applies hL e.1 (ho' e he) m path)] at this
    rw [← reached_calls, ← reached_calls]
    exact typical_calls hL _ _ (fun e he => ho e (reached_mem e he)) (fun e he => ho' e (reached_mem e he)) m path this
  by_cases hlen : path.length ≤ N + 1
  · exact test _ hs hlen
  · have hlen' : N < path.length := by omega
    have h2 : N < (path.take (N + 1)).length := by simp; omega
    rw [long_calls T ho m _ _ hlen' h2, long_calls T' ho' m _ _ hlen' h2]
    exact test _ (fun x hx => hs x (List.mem_of_mem_take hx)) (by simp; omega)

theorem interchangeableWith_iff (stops : Nat → Bool) (feat : Features) (T T' : Table) (hT : T.Good) (hT' : T'.Good) :
    T.InterchangeableWith stops feat T' ↔ ∀ name m, (name, m) ∈ methodTable → ∀ path : PathBuf, (∀ x ∈ path, SegOk x) →
      tillStop stops (T.calls feat.urlVariables m path) = tillStop stops (T'.calls feat.urlVariables m path) := by
  rw [C164_iff stops feat T T' hT hT']
  constructor
  · intro h name m hm path hp
    obtain ⟨-, k1, k2⟩ := known_method hm
    have := h _ _ 0 m (asked_bytesTo feat.faithful feat.cookies name path ⟨k1, k2⟩ hp) hm
    rwa [resolve_names path fun x hx => by
      obtain ⟨h1, h2, h3, -⟩ := hp x hx
      simp [isName, h1, h2, h3]] at this
  · intro h bytes q n m hq hm
    exact h _ m hm _ (asked_segOk hq)

/-- C164: the suite of C161 is enough in this case too. -/
theorem C164_complete (stops : Nat → Bool) (feat : Features) (K : List Str) (N : Nat) (T T' : Table) (hT : T.Good)
    (hT' : T'.Good) (ho : ∀ e ∈ T, e.1.Over K N) (ho' : ∀ e ∈ T', e.1.Over K N)
    (c c' : List (Call (Notes × Response))) (r r' : Router (Notes × Response)) (hf : FairL c) (hf' : FairL c')
    (hl : logOfL c = T.log (notingWith stops)) (hl' : logOfL c' = T'.log (notingWith stops))
    (hr : execL Router.new c = .ok r) (hr' : execL Router.new c' = .ok r') :
    T.InterchangeableWith stops feat T' ↔
      ∀ b ∈ suite K N, (noteServer feat r').serve [] ⟨[b], .eof⟩ = (noteServer feat r).serve [] ⟨[b], .eof⟩ := by
  constructor
  · intro h b _
    exact h Notes (noteServer feat Router.new) rfl _ (notingWith_byName stops) (notingWith_stops stops)
      c c' r r' hf hf' hl hl' hr hr' [] _
  · intro h
    rw [interchangeableWith_iff stops feat T T' hT hT']
    intro name m hm path hp
    refine callsWith_of_typical T T' ho ho' m (fun n hn path hpath hs => ?_) path hp
    obtain ⟨page, k⟩ := serve_notingWith stops feat hm hs
    have e := h (testBytes name path) (by
      simp only [suite, List.mem_flatMap, List.mem_map, List.mem_range]
      exact ⟨_, hm, n, by omega, _, hpath, rfl⟩)
    rw [k T c r hT.2 hf hl hr, k T' c' r' hT'.2 hf' hl' hr'] at e
    simp only [Io.ok.injEq, Prod.mk.injEq, and_true] at e
    exact e.symm

theorem shown_callsWith {stops : Nat → Bool} {uv : Bool} {U T T' : Table} (hT : ∀ e ∈ T, e ∈ U) (hT' : ∀ e ∈ T', e ∈ U)
    (m : RequestMethod) (path : PathBuf) :
    tillStop stops (T.shown uv (Table.names U) m path) = tillStop stops (T'.shown uv (Table.names U) m path) ↔
      tillStop stops (T.calls uv m path) = tillStop stops (T'.calls uv m path) := by
  have e : ∀ T : Table, tillStop stops (T.shown uv (Table.names U) m path) =
      Table.shown uv (Table.names U) (T.reached stops uv m path) m path := by
    intro T
    simp only [Table.shown, reached_calls]
    exact tillStop_map stops (fun c : Nat × (Str → Option Str) => (c.1, List.map c.2 (Table.names U))) (fun _ => rfl) _
  rw [e, e, shown_calls (fun x hx => hT x (reached_mem x hx)) (fun x hx => hT' x (reached_mem x hx)), reached_calls,
    reached_calls]

/-- C164: and it can be computed. -/
theorem C164_decides (stops : Nat → Bool) (feat : Features) (T T' : Table) (hT : T.Good) (hT' : T'.Good) :
    T.sameWith stops feat.urlVariables T' = true ↔ T.InterchangeableWith stops feat T' := by
  rw [interchangeableWith_iff stops feat T T' hT hT']
  have i1 : ∀ e ∈ T, e ∈ T ++ T' := fun e he => List.mem_append_left _ he
  have i2 : ∀ e ∈ T', e ∈ T ++ T' := fun e he => List.mem_append_right _ he
  simp only [Table.sameWith, List.all_eq_true, List.mem_range, beq_iff_eq, List.mem_filter, sendable_iff,
    shown_callsWith i1 i2]
  constructor
  · intro h name m hm path hp
    exact callsWith_of_typical T T' (over_self _ T i1) (over_self _ T' i2) m
      (fun n hn path hpath hs => h (name, m) hm n hn path ⟨hpath, hs⟩) path hp
  · intro h e he n hn path hp
    exact h e.1 e.2 he path hp.2

namespace StoppersExample

/-- an application whose handlers all stop: the special page, then the general one -/
def pages : Table := [(.on .get [c!"user", c!"new"], 1), (.on .get [c!"user", c!":id"], 2)]
/-- with two more -/
def more : Table := pages ++ [(.on .get [c!":kind", c!"new"], 3), (.on .get [c!"user", c!"old"], 4)]
/-- with a special page more, in front of the others -/
def wrong : Table := (.on .get [c!"user", c!"old"], 4) :: pages

theorem pages_good : pages.Good := by
  refine ⟨fun e he => .inr ?_, by decide⟩
  simp only [pages, List.mem_cons, List.not_mem_nil, or_false] at he
  rcases he with rfl | rfl
  · exact ⟨.get, c!"/user/new", [c!"user", c!"new"], by decide +kernel, rfl⟩
  · exact ⟨.get, c!"/user/:id", [c!"user", c!":id"], by decide +kernel, rfl⟩

theorem wrong_good : wrong.Good := by
  refine ⟨fun e he => ?_, by decide⟩
  rcases List.mem_cons.1 he with rfl | he
  · exact .inr ⟨.get, c!"/user/old", [c!"user", c!"old"], by decide +kernel, rfl⟩
  · exact pages_good.1 e he

/-- the same behind the others -/
def behind : Table := pages ++ [(.on .get [c!"user", c!"old"], 4)]

theorem behind_good : behind.Good := by
  refine ⟨fun e he => ?_, by decide⟩
  rcases List.mem_append.1 he with he | he
  · exact pages_good.1 e he
  · rw [List.mem_singleton.1 he]
    exact .inr ⟨.get, c!"/user/old", [c!"user", c!"old"], by decide +kernel, rfl⟩

/-- `/user/old` behind `/user/:id` does not matter if the handlers stop -/
example : behind.InterchangeableWith (fun _ => true) .default pages :=
  (C164_decides _ .default behind pages behind_good pages_good).1 (by decide +kernel)
/-- but it does if that of `/user/:id` may hand on -/
example : ¬ behind.InterchangeableWith (· == 1) .default pages := fun h =>
  absurd ((C164_decides _ .default behind pages behind_good pages_good).2 h) (by decide +kernel)
/-- and in front of it -/
example : ¬ wrong.InterchangeableWith (fun _ => true) .default pages := fun h =>
  absurd ((C164_decides _ .default wrong pages wrong_good pages_good).2 h) (by decide +kernel)
/-- `/:kind/new` is reached for other kinds -/
example : more.sameWith (fun _ => true) true pages = false := by decide +kernel

end StoppersExample

end Octane
