import Verif.Props.Interchange
import Verif.Props.Methods
import Verif.Spec.Routes
/-
C162: whether two tables of registrations can stand for each other can be computed. C163: how many tests are needed.
-/
namespace Octane
open Spec Query

theorem noCrlf_iff (x : Str) : noCrlf x = true ↔ ¬ Occurs x crlf := by
  induction x with
  | nil => simp only [noCrlf, true_iff]; exact no_crlf_of_no_cr (by simp)
  | cons c t ih =>
    simp only [noCrlf, Bool.and_eq_true, ih, occurs_iff_infix, List.infix_cons_iff]
    have : crlf <+: c :: t ↔ c = '\r' ∧ t.head? = some '\n' := by
      cases t with
      | nil => simp [crlf]
      | cons d t => simp [crlf]; grind
    rw [this]
    simp
    grind

theorem sendable_iff (x : Str) : sendable x = true ↔ SegOk x := by
  simp only [sendable, SegOk, Bool.and_eq_true, noCrlf_iff]
  simp [and_assoc]

/-- two tables can stand for each other if they call the same for every path that can be sent -/
theorem interchangeable_iff (feat : Features) (T T' : Table) (hT : T.Good) (hT' : T'.Good) :
    T.Interchangeable feat T' ↔ ∀ name m, (name, m) ∈ methodTable → ∀ path : PathBuf, (∀ x ∈ path, SegOk x) →
      T.calls feat.urlVariables m path = T'.calls feat.urlVariables m path := by
  rw [C160_iff feat T T' hT hT']
  constructor
  · intro h name m hm path hp
    obtain ⟨-, k1, k2⟩ := known_method hm
    have := h _ _ 0 m (asked_bytesTo feat.faithful feat.cookies name path ⟨k1, k2⟩ hp) hm
    rwa [resolve_names path fun x hx => by
      obtain ⟨h1, h2, h3, -⟩ := hp x hx
      simp [isName, h1, h2, h3]] at this
  · intro h bytes q n m hq hm
    exact h _ m hm _ (asked_segOk hq)

/-- the test paths decide about all paths -/
theorem calls_of_typical {uv : Bool} {K : List Str} {N : Nat} (T T' : Table) (ho : ∀ e ∈ T, e.1.Over K N)
    (ho' : ∀ e ∈ T', e.1.Over K N) (m : RequestMethod)
    (h : ∀ n, n < N + 2 → ∀ path ∈ typicals K (longest K + 1) 0 n, (∀ x ∈ path, SegOk x) →
      T.calls uv m path = T'.calls uv m path) (path : PathBuf) (hs : ∀ x ∈ path, SegOk x) :
    T.calls uv m path = T'.calls uv m path := by
  have hL := longest_longer K
  have test : ∀ path : PathBuf, (∀ x ∈ path, SegOk x) → path.length ≤ N + 1 →
      T.calls uv m path = T'.calls uv m path := fun path hp hlen =>
    typical_calls hL T T' ho ho' m path
      (h path.length (by omega) _ (typical_mem K _ 0 path) (typical_ok K _ 0 path hp))
  by_cases hlen : path.length ≤ N + 1
  · exact test _ hs hlen
  · have hlen' : N < path.length := by omega
    have h2 : N < (path.take (N + 1)).length := by simp; omega
    rw [long_calls T ho m _ _ hlen' h2, long_calls T' ho' m _ _ hlen' h2]
    exact test _ (fun x hx => hs x (List.mem_of_mem_take hx)) (by simp; omega)

theorem over_self (T : Table) (T1 : Table) (h : ∀ e ∈ T1, e ∈ T) : ∀ e ∈ T1, e.1.Over (Table.constants T) (Table.depth T) := by
  intro e he
  have he := h e he
  have h1 : e.1.pattern.length ≤ Table.depth T := by
    clear h
    induction T with
    | nil => simp at he
    | cons a T ih =>
      simp only [Table.depth]
      rcases List.mem_cons.1 he with rfl | he
      · omega
      · have := ih he; omega
  have h2 : ∀ seg ∈ e.1.pattern, IsVar seg ∨ seg ∈ Table.constants T := by
    intro seg hseg
    by_cases hv : IsVar seg
    · exact .inl hv
    · exact .inr (List.mem_filter.2 ⟨List.mem_flatMap.2 ⟨e, he, hseg⟩, by simpa using hv⟩)
  cases ht : e.1 with
  | everywhere => trivial
  | on m p => rw [ht] at h1 h2; exact ⟨h1, h2⟩
  | anyMethod p => rw [ht] at h1 h2; exact ⟨h1, h2⟩

theorem place_none {p : PathBuf} {k : Str} (h : ':' :: k ∉ p) : place p k = none := by
  induction p with
  | nil => rfl
  | cons a p ih =>
    simp only [List.mem_cons, not_or] at h
    simp only [place, ih h.2]
    rw [if_neg fun e => h.1 e.symm]

/-- a variable with a name of no pattern has no value -/
theorem vars_unnamed {uv : Bool} {T : Table} {e : Target × Nat} (he : e ∈ T) {k : Str} (hk : k ∉ Table.names T)
    {m : RequestMethod} {path : PathBuf} (ha : e.1.applies uv m path = true) : (e.1.vars uv path).get k = none := by
  have hp : ':' :: k ∉ e.1.pattern := fun h => hk (List.mem_map.2 ⟨':' :: k, List.mem_filter.2
    ⟨List.mem_flatMap.2 ⟨e, he, h⟩, by simp [IsVar]⟩, rfl⟩)
  rw [vars_place ha]
  have : e.1.place uv k = none := by
    cases ht : e.1 with
    | everywhere => rfl
    | on m p => rw [ht] at hp; simp only [Target.place, place_none (show ':' :: k ∉ p from hp), ite_self]
    | anyMethod p => rw [ht] at hp; simp only [Target.place, place_none (show ':' :: k ∉ p from hp), ite_self]
  rw [this]; rfl

/-- what is shown under these names decides what is called -/
theorem shown_calls {uv : Bool} {U T T' : Table} (hT : ∀ e ∈ T, e ∈ U) (hT' : ∀ e ∈ T', e ∈ U) (m : RequestMethod)
    (path : PathBuf) : T.shown uv (Table.names U) m path = T'.shown uv (Table.names U) m path ↔
      T.calls uv m path = T'.calls uv m path := by
  constructor
  · intro h
    have hc : ∀ T : Table, (∀ e ∈ T, e ∈ U) → ∀ c ∈ T.calls uv m path, ∀ k, k ∉ Table.names U → c.2 k = none := by
      intro T hT c hc k hk
      obtain ⟨e, he, rfl⟩ := List.mem_map.1 hc
      obtain ⟨he, ha⟩ := List.mem_filter.1 he
      exact vars_unnamed (hT e he) hk ha
    have := map_eq_of (fun c : Nat × (Str → Option Str) => (c.1, (Table.names U).map c.2)) id
      (T.calls uv m path) (T'.calls uv m path) (fun a ha b hb e => ?_) h
    · simpa using this
    · simp only [Prod.mk.injEq, List.map_inj_left] at e
      refine Prod.ext e.1 (funext fun k => ?_)
      by_cases hk : k ∈ Table.names U
      · exact e.2 k hk
      · rw [show (id a).2 k = a.2 k from rfl, show (id b).2 k = b.2 k from rfl, hc T hT a ha k hk, hc T' hT' b hb k hk]
  · intro h; simp only [Table.shown, h]

/-- C162: the procedure answers yes exactly if the two tables can stand for each other. -/
theorem C162_decides (feat : Features) (T T' : Table) (hT : T.Good) (hT' : T'.Good) :
    T.same feat.urlVariables T' = true ↔ T.Interchangeable feat T' := by
  rw [interchangeable_iff feat T T' hT hT']
  have i1 : ∀ e ∈ T, e ∈ T ++ T' := fun e he => List.mem_append_left _ he
  have i2 : ∀ e ∈ T', e ∈ T ++ T' := fun e he => List.mem_append_right _ he
  simp only [Table.same, List.all_eq_true, List.mem_range, beq_iff_eq, List.mem_filter, sendable_iff, shown_calls i1 i2]
  constructor
  · intro h name m hm path hp
    exact calls_of_typical T T' (over_self _ T i1) (over_self _ T' i2) m
      (fun n hn path hpath hs => h (name, m) hm n hn path ⟨hpath, hs⟩) path hp
  · intro h e he n hn path hp
    exact h e.1 e.2 he path hp.2

/-! ### how many tests are needed -/

/-- Things of which each needs a place of its own are not more than the places. -/
theorem length_le_of_places {α β : Type _} (L : List α) (P : List β) (R : α → β → Prop) (hn : L.Nodup)
    (hR : ∀ a ∈ L, ∃ b ∈ P, R a b) (hu : ∀ a ∈ L, ∀ a' ∈ L, ∀ b, R a b → R a' b → a = a') : L.length ≤ P.length := by
  induction L generalizing P with
  | nil => simp
  | cons a L ih =>
    obtain ⟨b, hb, hab⟩ := hR a (by simp)
    obtain ⟨P1, P2, rfl⟩ := List.append_of_mem hb
    rw [List.nodup_cons] at hn
    have := ih (P1 ++ P2) hn.2 (fun x hx => by
      obtain ⟨b', hb', hxb⟩ := hR x (List.mem_cons_of_mem _ hx)
      rcases List.mem_append.1 hb' with h | h
      · exact ⟨b', List.mem_append_left _ h, hxb⟩
      · rcases List.mem_cons.1 h with rfl | h
        · have := hu a (by simp) x (List.mem_cons_of_mem _ hx) b' hab hxb
          exact absurd (this ▸ hx) hn.1
        · exact ⟨b', List.mem_append_right _ h, hxb⟩)
      fun x hx y hy => hu x (List.mem_cons_of_mem _ hx) y (List.mem_cons_of_mem _ hy)
    simp only [List.length_append, List.length_cons] at this ⊢
    omega

theorem pathsOver_length (K : List Str) (n : Nat) : (pathsOver K n).length = K.length ^ n := by
  induction n with
  | zero => rfl
  | succ n ih =>
    simp only [pathsOver, List.length_flatMap, List.length_map, ih]
    have : ∀ l : List Str, (l.map fun _ => K.length ^ n).sum = l.length * K.length ^ n := by
      intro l
      induction l with
      | nil => simp
      | cons a l ih => simp [ih, Nat.succ_mul, Nat.add_comm]
    rw [this, Nat.pow_succ, Nat.mul_comm]

theorem pathsOver_mem {K : List Str} {n : Nat} {p : PathBuf} (h : p ∈ pathsOver K n) :
    p.length = n ∧ ∀ s ∈ p, s ∈ K := by
  induction n generalizing p with
  | zero => simp [pathsOver] at h; subst h; simp
  | succ n ih =>
    simp only [pathsOver, List.mem_flatMap, List.mem_map] at h
    obtain ⟨s, hs, q, hq, rfl⟩ := h
    obtain ⟨h1, h2⟩ := ih hq
    refine ⟨by simp [h1], fun x hx => ?_⟩
    rcases List.mem_cons.1 hx with rfl | hx
    · exact hs
    · exact h2 x hx

theorem pathsOver_nodup {K : List Str} (hK : K.Nodup) (n : Nat) : (pathsOver K n).Nodup := by
  induction n with
  | zero => simp [pathsOver]
  | succ n ih =>
    simp only [pathsOver]
    have key : ∀ L : List Str, L.Nodup → (L.flatMap fun s => (pathsOver K n).map (s :: ·)).Nodup := by
      intro L hL
      induction L with
      | nil => simp
      | cons a L ihL =>
        rw [List.nodup_cons] at hL
        rw [List.flatMap_cons, List.nodup_append]
        refine ⟨?_, ihL hL.2, ?_⟩
        · exact List.Pairwise.map _ (fun x y h => by simpa using h) ih
        · intro x hx y hy e
          obtain ⟨p, -, rfl⟩ := List.mem_map.1 hx
          obtain ⟨s, hs, hy⟩ := List.mem_flatMap.1 hy
          obtain ⟨q, -, rfl⟩ := List.mem_map.1 hy
          injection e with e1
          exact hL.1 (e1 ▸ hs)
    exact key K hK

theorem const_applies {uv : Bool} {m m' : RequestMethod} {p path : PathBuf} (hv : ∀ s ∈ p, ¬ IsVar s) :
    (Target.on m p).applies uv m' path = true ↔ m = m' ∧ p = path := by
  simp only [Target.applies, Bool.and_eq_true, decide_eq_true_eq]
  refine and_congr_right fun _ => ?_
  cases uv with
  | false => simp only [PatMatch, Bool.false_eq_true, if_false]; exact and_iff_left hv
  | true =>
    simp only [PatMatch, if_true, Matches]
    constructor
    · rintro ⟨hl, h⟩
      refine List.ext_getElem hl fun i h1 h2 => ?_
      rcases h i _ _ (List.getElem?_eq_getElem h1) (List.getElem?_eq_getElem h2) with h | h
      · exact absurd h (hv _ (List.getElem_mem h1))
      · exact h
    · rintro rfl
      exact ⟨rfl, fun i a b ha hb => .inr (by rw [ha] at hb; injection hb)⟩

/-- C163: the connections of the suite are a complete test. -/
theorem C163_suite (feat : Features) (K : List Str) (N : Nat) :
    Complete feat K N ((suite K N).map fun b => ⟨[b], .eof⟩) := by
  intro T T' hT hT' ho ho' h
  obtain ⟨c, c1, c2⟩ := table_program T hT.1 noting
  obtain ⟨c', c1', c2'⟩ := table_program T' hT'.1 noting
  obtain ⟨r, hr, -⟩ := C12_run_is_replay c c1 (by rw [c2, table_length]; exact hT.2)
  obtain ⟨r', hr', -⟩ := C12_run_is_replay c' c1' (by rw [c2', table_length]; exact hT'.2)
  refine (C161_complete feat K N T T' hT hT' ho ho' c c' r r' c1 c1' c2 c2' hr hr').2 fun b hb => ?_
  exact h Notes (noteServer feat Router.new) rfl noting noting_byName c c' r r' c1 c1' c2 c2' hr hr' [] _
    (List.mem_map.2 ⟨b, hb, rfl⟩)

/-- C163: and no complete test is small: it has a connection for each of six methods and each path of at most `N`
segments among `K`. -/
theorem C163_needed (feat : Features) (K : List Str) (N : Nat) (conns : List Sock) (h : Complete feat K N conns)
    (hK : K.Nodup) (hs : ∀ s ∈ K, sendable s = true ∧ ¬ IsVar s) :
    6 * ((List.range (N + 1)).map fun n => K.length ^ n).sum ≤ conns.length := by
  have hlen : (routed.flatMap fun m => (List.range (N + 1)).flatMap fun n => (pathsOver K n).map fun p => (m, p)).length =
      6 * ((List.range (N + 1)).map fun n => K.length ^ n).sum := by
    simp only [routed, List.flatMap_cons, List.flatMap_nil, List.length_append, List.length_flatMap, List.length_map,
      pathsOver_length, List.length_nil]
    omega
  rw [← hlen]
  refine length_le_of_places _ conns (fun (x : RequestMethod × PathBuf) s => ∃ q n,
    Asked.In feat.faithful feat.cookies s.bytes q n ∧ (q.method, x.1) ∈ methodTable ∧ resolve q.pieces = x.2) ?_ ?_ ?_
  · show List.Pairwise _ _
    rw [List.pairwise_flatMap]
    refine ⟨fun m _ => ?_, ?_⟩
    · rw [List.pairwise_flatMap]
      refine ⟨fun n _ => List.Pairwise.map _ (fun x y h => by simpa using h) (pathsOver_nodup hK n), ?_⟩
      refine List.Pairwise.imp (fun {a b} hab x hx y hy e => ?_) (List.nodup_range (n := N + 1))
      obtain ⟨p, hp, rfl⟩ := List.mem_map.1 hx
      obtain ⟨p', hp', rfl⟩ := List.mem_map.1 hy
      injection e with _ e
      subst e
      exact hab ((pathsOver_mem hp).1.symm.trans (pathsOver_mem hp').1)
    · refine List.Pairwise.imp (fun {a b} hab x hx y hy e => ?_) (show routed.Nodup by decide)
      obtain ⟨n, -, hx⟩ := List.mem_flatMap.1 hx
      obtain ⟨n', -, hy⟩ := List.mem_flatMap.1 hy
      obtain ⟨p, hp, rfl⟩ := List.mem_map.1 hx
      obtain ⟨p', hp', rfl⟩ := List.mem_map.1 hy
      injection e with e _
      exact hab e
  · rintro ⟨m, p⟩ hx
    obtain ⟨m', hm', hx⟩ := List.mem_flatMap.1 hx
    obtain ⟨n, hn, hx⟩ := List.mem_flatMap.1 hx
    obtain ⟨p', hp, e⟩ := List.mem_map.1 hx
    injection e with e1 e2
    subst e1 e2
    obtain ⟨hl, hin⟩ := pathsOver_mem hp
    have hseg : ∀ x ∈ p', SegOk x := fun x hx => (sendable_iff x).1 (hs x (hin x hx)).1
    have hvar : ∀ x ∈ p', ¬ IsVar x := fun x hx => (hs x (hin x hx)).2
    -- this registration alone, and none
    have hreg : ∃ v : Verb, Target.on m' p' = v.target p' := by
      have : ∀ m ∈ routed, ∃ v ∈ [Verb.get, .post, .put, .delete, .head, .patch], v.method = m ∧ v ≠ .addRoute := by
        decide
      obtain ⟨v, -, h1, h2⟩ := this m' hm'
      exact ⟨v, by cases v <;> simp_all [Verb.target]⟩
    have hgood : Table.Good [(Target.on m' p', 0)] := by
      refine ⟨fun e he => ?_, by simp⟩
      rw [List.mem_singleton.1 he]
      obtain ⟨v, hv⟩ := hreg
      refine .inr ⟨v, Path.display p', p', Path.parse_display (fun x hx => ?_), hv⟩
      obtain ⟨h1, h2, h3, h4, -⟩ := hseg x hx
      exact ⟨h1, h2, h3, h4⟩
    have hnil : Table.Good [] := ⟨by simp, by simp⟩
    have hname : ∃ name, (name, m') ∈ methodTable := by
      have : ∀ m ∈ routed, ∃ e ∈ methodTable, e.2 = m := by decide +kernel
      obtain ⟨e, he, rfl⟩ := this m' hm'
      exact ⟨e.1, he⟩
    obtain ⟨name, hname⟩ := hname
    have happ : (Target.on m' p').applies feat.urlVariables m' p' = true := (const_applies hvar).2 ⟨rfl, rfl⟩
    have hdiff : ¬ Table.Interchangeable feat [(Target.on m' p', 0)] [] := by
      rw [interchangeable_iff feat _ _ hgood hnil]
      intro hh
      have := hh name m' hname p' hseg
      simp [Table.calls, happ] at this
    refine Classical.byContradiction fun hno => hdiff (h _ _ hgood hnil ?_ (by simp) ?_)
    · intro e he
      rw [List.mem_singleton.1 he]
      exact ⟨by rw [hl]; have := List.mem_range.1 hn; omega, fun x hx => .inr (hin x hx)⟩
    · intro W sv hfeat handlers hb c c' r r' hf hf' hlog hlog' hr hr' w s hsin
      subst hfeat
      refine serve_congr_known { sv with router := r } r' w s fun req q k hq hw hm => ?_
      have hall := (known_not_all hm).1
      rw [run_replays (sv := sv) hf hlog (by simp [Table.log]) hr req hall,
        run_replays (sv := sv) hf' hlog' (by simp [Table.log]) hr' req hall]
      have hna : (Target.on m' p').applies sv.feat.urlVariables req.requestLine.method req.requestLine.path = false := by
        rw [Bool.eq_false_iff]
        intro ha
        obtain ⟨e1, e2⟩ := (const_applies hvar).1 ha
        exact hno ⟨s, hsin, q, k, hq, by rw [e1]; exact hm, by rw [← hw.path, e2]⟩
      refine (replay_calls _ req handlers hb _ _ _ ?_).symm
      simp [Table.calls, hna]
  · rintro ⟨m, p⟩ - ⟨m', p'⟩ - s ⟨q, n, h1, h2, h3⟩ ⟨q', n', h1', h2', h3'⟩
    obtain ⟨e1, e2⟩ := asked_method h1 h1'
    have := (known_method h2).1
    rw [e1, (known_method h2').1] at this
    rw [e2, h3'] at h3
    exact Prod.ext this.symm h3.symm

namespace RoutesExample

/-- `/a/:x` for GET and `/:y/:x` for every method, in either order, and with a route nobody can ask for -/
def t1 : Table := [(.on .get [c!"a", c!":x"], 1), (.anyMethod [c!":y", c!":x"], 2)]
def t2 : Table := [(.anyMethod [c!":y", c!":x"], 2), (.on .get [c!"a", c!":x"], 1)]
def t3 : Table := [(.on .get [c!"a b", c!":x"], 3), (.on .get [c!"a", c!":x"], 1), (.anyMethod [c!":y", c!":x"], 2)]

/-- the order matters -/
example : t1.same true t2 = false := by decide +kernel
/-- a route nobody can ask for does not -/
example : t1.same true t3 = true := by decide +kernel
/-- without `url_variables` none of these is ever called -/
example : t1.same false [] = true := by decide +kernel
/-- the tables of the examples of C160 -/
example : InterchangeExample.aba.same true InterchangeExample.bba = true := by decide +kernel
example : InterchangeExample.ab.same true InterchangeExample.ba = false := by decide +kernel

theorem t1_good : t1.Good := by
  refine ⟨fun e he => .inr ?_, by decide⟩
  simp only [t1, List.mem_cons, List.not_mem_nil, or_false] at he
  rcases he with rfl | rfl
  · exact ⟨.get, c!"/a/:x", [c!"a", c!":x"], by decide +kernel, rfl⟩
  · exact ⟨.addRoute, c!"/:y/:x", [c!":y", c!":x"], by decide +kernel, rfl⟩

theorem t3_good : t3.Good := by
  refine ⟨fun e he => .inr ?_, by decide⟩
  simp only [t3, List.mem_cons, List.not_mem_nil, or_false] at he
  rcases he with rfl | rfl | rfl
  · exact ⟨.get, c!"/a b/:x", [c!"a b", c!":x"], by decide +kernel, rfl⟩
  · exact ⟨.get, c!"/a/:x", [c!"a", c!":x"], by decide +kernel, rfl⟩
  · exact ⟨.addRoute, c!"/:y/:x", [c!":y", c!":x"], by decide +kernel, rfl⟩

/-- so the two applications answer every connection alike -/
example : t1.Interchangeable .default t3 := (C162_decides .default t1 t3 t1_good t3_good).1 (by decide +kernel)

/-- ten constants in three places need more than six thousand connections -/
example (conns : List Sock) (h : Complete .default (c!"abcdefghij".map fun c => [c]) 3 conns) : 6666 ≤ conns.length :=
  Nat.le_trans (by decide) (C163_needed .default _ 3 conns h (by decide) (by decide))

end RoutesExample

end Octane
