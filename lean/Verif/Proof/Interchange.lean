import Verif.Spec.Interchange
import Verif.Proof.Meet
import Verif.Props.Frame
/-
Helper lemmas for C160 and C161.
-/
namespace Octane
open Spec Query
universe u
variable {W : Type u} {S : Type u}

/-- the segments of the path of a request can be asked for -/
theorem asked_segOk {faithful cookies : Bool} {bytes : Bytes} {q : Asked} {n : Nat} (h : q.In faithful cookies bytes n) :
    ∀ x ∈ resolve q.pieces, SegOk x := by
  intro x hx
  obtain ⟨h1, h2⟩ := asked_segments h x hx
  obtain ⟨text, line, hdrs, -, -, ⟨first, more, -, -, -, hs, -⟩, -⟩ := h
  have hn : isName x = true := by
    have key : ∀ (up : Nat) (ps : List Str), x ∈ survivorsRev up ps → isName x = true := by
      intro up ps
      induction ps generalizing up with
      | nil => simp [survivorsRev]
      | cons p ps ih =>
        simp only [survivorsRev]
        split
        · exact ih _
        · split
          · rename_i hp
            cases up with
            | zero =>
              intro hm
              rcases List.mem_cons.1 hm with rfl | hm
              · exact hp
              · exact ih _ hm
            | succ up => exact ih _
          · exact ih _
    exact key _ _ (List.mem_reverse.1 hx)
  simp only [isName, Bool.not_eq_true', Bool.or_eq_false_iff, beq_eq_false_iff_ne] at hn
  exact ⟨hn.1.1, hn.1.2, hn.2, hs x (resolve_mem _ _ hx), h1, h2⟩

/-- a table that can be registered has a program -/
theorem table_program (T : Table) (h : ∀ e ∈ T, e.1.Registrable) (handlers : Nat → Closure S) :
    ∃ c, FairL c ∧ logOfL c = T.log handlers := by
  induction T with
  | nil => exact ⟨[], trivial, rfl⟩
  | cons e T ih =>
    obtain ⟨c, h1, h2⟩ := ih fun x hx => h x (List.mem_cons_of_mem _ hx)
    rcases h e (by simp) with he | ⟨v, text, p, hp, he⟩
    · exact ⟨.add (handlers e.2) :: c, ⟨trivial, h1⟩, by simp [logOfL, logOf, h2, Table.log, he]⟩
    · exact ⟨.route v text (handlers e.2) :: c, ⟨trivial, h1⟩, by simp [logOfL, logOf, h2, Table.log, he, hp]⟩

theorem table_length (T : Table) (handlers : Nat → Closure S) : (T.log handlers).length = T.length := by
  simp [Table.log]

/-- what handlers do is decided by the calls -/
theorem replay_calls (uv : Bool) (req : Request) (handlers : Nat → Closure S) (hb : ∀ n, ByName (handlers n))
    (T T' : Table) (s : S)
    (h : T.calls uv req.requestLine.method req.requestLine.path = T'.calls uv req.requestLine.method req.requestLine.path) :
    replay uv req (T.log handlers) s = replay uv req (T'.log handlers) s := by
  have hap : ∀ T : Table, applying uv req.requestLine.method req.requestLine.path (T.log handlers) =
      Table.log (T.filter fun e => e.1.applies uv req.requestLine.method req.requestLine.path) handlers := by
    intro T
    simp only [applying, Table.log, List.filter_map]
    rfl
  rw [replay_applying, hap, replay_applying uv req (T'.log handlers), hap]
  unfold Table.calls at h
  have happ : ∀ T : Table, ∀ e ∈ T.filter fun e => e.1.applies uv req.requestLine.method req.requestLine.path,
      e.1.applies uv req.requestLine.method req.requestLine.path = true := fun T e he => by
    simpa using (List.mem_filter.1 he).2
  have k := happ T
  have k' := happ T'
  revert h k k'
  generalize T.filter (fun e => e.1.applies uv req.requestLine.method req.requestLine.path) = l
  generalize T'.filter (fun e => e.1.applies uv req.requestLine.method req.requestLine.path) = l'
  intro h k k'
  induction l generalizing l' s with
  | nil =>
    cases l' with
    | nil => rfl
    | cons e' l' => simp at h
  | cons e l ih =>
    cases l' with
    | nil => simp at h
    | cons e' l' =>
      simp only [List.map_cons, List.cons.injEq, Prod.mk.injEq] at h
      obtain ⟨⟨h1, h2⟩, h3⟩ := h
      have ih' := fun s => ih s l' h3 (fun x hx => k x (List.mem_cons_of_mem _ hx)) fun x hx => k' x (List.mem_cons_of_mem _ hx)
      simp only [Table.log, List.map_cons, replay, if_pos (k e (by simp)), if_pos (k' e' (by simp))]
      rw [hb e.2 ⟨req, e.1.vars uv req.requestLine.path⟩ ⟨req, e'.1.vars uv req.requestLine.path⟩ s rfl fun x => congrFun h2 x, h1]
      split
      · rfl
      · rfl
      · exact ih' _

/-- noting handlers note the calls -/
theorem replay_noting (uv : Bool) (req : Request) (T : Table) (st : Notes × Response) :
    replay uv req (T.log noting) st =
      .ok (st.1 ++ T.calls uv req.requestLine.method req.requestLine.path, st.2) := by
  induction T generalizing st with
  | nil => simp [Table.log, replay, Table.calls]
  | cons e T ih =>
    simp only [Table.log, List.map_cons, replay]
    by_cases h : e.1.applies uv req.requestLine.method req.requestLine.path = true
    · rw [if_pos h]
      simp only [noting]
      rw [show replay uv req (List.map (fun e => ⟨e.1, noting e.2⟩) T) _ = _ from ih _]
      simp [Table.calls, h]
    · rw [if_neg h, show replay uv req (List.map (fun e => ⟨e.1, noting e.2⟩) T) _ = _ from ih _]
      simp [Table.calls, h]

theorem noting_byName (n : Nat) : ByName (noting n) := by
  intro mr mr' s _ h
  simp only [noting]
  rw [show (fun k => mr.vars.get k) = fun k => mr'.vars.get k from funext h]

/-! ### what a path does depends on little of it -/

/-- where the last segment named `k` is -/
def place : PathBuf → Str → Option Nat
  | [], _ => none
  | a :: p, k =>
    match place p k with
    | some i => some (i + 1)
    | none => if a = ':' :: k then some 0 else none

theorem bind_place (p path : PathBuf) (hl : p.length = path.length) (m : HMap Str Str) (k : Str) :
    HMap.get ((p.zip path).foldl (fun m e => bindStep m e.1 e.2) m) k =
      match place p k with
      | some i => path[i]?
      | none => HMap.get m k := by
  induction p generalizing path m with
  | nil => rfl
  | cons a p ih =>
    cases path with
    | nil => simp at hl
    | cons b path =>
      simp only [List.zip_cons_cons, List.foldl_cons]
      rw [ih path (by simpa using hl)]
      simp only [place]
      cases place p k with
      | some i => simp
      | none =>
        simp only
        by_cases ha : a = ':' :: k
        · rw [if_pos ha]
          subst ha
          simp [bindStep]
        · rw [if_neg ha]
          unfold bindStep
          split
          · rename_i n
            exact HMap.get_insert_ne _ _ (by rintro rfl; exact ha rfl)
          · rfl

/-- where a registration takes the value of `k` from -/
def Spec.Target.place (uv : Bool) (t : Target) (k : Str) : Option Nat :=
  match t with
  | .on _ p => if uv then Octane.place p k else none
  | .anyMethod p => if uv then Octane.place p k else none
  | .everywhere => none

theorem patMatch_length {uv : Bool} {p path : PathBuf} (h : PatMatch uv p path) : p.length = path.length := by
  cases uv with
  | true => simp only [PatMatch, if_true] at h; exact h.1
  | false => simp only [PatMatch, Bool.false_eq_true, if_false] at h; rw [h.1]

theorem vars_place {uv : Bool} {t : Target} {m : RequestMethod} {path : PathBuf} (h : t.applies uv m path = true) (k : Str) :
    (t.vars uv path).get k = (t.place uv k).bind (path[·]?) := by
  have key : ∀ p, PatMatch uv p path → HMap.get (if uv then bindings p path else []) k =
      (if uv then place p k else none).bind (path[·]?) := by
    intro p hp
    cases uv with
    | false => rfl
    | true =>
      simp only [if_true]
      rw [bindings, bind_place p path (patMatch_length hp)]
      cases place p k <;> rfl
  cases t with
  | everywhere => rfl
  | on m' p =>
    simp only [Target.applies, Bool.and_eq_true, decide_eq_true_eq] at h
    exact key p h.2
  | anyMethod p =>
    simp only [Target.applies, decide_eq_true_eq] at h
    exact key p h

theorem fresh_ok (L i : Nat) : SegOk (fresh L i) := by
  have hmem : ∀ c ∈ fresh L i, c = 'x' := fun c hc => (List.mem_replicate.1 hc).2
  have hx : ∀ c, c ≠ 'x' → c ∉ fresh L i := fun c hc hm => hc (hmem c hm)
  refine ⟨by simp [fresh], fun e => hx '.' (by decide) (by rw [e]; simp), fun e => hx '.' (by decide) (by rw [e]; simp),
    hx _ (by decide), hx _ (by decide), no_crlf_of_no_cr (hx _ (by decide))⟩

theorem fresh_inj {L i j : Nat} (h : fresh L i = fresh L j) : i = j := by
  have := congrArg List.length h
  simp only [fresh, List.length_replicate] at this
  omega

/-- the path with everything that is not one of the constants replaced -/
def typical (K : List Str) (L : Nat) : Nat → PathBuf → PathBuf
  | _, [] => []
  | i, s :: p => (if s ∈ K then s else fresh L i) :: typical K L (i + 1) p

theorem typical_getElem (K : List Str) (L i : Nat) (path : PathBuf) (j : Nat) :
    (typical K L i path)[j]? = path[j]?.map fun s => if s ∈ K then s else fresh L (i + j) := by
  induction path generalizing i j with
  | nil => simp [typical]
  | cons s p ih =>
    cases j with
    | zero => simp [typical]
    | succ j =>
      simp only [typical, List.getElem?_cons_succ, ih]
      rw [show i + 1 + j = i + (j + 1) by omega]

theorem typical_length (K : List Str) (L i : Nat) (path : PathBuf) : (typical K L i path).length = path.length := by
  induction path generalizing i with
  | nil => rfl
  | cons s p ih => simp [typical, ih]

theorem typical_ok (K : List Str) (L i : Nat) (path : PathBuf) (h : ∀ x ∈ path, SegOk x) :
    ∀ x ∈ typical K L i path, SegOk x := by
  induction path generalizing i with
  | nil => simp [typical]
  | cons s p ih =>
    intro x hx
    simp only [typical, List.mem_cons] at hx
    rcases hx with rfl | hx
    · split
      · exact h s (by simp)
      · exact fresh_ok L i
    · exact ih (i + 1) (fun y hy => h y (List.mem_cons_of_mem _ hy)) x hx

/-- longer than each of these -/
def Longer (L : Nat) (K : List Str) : Prop := ∀ a ∈ K, a.length < L

theorem fresh_not_mem {K : List Str} {L i : Nat} (h : Longer L K) : fresh L i ∉ K := by
  intro hm
  have := h _ hm
  simp only [fresh, List.length_replicate] at this
  omega

/-- the replaced path is equal at two places only where the path is -/
theorem typical_eq {K : List Str} {L : Nat} (hL : Longer L K) (path : PathBuf) (i j : Nat)
    (h : (typical K L 0 path)[i]? = (typical K L 0 path)[j]?) : path[i]? = path[j]? := by
  rw [typical_getElem, typical_getElem] at h
  cases hi : path[i]? with
  | none =>
    cases hj : path[j]? with
    | none => rfl
    | some b => rw [hi, hj] at h; simp at h
  | some a =>
    cases hj : path[j]? with
    | none => rw [hi, hj] at h; simp at h
    | some b =>
      rw [hi, hj] at h
      simp only [Option.map_some, Option.some.injEq, Nat.zero_add] at h
      by_cases ha : a ∈ K <;> by_cases hb : b ∈ K
      · simp only [if_pos ha, if_pos hb] at h; rw [h]
      · simp only [if_pos ha, if_neg hb] at h
        exact absurd (h ▸ ha) (fresh_not_mem hL)
      · simp only [if_neg ha, if_pos hb] at h
        exact absurd (h ▸ hb) (fresh_not_mem hL)
      · simp only [if_neg ha, if_neg hb] at h
        have := fresh_inj h
        subst this
        rw [← hi, ← hj]

/-- the constants are where they are in the path -/
theorem typical_const {K : List Str} {L : Nat} (hL : Longer L K) {a : Str} (ha : a ∈ K) (path : PathBuf) (i : Nat) :
    (typical K L 0 path)[i]? = some a ↔ path[i]? = some a := by
  rw [typical_getElem]
  cases hi : path[i]? with
  | none => simp
  | some b =>
    simp only [Option.map_some, Option.some.injEq]
    by_cases hb : b ∈ K
    · rw [if_pos hb]
    · rw [if_neg hb]
      constructor
      · intro h; exact absurd (h ▸ ha) (fresh_not_mem hL)
      · intro h; exact absurd (h ▸ ha) hb

theorem typical_patMatch {uv : Bool} {K : List Str} {L : Nat} (hL : Longer L K) (p path : PathBuf)
    (hp : ∀ seg ∈ p, IsVar seg ∨ seg ∈ K) : PatMatch uv p (typical K L 0 path) ↔ PatMatch uv p path := by
  cases uv with
  | true =>
    simp only [PatMatch, if_true, Matches, typical_length]
    refine and_congr_right fun hlen => ?_
    constructor
    · intro h i a c ha hc
      by_cases hv : a.head? = some ':'
      · exact .inl hv
      · have haK : a ∈ K := (hp a (List.mem_of_getElem? ha)).resolve_left hv
        have hi : i < (typical K L 0 path).length := by
          rw [typical_length]; exact (List.getElem?_eq_some_iff.1 hc).1
        rcases h i a _ ha (List.getElem?_eq_getElem hi) with h1 | h1
        · exact absurd h1 hv
        · have := (typical_const hL haK path i).1 (by rw [List.getElem?_eq_getElem hi, h1])
          rw [hc] at this
          exact .inr (Option.some.inj this).symm
    · intro h i a c ha hc
      by_cases hv : a.head? = some ':'
      · exact .inl hv
      · have haK : a ∈ K := (hp a (List.mem_of_getElem? ha)).resolve_left hv
        have hi : i < path.length := by
          have := (List.getElem?_eq_some_iff.1 hc).1
          rwa [typical_length] at this
        rcases h i a _ ha (List.getElem?_eq_getElem hi) with h1 | h1
        · exact absurd h1 hv
        · have := (typical_const hL haK path i).2 (by rw [List.getElem?_eq_getElem hi, h1])
          rw [hc] at this
          exact .inr (Option.some.inj this).symm
  | false =>
    simp only [PatMatch, Bool.false_eq_true, if_false]
    refine and_congr_left fun hv => ?_
    have hK : ∀ a ∈ p, a ∈ K := fun a ha => (hp a ha).resolve_left (hv a ha)
    constructor
    · intro h
      refine List.ext_getElem? fun i => ?_
      cases hi : p[i]? with
      | none =>
        have := congrArg List.length h
        rw [typical_length] at this
        have := List.getElem?_eq_none_iff.1 hi
        exact (List.getElem?_eq_none_iff.2 (by omega)).symm
      | some a => exact ((typical_const hL (hK a (List.mem_of_getElem? hi)) path i).1 (by rw [← h, hi])).symm
    · intro h
      refine List.ext_getElem? fun i => ?_
      cases hi : p[i]? with
      | none =>
        have := congrArg List.length h
        have := List.getElem?_eq_none_iff.1 hi
        exact (List.getElem?_eq_none_iff.2 (by rw [typical_length]; omega)).symm
      | some a => exact ((typical_const hL (hK a (List.mem_of_getElem? hi)) path i).2 (by rw [← h, hi])).symm

theorem typical_applies {uv : Bool} {K : List Str} {L N : Nat} (hL : Longer L K) (t : Target) (ht : t.Over K N)
    (m : RequestMethod) (path : PathBuf) : t.applies uv m (typical K L 0 path) = t.applies uv m path := by
  cases t with
  | everywhere => rfl
  | on m' p => simp only [Target.applies, typical_patMatch hL p path ht.2]
  | anyMethod p => simp only [Target.applies, typical_patMatch hL p path ht.2]

theorem map_eq_of {α β γ : Type _} (f : α → β) (g : α → γ) (l l' : List α)
    (h : ∀ a ∈ l, ∀ b ∈ l', f a = f b → g a = g b) (e : l.map f = l'.map f) : l.map g = l'.map g := by
  induction l generalizing l' with
  | nil =>
    cases l' with
    | nil => rfl
    | cons b l' => simp at e
  | cons a l ih =>
    cases l' with
    | nil => simp at e
    | cons b l' =>
      simp only [List.map_cons, List.cons.injEq] at e ⊢
      exact ⟨h a (by simp) b (by simp) e.1,
        ih l' (fun x hx y hy => h x (List.mem_cons_of_mem _ hx) y (List.mem_cons_of_mem _ hy)) e.2⟩

/-- two tables that call the same for the replaced path call the same for the path -/
theorem typical_calls {uv : Bool} {K : List Str} {L N : Nat} (hL : Longer L K) (T T' : Table)
    (hT : ∀ e ∈ T, e.1.Over K N) (hT' : ∀ e ∈ T', e.1.Over K N) (m : RequestMethod) (path : PathBuf)
    (h : T.calls uv m (typical K L 0 path) = T'.calls uv m (typical K L 0 path)) :
    T.calls uv m path = T'.calls uv m path := by
  have hf : ∀ T : Table, (∀ e ∈ T, e.1.Over K N) → (T.filter fun e => e.1.applies uv m (typical K L 0 path)) =
      T.filter fun e => e.1.applies uv m path := by
    intro T hT
    exact List.filter_congr fun e he => typical_applies hL e.1 (hT e he) m path
  unfold Table.calls at h ⊢
  rw [← hf T hT, ← hf T' hT']
  refine map_eq_of _ _ _ _ (fun a ha b hb e => ?_) h
  have ka : a.1.applies uv m (typical K L 0 path) = true := by simpa using (List.mem_filter.1 ha).2
  have kb : b.1.applies uv m (typical K L 0 path) = true := by simpa using (List.mem_filter.1 hb).2
  have ka' := ka
  have kb' := kb
  rw [typical_applies hL _ (hT a (List.mem_filter.1 ha).1)] at ka'
  rw [typical_applies hL _ (hT' b (List.mem_filter.1 hb).1)] at kb'
  simp only [Prod.mk.injEq] at e ⊢
  refine ⟨e.1, funext fun k => ?_⟩
  have e2 := congrFun e.2 k
  simp only [vars_place ka, vars_place kb] at e2
  rw [vars_place ka', vars_place kb']
  have hnone : ∀ i : Nat, (typical K L 0 path)[i]? = none → path[i]? = none := by
    intro i hi
    rw [typical_getElem] at hi
    simpa using hi
  cases h1 : a.1.place uv k with
  | none =>
    cases h2 : b.1.place uv k with
    | none => rfl
    | some j => rw [h1, h2] at e2; exact (hnone j e2.symm).symm
  | some i =>
    cases h2 : b.1.place uv k with
    | none => rw [h1, h2] at e2; exact hnone i e2
    | some j => rw [h1, h2] at e2; exact typical_eq hL path i j e2

/-- paths longer than all patterns call the same -/
theorem long_calls {uv : Bool} {K : List Str} {N : Nat} (T : Table) (hT : ∀ e ∈ T, e.1.Over K N) (m : RequestMethod)
    (path path' : PathBuf) (h : N < path.length) (h' : N < path'.length) : T.calls uv m path = T.calls uv m path' := by
  have key : ∀ e ∈ T, ∀ path : PathBuf, N < path.length →
      (e.1.applies uv m path = true ↔ e.1 = .everywhere) := by
    intro e he path hp
    have ho := hT e he
    cases ht : e.1 with
    | everywhere => simp [Target.applies]
    | on m' p =>
      rw [ht] at ho
      simp only [Target.applies, Bool.and_eq_true, decide_eq_true_eq, reduceCtorEq, iff_false]
      rintro ⟨-, hm⟩
      have := patMatch_length hm
      have := ho.1
      omega
    | anyMethod p =>
      rw [ht] at ho
      simp only [Target.applies, decide_eq_true_eq, reduceCtorEq, iff_false]
      intro hm
      have := patMatch_length hm
      have := ho.1
      omega
  unfold Table.calls
  have hfil : (T.filter fun e => e.1.applies uv m path) = T.filter fun e => e.1.applies uv m path' := by
    refine List.filter_congr fun e he => ?_
    rw [Bool.eq_iff_iff, key e he path h, key e he path' h']
  rw [← hfil]
  refine List.map_congr_left fun e he => ?_
  obtain ⟨he, ha⟩ := List.mem_filter.1 he
  have := (key e he path h).1 ha
  rw [this]
  rfl

/-! ### the typical paths are finitely many -/

theorem typical_mem (K : List Str) (L i : Nat) (path : PathBuf) : typical K L i path ∈ typicals K L i path.length := by
  induction path generalizing i with
  | nil => simp [typical, typicals]
  | cons s p ih =>
    simp only [typical, typicals, List.length_cons, List.mem_flatMap, List.mem_map]
    refine ⟨_, ?_, _, ih (i + 1), rfl⟩
    split <;> simp_all

theorem typicals_length (K : List Str) (L i n : Nat) : (typicals K L i n).length = (K.length + 1) ^ n := by
  induction n generalizing i with
  | zero => rfl
  | succ n ih =>
    simp only [typicals, List.length_flatMap, List.length_map, ih]
    have : ∀ l : List Str, (l.map fun _ => (K.length + 1) ^ n).sum = l.length * (K.length + 1) ^ n := by
      intro l
      induction l with
      | nil => simp
      | cons a l ih' => simp [ih', Nat.succ_mul, Nat.add_comm]
    rw [this, Nat.pow_succ, List.length_cons, Nat.mul_comm]

theorem longest_longer (K : List Str) : Longer (longest K + 1) K := by
  intro a ha
  induction K with
  | nil => simp at ha
  | cons b K ih =>
    simp only [longest]
    rcases List.mem_cons.1 ha with rfl | ha
    · omega
    · have := ih ha; omega

end Octane
