import Verif.Spec.RouterFields
import Verif.Proof.Router
/-
Dispatching is merging, for any groups of matches; and the router holds what the table says.
-/
namespace Octane
open Spec
namespace Router
variable {S : Type u}

def mergeAll : List (List (MatchedPath (Closures S))) → List (MatchedPath (Closures S))
  | [] => []
  | v :: vs => List.merge v (mergeAll vs) before

def left (z : List (MatchedPath (Closures S)) × Nat) : List (MatchedPath (Closures S)) := z.1.drop z.2

theorem left_cons {v : List (MatchedPath (Closures S))} {i : Nat} {y : MatchedPath (Closures S)} (h : v[i]? = some y) :
    left (v, i) = y :: left (v, i + 1) := by
  obtain ⟨hlt, rfl⟩ := List.getElem?_eq_some_iff.1 h
  exact List.drop_eq_getElem_cons hlt

theorem left_nil {v : List (MatchedPath (Closures S))} {i : Nat} (h : v[i]? = none) : left (v, i) = [] :=
  List.drop_eq_nil_of_le (List.getElem?_eq_none_iff.1 h)

theorem mergeAll_length (vs : List (List (MatchedPath (Closures S)))) :
    (mergeAll vs).length = (vs.map List.length).sum := by
  induction vs with
  | nil => rfl
  | cons v vs ih => simp [mergeAll, List.length_merge, ih]

theorem mem_mergeAll {x : MatchedPath (Closures S)} {vs : List (List (MatchedPath (Closures S)))} :
    x ∈ mergeAll vs ↔ ∃ v ∈ vs, x ∈ v := by
  induction vs with
  | nil => simp [mergeAll]
  | cons v vs ih => simp [mergeAll, List.mem_merge, ih]

/-- the scan finds the head of the merge -/
theorem scanMin_merge (zs : List (List (MatchedPath (Closures S)) × Nat)) (n mi mv : Nat) :
    (mergeAll (zs.map left) = [] → scanMin zs n (mi, mv) = (mi, mv)) ∧
    ∀ x rest, mergeAll (zs.map left) = x :: rest →
      (x.data.index < mv → ∃ A v i B, zs = A ++ (v, i) :: B ∧ v[i]? = some x ∧
        scanMin zs n (mi, mv) = (n + A.length, x.data.index) ∧
        mergeAll ((A ++ (v, i + 1) :: B).map left) = rest) ∧
      (¬ x.data.index < mv → scanMin zs n (mi, mv) = (mi, mv)) := by
  induction zs generalizing n mi mv with
  | nil => simp [mergeAll, scanMin]
  | cons z zs ih =>
    obtain ⟨v, i⟩ := z
    cases hv : v[i]? with
    | none =>
      have hl := left_nil hv
      have hs : scanMin ((v, i) :: zs) n (mi, mv) = scanMin zs (n + 1) (mi, mv) := by simp [scanMin, hv]
      have hm : mergeAll (((v, i) :: zs).map left) = mergeAll (zs.map left) := by
        simp [mergeAll, hl, List.nil_merge]
      rw [hs, hm]
      refine ⟨(ih (n + 1) mi mv).1, fun x rest hx => ⟨fun hlt => ?_, ((ih (n + 1) mi mv).2 x rest hx).2⟩⟩
      obtain ⟨A, w, j, B, h1, h2, h3, h4⟩ := ((ih (n + 1) mi mv).2 x rest hx).1 hlt
      refine ⟨(v, i) :: A, w, j, B, by rw [h1]; rfl, h2, by rw [h3]; simp; omega, ?_⟩
      simpa [mergeAll, hl, List.nil_merge] using h4
    | some y =>
      have hl := left_cons hv
      have hm : mergeAll (((v, i) :: zs).map left) =
          List.merge (y :: left (v, i + 1)) (mergeAll (zs.map left)) before := by simp [mergeAll, hl]
      have hs : scanMin ((v, i) :: zs) n (mi, mv) =
          if y.data.index < mv then scanMin zs (n + 1) (n, y.data.index) else scanMin zs (n + 1) (mi, mv) := by
        simp [scanMin, hv]
      rw [hs, hm]
      cases hR : mergeAll (zs.map left) with
      | nil =>
        have e1 := (ih (n + 1) n y.data.index).1 hR
        have e2 := (ih (n + 1) mi mv).1 hR
        rw [List.merge_right, e1, e2]
        refine ⟨by simp, fun x rest hx => ?_⟩
        obtain ⟨rfl, rfl⟩ := List.cons.inj hx
        refine ⟨fun hlt => ⟨[], v, i, zs, rfl, hv, by simp [hlt], ?_⟩, fun hn => by simp [hn]⟩
        simp [mergeAll, hR, List.merge_right]
      | cons z R =>
        have hcons := List.cons_merge_cons before y z (left (v, i + 1)) R
        rw [hcons]
        by_cases hle : y.data.index ≤ z.data.index
        · have hb : before y z = true := by simp [before, hle]
          rw [if_pos hb]
          refine ⟨by simp, fun x rest hx => ?_⟩
          obtain ⟨rfl, rfl⟩ := List.cons.inj hx
          refine ⟨fun hlt => ⟨[], v, i, zs, rfl, hv, ?_, by simp [mergeAll, hR]⟩, fun hn => ?_⟩
          · rw [if_pos hlt, ((ih (n + 1) n y.data.index).2 z R hR).2 (by omega)]
            simp
          · rw [if_neg hn, ((ih (n + 1) mi mv).2 z R hR).2 (by omega)]
        · have hb : ¬ before y z = true := by simp [before]; omega
          rw [if_neg hb]
          refine ⟨by simp, fun x rest hx => ?_⟩
          obtain ⟨rfl, rfl⟩ := List.cons.inj hx
          refine ⟨fun hlt => ?_, fun hn => ?_⟩
          · have key : ∃ A w j B, zs = A ++ (w, j) :: B ∧ w[j]? = some z ∧
                (if y.data.index < mv then scanMin zs (n + 1) (n, y.data.index) else scanMin zs (n + 1) (mi, mv)) =
                  (n + 1 + A.length, z.data.index) ∧
                mergeAll ((A ++ (w, j + 1) :: B).map left) = R := by
              by_cases hy : y.data.index < mv
              · rw [if_pos hy]; exact ((ih (n + 1) n y.data.index).2 z R hR).1 (by omega)
              · rw [if_neg hy]; exact ((ih (n + 1) mi mv).2 z R hR).1 hlt
            obtain ⟨A, w, j, B, h1, h2, h3, h4⟩ := key
            refine ⟨(v, i) :: A, w, j, B, by rw [h1]; rfl, h2, by rw [h3]; simp; omega, ?_⟩
            simp only [List.cons_append, List.map_cons, mergeAll, h4, hl]
          · rw [if_neg (by omega), ((ih (n + 1) mi mv).2 z R hR).2 hn]

theorem dispatch_merge (req : Request) (mtch : List (List (MatchedPath (Closures S)))) (k : Nat) (indices : List Nat)
    (hlen : indices.length = mtch.length) (hk : (mergeAll ((mtch.zip indices).map left)).length = k)
    (hb : ∀ x ∈ mergeAll ((mtch.zip indices).map left), x.data.index < u64Max) (s : S) :
    dispatch req mtch k indices s = runDue req (mergeAll ((mtch.zip indices).map left)) s := by
  induction k generalizing indices s with
  | zero =>
    rw [List.eq_nil_of_length_eq_zero hk]
    rfl
  | succ k ih =>
    cases hm : mergeAll ((mtch.zip indices).map left) with
    | nil => rw [hm] at hk; simp at hk
    | cons x rest =>
      obtain ⟨A, v, i, B, h1, h2, h3, h4⟩ :=
        ((scanMin_merge (mtch.zip indices) 0 0 u64Max).2 x rest hm).1 (hb x (by simp [hm]))
      have hzip : (mtch.zip indices)[A.length]? = some (v, i) := by rw [h1]; simp
      obtain ⟨hmv, hiv⟩ : mtch[A.length]? = some v ∧ indices[A.length]? = some i := by
        rw [List.getElem?_zip_eq_some] at hzip
        exact hzip
      have hset : mtch.zip (indices.set A.length (i + 1)) = A ++ (v, i + 1) :: B := by
        have e1 : mtch.zip (indices.set A.length (i + 1)) = (mtch.zip indices).set A.length (v, i + 1) := by
          apply List.ext_getElem?
          intro j
          by_cases hj : j = A.length
          · subst hj
            have hl1 : A.length < indices.length := (List.getElem?_eq_some_iff.1 hiv).1
            have hl2 : A.length < (mtch.zip indices).length := (List.getElem?_eq_some_iff.1 hzip).1
            rw [List.getElem?_set_self hl2, List.getElem?_zip_eq_some]
            exact ⟨hmv, List.getElem?_set_self hl1⟩
          · rw [List.getElem?_set_ne (Ne.symm hj)]
            simp only [List.zip, List.getElem?_zipWith, List.getElem?_set_ne (Ne.symm hj)]
        rw [e1, h1]
        simp
      have hmin : (scanMin (mtch.zip indices) 0 (0, u64Max)).1 = A.length := by rw [h3]; simp
      simp only [dispatch, hmin, hmv, hiv, h2, runDue]
      cases x.data.closure ⟨req, x.vars⟩ s with
      | panic => rfl
      | ok y =>
        obtain ⟨s', flow⟩ := y
        cases flow with
        | stop => simp [Flow.shouldContinue]
        | next =>
          simp only [Res.bind_ok', Flow.shouldContinue, if_true]
          have := ih (indices.set A.length (i + 1)) (by simp [hlen])
            (by rw [hset, h4]; rw [hm] at hk; simpa using hk)
            (by rw [hset, h4]; intro x hx; exact hb x (by rw [hm]; exact List.mem_cons_of_mem _ hx)) s'
          rw [hset, h4] at this
          exact this

theorem left_zero (mtch : List (List (MatchedPath (Closures S)))) :
    (mtch.zip (List.replicate mtch.length 0)).map left = mtch := by
  induction mtch with
  | nil => rfl
  | cons v vs ih => simpa [List.replicate_succ, left] using ih

structure InvT (r : Router S) (T : Holding S) : Prop where
  count : r.routeCounter = T.counter
  mids : r.middlewares = T.middlewares
  uniq : HMap.Uniq r.paths
  trees : ∀ m, PathNode.Rep ((r.paths.get m).getD PathNode.new) (T.trees m)

theorem InvT.new : InvT (Router.new : Router S) .empty :=
  ⟨rfl, rfl, HMap.Uniq.nil, fun _ => PathNode.Rep.new⟩

theorem InvT.inject {r : Router S} {T : Holding S} (h : InvT r T) (v : Verb) (path : Str) (hd : Closure S) {r' : Router S}
    (hr : injectChecked r path hd v.method = .ok r') : InvT r' (table T (.route v path hd)) := by
  simp only [injectChecked, injectMethod] at hr
  simp only [table]
  cases hp : Path.parse path with
  | none =>
    simp only [hp, Res.bind_ok'] at hr
    rw [if_neg (by simp)] at hr
    obtain rfl := Res.ok.inj hr
    exact {
      count := h.count
      mids := h.mids
      uniq := h.uniq.insert _ _
      trees := fun m => by
        simp only [HMap.get_insert]
        have := h.trees m
        split
        · rename_i hm; subst hm; simpa using this
        · exact this }
  | some p =>
    have hne : ∀ x ∈ p, x ≠ [] := fun x hx => (Path.parse_normal hp x hx).1
    obtain ⟨n', h1, h2⟩ := (h.trees v.method).insert p ⟨hd, r.routeCounter⟩ hne
    simp only [hp, h1, Res.bind_ok'] at hr
    split at hr
    · simp at hr
    · obtain rfl := Res.ok.inj hr
      exact {
        count := by simp [h.count]
        mids := h.mids
        uniq := (h.uniq.insert _ _).insert _ _
        trees := fun m => by
          simp only [HMap.get_insert]
          by_cases hm : v.method = m
          · subst hm; simpa [h.count] using h2
          · have hm' : ¬ m = v.method := fun e => hm e.symm
            simpa [hm, hm'] using h.trees m }

theorem InvT.remove {r : Router S} {T : Holding S} (h : InvT r T) (m : RequestMethod) :
    InvT (removeTree r m) (table T (.removeTree m)) where
  count := h.count
  mids := h.mids
  uniq := h.uniq.remove m
  trees := fun x => by
    simp only [removeTree, table, HMap.get_remove h.uniq]
    by_cases hx : m = x
    · subst hx; simpa using PathNode.Rep.new
    · have hx' : ¬ x = m := fun e => hx e.symm
      simpa [hx, hx'] using h.trees x

theorem InvT.swap {r : Router S} {T : Holding S} (h : InvT r T) (m m' : RequestMethod) :
    InvT (swapTrees r m m') (table T (.swapTrees m m')) := by
  have u1 := h.uniq.remove m
  have u2 := u1.remove m'
  have hget : HMap.Uniq (swapTrees r m m').paths ∧ ∀ x, HMap.get (swapTrees r m m').paths x =
      if x = m then r.paths.get m' else if x = m' then r.paths.get m else r.paths.get x := by
    have g1 := fun x => HMap.get_remove h.uniq m x
    have g2 := fun x => HMap.get_remove u1 m' x
    by_cases hmm : m = m'
    · subst hmm
      simp only [swapTrees, g1]
      cases ha : HMap.get r.paths m with
      | none =>
        refine ⟨u2, fun x => ?_⟩
        simp only [g1, g2, if_true]
        grind
      | some a =>
        refine ⟨u2.insert _ _, fun x => ?_⟩
        simp only [g1, g2, if_true, HMap.get_insert]
        grind
    · simp only [swapTrees, g1, hmm, if_false]
      cases ha : HMap.get r.paths m <;> cases hb : HMap.get r.paths m' <;>
        refine ⟨?_, fun x => ?_⟩ <;>
        first
        | exact (u2.insert _ _).insert _ _
        | exact u2.insert _ _
        | exact u2
        | (simp only [g1, g2, HMap.get_insert]; grind)
  exact {
    count := h.count
    mids := h.mids
    uniq := hget.1
    trees := fun x => by
      rw [hget.2 x]
      simp only [table]
      by_cases h1 : x = m
      · simpa [h1] using h.trees m'
      · by_cases h2 : x = m'
        · simpa [h1, h2] using (by subst h2; simpa [h1] using h.trees m : PathNode.Rep _ _)
        · simpa [h1, h2] using h.trees x }

theorem InvT.insertTree {r : Router S} {T : Holding S} (h : InvT r T) (m : RequestMethod) (path : Str) (c : Closures S) :
    ∃ r', Router.insertTree r m path c = .ok r' ∧ InvT r' (table T (.insertTree m path c)) := by
  simp only [Router.insertTree, table]
  cases hp : Path.parse path with
  | none => exact ⟨r, rfl, h⟩
  | some p =>
    have hne : ∀ x ∈ p, x ≠ [] := fun x hx => (Path.parse_normal hp x hx).1
    obtain ⟨n', h1, h2⟩ := (h.trees m).insert p c hne
    simp only [h1, Res.bind_ok']
    refine ⟨_, rfl, h.count, h.mids, h.uniq.insert _ _, fun x => ?_⟩
    simp only [HMap.get_insert]
    by_cases hx : m = x
    · subst hx; simpa using h2
    · have hx' : ¬ x = m := fun e => hx e.symm
      simpa [hx, hx'] using h.trees x

theorem InvT.remakeTree {r : Router S} {T : Holding S} (h : InvT r T) (ord : PathNode.Order (Closures S))
    (m : RequestMethod) (g : PathData (Closures S) → Option (PathData (Closures S)))
    (hf : FairF (.remakeTree ord m g)) :
    ∃ r', Router.remakeTree ord r m g = .ok r' ∧ InvT r' (table T (.remakeTree ord m g)) := by
  obtain ⟨ho, hg⟩ : (∀ t m, (ord t m).Perm m) ∧ _ := by simpa only [FairF] using hf
  have hrep := h.trees m
  simp only [Router.remakeTree, table]
  cases hm : r.paths.get m with
  | none =>
    refine ⟨r, rfl, h.count, h.mids, h.uniq, fun x => ?_⟩
    rw [hm] at hrep
    have hnil : T.trees m = [] := by
      have := hrep.contents
      simp only [Option.getD_none, PathNode.new, PathNode.all, PathNode.allL] at this
      exact List.perm_nil.1 this.symm
    by_cases hx : x = m
    · subst hx; simpa [hm, hnil] using PathNode.Rep.new
    · simpa [hx] using h.trees x
  | some t =>
    rw [hm] at hrep
    obtain ⟨items, h1, hp⟩ := PathNode.ownedItems_perm ord ho t
    have hip : items.Perm (T.trees m) := hp.trans hrep.contents
    have hne : ∀ d ∈ items.filterMap g, ∀ c ∈ d.origPath, c ≠ [] := by
      intro d hd c hc
      obtain ⟨d0, hd0, e⟩ := List.mem_filterMap.1 hd
      rcases hg d0 d e with e | ⟨s, e⟩
      · rw [e] at hc
        exact hrep.nonempty d0 (hip.mem_iff.1 hd0) c hc
      · exact (Path.parse_normal e c hc).1
    obtain ⟨n', h2, h3⟩ := (PathNode.Rep.new (T := Closures S)).extend (items.filterMap g) hne
    have h2' : PathNode.fromIter (items.filterMap g) = .ok n' := h2
    simp only [h1, h2', Res.bind_ok']
    refine ⟨_, rfl, h.count, h.mids, (h.uniq.remove m).insert _ _, fun x => ?_⟩
    simp only [HMap.get_insert, HMap.get_remove h.uniq]
    by_cases hx : m = x
    · subst hx
      simpa using h3.perm (by simpa using hip.filterMap g)
    · have hx' : ¬ x = m := fun e => hx e.symm
      simpa [hx, hx'] using h.trees x

theorem InvT.append {r r2 r' : Router S} {T T2 : Holding S} (h : InvT r T) (h2 : InvT r2 T2)
    (ord : AppendOrder S) (ho : ∀ m, (ord.outer m).Perm m)
    (hi : ∀ meth t m, (ord.inner meth t m).Perm m) (hr : Router.append ord r r2 = .ok r') :
    InvT r' ⟨fun m => T.trees m ++ (T2.trees m).map fun e => ⟨e.origPath, renumber T.counter e.data⟩,
      T.middlewares ++ T2.middlewares.map (renumber T.counter), T.counter + T2.counter⟩ := by
  have hperm := ho r2.paths
  have hu2 : HMap.Uniq (ord.outer r2.paths) := h2.uniq.perm hperm
  obtain ⟨paths', hp1, hp2, hp3⟩ := appendPaths_ok ord.inner hi r.routeCounter (ord.outer r2.paths)
    T2.trees
    (fun m t hmt => by
      have hg := HMap.get_of_mem h2.uniq (hperm.mem_iff.1 hmt)
      have := h2.trees m
      rwa [hg] at this)
    hu2 r.paths T.trees h.trees h.uniq
  simp only [Router.append, hp1, Res.bind_ok'] at hr
  obtain rfl := Res.ok.inj hr
  exact {
    count := by simp [h.count, h2.count]
    mids := by simp only [h.mids, h2.mids, h.count]; rfl
    uniq := hp2
    trees := fun m => by
      have := hp3 m
      rw [HMap.get_perm h2.uniq hperm] at this
      have hsh : (T2.trees m).map (shiftItem r.routeCounter) =
          (T2.trees m).map fun e => ⟨e.origPath, renumber T.counter e.data⟩ := by rw [h.count]; rfl
      rw [hsh] at this
      cases hg : HMap.get r2.paths m with
      | some x => simpa [hg] using this
      | none =>
        have h0 := h2.trees m
        rw [hg] at h0
        have hnil : T2.trees m = [] := by
          have := h0.contents
          simp only [Option.getD_none, PathNode.new, PathNode.all, PathNode.allL] at this
          exact List.perm_nil.1 this.symm
        simp only [hnil]
        simpa [hg] using this }

theorem InvT.overflows {r r2 : Router S} {T T2 : Holding S} (h : InvT r T) (h2 : InvT r2 T2)
    (ord : AppendOrder S) (ho : ∀ m, (ord.outer m).Perm m) (hi : ∀ meth t m, (ord.inner meth t m).Perm m) :
    Router.appendOverflows ord r r2 = true ↔ ¬ T2.Fits T.counter := by
  have inTree : ∀ m t, (m, t) ∈ ord.outer r2.paths → ∃ items, PathNode.ownedItems (ord.inner m) t = some items ∧
      items.Perm (T2.trees m) := by
    intro m t hmt
    have hg := HMap.get_of_mem h2.uniq ((ho r2.paths).mem_iff.1 hmt)
    have hrep := h2.trees m
    rw [hg] at hrep
    obtain ⟨items, h1, hp⟩ := PathNode.ownedItems_perm (ord.inner m) (hi m) t
    exact ⟨items, h1, hp.trans hrep.contents⟩
  simp only [Router.appendOverflows, Bool.or_eq_true, List.any_eq_true, decide_eq_true_eq, h.count, h2.count, h2.mids,
    Holding.Fits]
  constructor
  · rintro ((⟨⟨m, t⟩, hmt, hx⟩ | ⟨v, hv, hx⟩) | hx) ⟨hN, hM, hc⟩
    · obtain ⟨items, h1, hp⟩ := inTree m t hmt
      simp only [h1, List.any_eq_true, decide_eq_true_eq] at hx
      obtain ⟨d, hd, hx⟩ := hx
      have := hN m d (hp.mem_iff.1 hd)
      omega
    · have := hM v hv
      omega
    · omega
  · intro hn
    by_cases hc : T.counter + T2.counter < 2 ^ 64
    · left
      by_cases hM : ∀ c ∈ T2.middlewares, c.index + T.counter < 2 ^ 64
      · left
        have : ∃ m, ∃ e ∈ T2.trees m, 2 ^ 64 ≤ e.data.index + T.counter := by
          apply Classical.byContradiction
          intro hno
          refine hn ⟨fun m e he => ?_, hM, hc⟩
          apply Classical.byContradiction
          intro hlt
          exact hno ⟨m, e, he, by omega⟩
        obtain ⟨m, e, he, hx⟩ := this
        cases hg : HMap.get r2.paths m with
        | none =>
          have h0 := h2.trees m
          rw [hg] at h0
          have := h0.contents
          simp only [Option.getD_none, PathNode.new, PathNode.all, PathNode.allL] at this
          rw [List.perm_nil.1 this.symm] at he
          simp at he
        | some t =>
          have hmt : (m, t) ∈ ord.outer r2.paths := (ho r2.paths).mem_iff.2 (HMap.mem_of_get hg)
          obtain ⟨items, h1, hp⟩ := inTree m t hmt
          refine ⟨(m, t), hmt, ?_⟩
          simp only [h1, List.any_eq_true, decide_eq_true_eq]
          exact ⟨_, hp.mem_iff.2 he, hx⟩
      · right
        apply Classical.byContradiction
        intro hno
        refine hM fun c hc => ?_
        apply Classical.byContradiction
        intro hlt
        exact hno ⟨c, hc, by omega⟩
    · right; omega

theorem InvT.append_ok {r r2 : Router S} {T T2 : Holding S} (h : InvT r T) (h2 : InvT r2 T2)
    (ord : AppendOrder S) (ho : ∀ m, (ord.outer m).Perm m)
    (hi : ∀ meth t m, (ord.inner meth t m).Perm m) : ∃ r', Router.append ord r r2 = .ok r' := by
  have hperm := ho r2.paths
  have hu2 : HMap.Uniq (ord.outer r2.paths) := h2.uniq.perm hperm
  obtain ⟨paths', hp1, -⟩ := appendPaths_ok ord.inner hi r.routeCounter (ord.outer r2.paths)
    T2.trees
    (fun m t hmt => by
      have hg := HMap.get_of_mem h2.uniq (hperm.mem_iff.1 hmt)
      have := h2.trees m
      rwa [hg] at this)
    hu2 r.paths T.trees h.trees h.uniq
  exact ⟨_, by simp only [Router.append, hp1, Res.bind_ok']; rfl⟩

theorem InvT.inject_ok {r : Router S} {T : Holding S} (h : InvT r T) (v : Verb) (path : Str) (hd : Closure S) :
    ((Path.parse path ≠ none → T.counter + 1 < 2 ^ 64) → ∃ r', injectChecked r path hd v.method = .ok r') ∧
    (¬ (Path.parse path ≠ none → T.counter + 1 < 2 ^ 64) → injectChecked r path hd v.method = .panic) := by
  simp only [injectChecked, injectMethod]
  cases hp : Path.parse path with
  | none =>
    simp only [Res.bind_ok']
    exact ⟨fun _ => ⟨_, if_neg (by simp)⟩, fun hn => absurd (fun e => absurd rfl e) hn⟩
  | some p =>
    have hne : ∀ x ∈ p, x ≠ [] := fun x hx => (Path.parse_normal hp x hx).1
    obtain ⟨n', h1, h2⟩ := (h.trees v.method).insert p ⟨hd, r.routeCounter⟩ hne
    simp only [h1, Res.bind_ok']
    simp only [h.count]
    refine ⟨fun hfit => ⟨_, if_neg ?_⟩, fun hn => ?_⟩
    · have := hfit (by simp)
      simp; omega
    · have : ¬ T.counter + 1 < 2 ^ 64 := fun hlt => hn fun _ => hlt
      rw [if_pos ⟨trivial, by omega⟩]

mutual
theorem execF_inv (x : FCall S) (hf : FairF x) (r : Router S) (T : Holding S) (h : InvT r T) :
    (FieldFits T x → ∃ r', execF r x = .ok r' ∧ InvT r' (table T x)) ∧ (¬ FieldFits T x → execF r x = .panic) := by
  cases x with
  | route v path hd =>
    obtain ⟨h1, h2⟩ := h.inject_ok v path hd
    simp only [FieldFits, execF]
    refine ⟨fun hfit => ?_, h2⟩
    obtain ⟨r', hr⟩ := h1 hfit
    exact ⟨r', hr, h.inject v path hd hr⟩
  | add hd =>
    simp only [execF, addChecked, FieldFits, h.count]
    refine ⟨fun hfit => ⟨_, if_neg (by omega), ?_⟩, fun hn => if_pos (by omega)⟩
    exact ⟨by simp [Router.add, table, h.count], by simp [Router.add, table, h.mids, h.count], h.uniq, h.trees⟩
  | counter n =>
    simp only [FieldFits, execF]
    exact ⟨fun _ => ⟨_, rfl, ⟨rfl, h.mids, h.uniq, h.trees⟩⟩, fun hn => absurd trivial hn⟩
  | middlewares f =>
    simp only [FieldFits, execF]
    exact ⟨fun _ => ⟨_, rfl, ⟨h.count, by simp [writeMiddlewares, table, h.mids], h.uniq, h.trees⟩⟩,
      fun hn => absurd trivial hn⟩
  | removeTree m =>
    simp only [FieldFits, execF]
    exact ⟨fun _ => ⟨_, rfl, h.remove m⟩, fun hn => absurd trivial hn⟩
  | swapTrees m m' =>
    simp only [FieldFits, execF]
    exact ⟨fun _ => ⟨_, rfl, h.swap m m'⟩, fun hn => absurd trivial hn⟩
  | insertTree m path c =>
    simp only [FieldFits, execF]
    exact ⟨fun _ => h.insertTree m path c, fun hn => absurd trivial hn⟩
  | remakeTree ord m g =>
    simp only [FieldFits, execF]
    exact ⟨fun _ => h.remakeTree ord m g hf, fun hn => absurd trivial hn⟩
  | mount calls ord =>
    obtain ⟨f1, f2, f3⟩ : FairFL calls ∧ _ ∧ _ := by simpa [FairF] using hf
    obtain ⟨ok, bad⟩ := execFL_inv calls f1 Router.new .empty InvT.new
    simp only [execF, FieldFits, table]
    by_cases hfit : FieldFitsL Holding.empty calls
    · obtain ⟨sub, h1, h2⟩ := ok hfit
      simp only [h1, Res.bind_ok', Router.appendChecked]
      have hov := h.overflows h2 ord f2 f3
      obtain ⟨r', h3⟩ := h.append_ok h2 ord f2 f3
      refine ⟨fun hm => ⟨r', ?_, h.append h2 ord f2 f3 h3⟩, fun hn => ?_⟩
      · rw [if_neg (fun e => (hov.1 e) hm.2), h3]
      · rw [if_pos (hov.2 fun e => hn ⟨hfit, e⟩)]
    · exact ⟨fun hm => absurd hm.1 hfit, fun _ => by rw [bad hfit]; rfl⟩
theorem execFL_inv (xs : List (FCall S)) (hf : FairFL xs) (r : Router S) (T : Holding S) (h : InvT r T) :
    (FieldFitsL T xs → ∃ r', execFL r xs = .ok r' ∧ InvT r' (tableL T xs)) ∧
    (¬ FieldFitsL T xs → execFL r xs = .panic) := by
  cases xs with
  | nil =>
    simp only [execFL, FieldFitsL, tableL]
    exact ⟨fun _ => ⟨r, rfl, h⟩, fun hn => absurd trivial hn⟩
  | cons x xs =>
    obtain ⟨f1, f2⟩ : FairF x ∧ FairFL xs := by simpa [FairFL] using hf
    obtain ⟨ok, bad⟩ := execF_inv x f1 r T h
    simp only [execFL, FieldFitsL, tableL]
    by_cases hfit : FieldFits T x
    · obtain ⟨r1, h1, h2⟩ := ok hfit
      obtain ⟨ok2, bad2⟩ := execFL_inv xs f2 r1 _ h2
      simp only [h1, Res.bind_ok']
      refine ⟨fun hm => ?_, fun hn => bad2 fun e => hn ⟨hfit, e⟩⟩
      exact ok2 hm.2
    · exact ⟨fun hm => absurd hm.1 hfit, fun _ => by rw [bad hfit]; rfl⟩
end

theorem execFL_table {xs : List (FCall S)} (hf : FairFL xs) {r : Router S} (hr : execFL Router.new xs = .ok r) :
    InvT r (tableL .empty xs) := by
  obtain ⟨ok, bad⟩ := execFL_inv xs hf Router.new .empty InvT.new
  by_cases hfit : FieldFitsL (Holding.empty : Holding S) xs
  · obtain ⟨r', h1, h2⟩ := ok hfit
    rw [hr] at h1
    obtain rfl := Res.ok.inj h1
    exact h2
  · rw [bad hfit] at hr
    simp at hr

theorem methodMatchesT {r : Router S} {T : Holding S} (h : InvT r T) (uv : Bool) (m : RequestMethod) (q : PathBuf) :
    ∃ vs A, methodMatches uv r m q = .ok vs ∧ A.Perm (due uv q (T.trees m)) ∧
      A.Pairwise (fun a b => a.data.index ≤ b.data.index) ∧ (vs = [A] ∨ (vs = [] ∧ A = [])) := by
  unfold methodMatches
  have hrep := h.trees m
  cases hg : r.paths.get m with
  | none =>
    rw [hg] at hrep
    have hnil : T.trees m = [] := by
      have := hrep.contents
      simp only [Option.getD_none, PathNode.new, PathNode.all, PathNode.allL] at this
      exact List.perm_nil.1 this.symm
    exact ⟨[], [], rfl, by simp [hnil, due], .nil, .inr ⟨rfl, rfl⟩⟩
  | some n =>
    rw [hg] at hrep
    obtain ⟨l, h1, h2⟩ := hrep.get uv q
    simp only [Option.getD_some] at h1
    refine ⟨[sortByIndex l], sortByIndex l, by simp [h1], ?_, ?_, .inl rfl⟩
    · refine ((List.mergeSort_perm l _).trans h2).trans ?_
      simp only [due, decide_patMatch]
      exact .refl _
    · have hsorted := List.pairwise_mergeSort
        (le := fun (a b : MatchedPath (Closures S)) => decide (a.data.index ≤ b.data.index))
        (by intro a b c; simp; omega) (by intro a b; simp; omega) l
      exact hsorted.imp fun hab => by simpa using hab

theorem runT_eq {r : Router S} {T : Holding S} (h : InvT r T) (uv : Bool) (req : Request)
    (hb : ∀ m, ∀ e ∈ T.trees m, e.data.index < u64Max) (hbm : ∀ c ∈ T.middlewares, c.index < u64Max) :
    ∃ A B, A.Perm (due uv req.requestLine.path (T.trees req.requestLine.method)) ∧
      A.Pairwise (fun a b => a.data.index ≤ b.data.index) ∧
      B.Perm (due uv req.requestLine.path (T.trees .all)) ∧
      B.Pairwise (fun a b => a.data.index ≤ b.data.index) ∧
      ∀ s, run uv r req s =
        runDue req (List.merge A (List.merge B (always T.middlewares) before) before) s := by
  obtain ⟨m1, A, a1, a2, a3, a4⟩ := methodMatchesT h uv req.requestLine.method req.requestLine.path
  obtain ⟨m2, B, b1, b2, b3, b4⟩ := methodMatchesT h uv .all req.requestLine.path
  refine ⟨A, B, a2, a3, b2, b3, fun s => ?_⟩
  let mtch := m1 ++ m2 ++ [always r.middlewares]
  have hrun : run uv r req s = dispatch req mtch (mtch.map List.length).sum (List.replicate mtch.length 0) s := by
    simp only [run, collectMatches, a1, b1, Res.bind_ok']; rfl
  have hall : mergeAll mtch = List.merge A (List.merge B (always T.middlewares) before) before := by
    simp only [mtch, h.mids]
    rcases a4 with rfl | ⟨rfl, rfl⟩ <;> rcases b4 with rfl | ⟨rfl, rfl⟩ <;>
      simp [mergeAll, List.nil_merge, List.merge_right]
  have hdue : ∀ m, ∀ x ∈ due uv req.requestLine.path (T.trees m), x.data.index < u64Max := by
    intro m x hx
    simp only [due, List.mem_map] at hx
    obtain ⟨e, he, rfl⟩ := hx
    exact hb m e (List.mem_filter.1 he).1
  rw [hrun, dispatch_merge req mtch _ _ (by simp) (by rw [left_zero, mergeAll_length]) ?_, left_zero, hall]
  rw [left_zero, hall]
  intro x hx
  simp only [List.mem_merge] at hx
  rcases hx with hx | hx | hx
  · exact hdue _ x (a2.mem_iff.1 hx)
  · exact hdue _ x (b2.mem_iff.1 hx)
  · simp only [always, List.mem_map] at hx
    obtain ⟨c, hc, rfl⟩ := hx
    exact hbm c hc

end Router
end Octane
