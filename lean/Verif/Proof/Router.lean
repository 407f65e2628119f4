import Verif.Spec.Router
import Verif.Proof.Trie
/-
The router refines the log of its registrations.
-/
namespace Octane
open Spec
namespace Router
variable {S : Type u}

/-! ### what the log says the data structures contain -/

def itemOf (m : RequestMethod) (e : Reg S) (i : Nat) : List (PathData (Closures S)) :=
  match e.target with
  | .on m' p => if m' = m then [⟨p, ⟨e.handler, i⟩⟩] else []
  | .anyMethod p => if m = .all then [⟨p, ⟨e.handler, i⟩⟩] else []
  | .everywhere => []

def itemsFrom (m : RequestMethod) : Nat → List (Reg S) → List (PathData (Closures S))
  | _, [] => []
  | i, e :: L => itemOf m e i ++ itemsFrom m (i + 1) L

def midOf (e : Reg S) (i : Nat) : List (Closures S) :=
  match e.target with
  | .everywhere => [⟨e.handler, i⟩]
  | _ => []

def midsFrom : Nat → List (Reg S) → List (Closures S)
  | _, [] => []
  | i, e :: L => midOf e i ++ midsFrom (i + 1) L

theorem itemsFrom_append (m : RequestMethod) (i : Nat) (a b : List (Reg S)) :
    itemsFrom m i (a ++ b) = itemsFrom m i a ++ itemsFrom m (i + a.length) b := by
  induction a generalizing i with
  | nil => simp [itemsFrom]
  | cons e a ih => simp [itemsFrom, ih]; congr 1; omega

theorem midsFrom_append (i : Nat) (a b : List (Reg S)) :
    midsFrom i (a ++ b) = midsFrom i a ++ midsFrom (i + a.length) b := by
  induction a generalizing i with
  | nil => simp [midsFrom]
  | cons e a ih => simp [midsFrom, ih]; congr 1; omega

def shiftItem (k : Nat) (d : PathData (Closures S)) : PathData (Closures S) :=
  { d with data := { d.data with index := d.data.index + k } }

theorem itemOf_shift (m : RequestMethod) (e : Reg S) (i k : Nat) :
    (itemOf m e i).map (shiftItem k) = itemOf m e (i + k) := by
  unfold itemOf
  split
  · split <;> simp [shiftItem]
  · split <;> simp [shiftItem]
  · rfl

theorem itemsFrom_shift (m : RequestMethod) (i k : Nat) (L : List (Reg S)) :
    (itemsFrom m i L).map (shiftItem k) = itemsFrom m (i + k) L := by
  induction L generalizing i with
  | nil => rfl
  | cons e L ih =>
    simp only [itemsFrom, List.map_append, itemOf_shift, ih]
    rw [Nat.add_right_comm]

theorem midsFrom_shift (i k : Nat) (L : List (Reg S)) :
    (midsFrom i L).map (fun v => { v with index := v.index + k }) = midsFrom (i + k) L := by
  induction L generalizing i with
  | nil => rfl
  | cons e L ih =>
    simp only [midsFrom, List.map_append, ih]
    rw [Nat.add_right_comm]
    congr 1
    unfold midOf
    split <;> simp

/-! ### the invariant -/

structure Inv (r : Router S) (L : List (Reg S)) : Prop where
  count : r.routeCounter = L.length
  mids : r.middlewares = midsFrom 0 L
  uniq : HMap.Uniq r.paths
  trees : ∀ m, PathNode.Rep ((r.paths.get m).getD PathNode.new) (itemsFrom m 0 L)
  targets : ∀ e ∈ L, ∀ p, e.target ≠ .on .all p

theorem Inv.new : Inv (Router.new : Router S) [] where
  count := rfl
  mids := rfl
  uniq := HMap.Uniq.nil
  trees := fun m => PathNode.Rep.new
  targets := by simp

theorem Inv.add {r : Router S} {L : List (Reg S)} (h : Inv r L) (c : Closure S) :
    Inv (Router.add r c) (L ++ [⟨.everywhere, c⟩]) where
  count := by simp [Router.add, h.count]
  mids := by simp [Router.add, h.mids, h.count, midsFrom_append, midsFrom, midOf]
  uniq := h.uniq
  trees := fun m => by
    have := h.trees m
    simpa [Router.add, itemsFrom_append, itemsFrom, itemOf] using this
  targets := by
    intro e he p
    rcases List.mem_append.1 he with he | he
    · exact h.targets e he p
    · have : e = ⟨.everywhere, c⟩ := by simpa using he
      subst this; simp

theorem itemOf_verb (v : Verb) (p : PathBuf) (c : Closure S) (m : RequestMethod) (i : Nat) :
    itemOf m ⟨v.target p, c⟩ i = if v.method = m then [⟨p, ⟨c, i⟩⟩] else [] := by
  cases v <;> simp [itemOf, Verb.target, Verb.method, eq_comm]

theorem midOf_verb (v : Verb) (p : PathBuf) (c : Closure S) (i : Nat) :
    midOf ⟨v.target p, c⟩ i = [] := by
  cases v <;> rfl

theorem Inv.reject {r : Router S} {L : List (Reg S)} (h : Inv r L) (v : Verb) {path : Str}
    (c : Closure S) (hp : Path.parse path = none) :
    ∃ r', Router.injectMethod r path c v.method = .ok (r', false) ∧ Inv r' L := by
  refine ⟨_, by simp only [Router.injectMethod, hp]; rfl, ?_⟩
  exact {
    count := h.count
    mids := h.mids
    uniq := h.uniq.insert _ _
    trees := fun m => by
      simp only [HMap.get_insert]
      have := h.trees m
      split
      · rename_i hm; subst hm; simpa using this
      · exact this
    targets := h.targets }

theorem Inv.route {r : Router S} {L : List (Reg S)} (h : Inv r L) (v : Verb) {path : Str} {p : PathBuf}
    (c : Closure S) (hp : Path.parse path = some p) :
    ∃ r', Router.injectMethod r path c v.method = .ok (r', true) ∧ Inv r' (L ++ [⟨v.target p, c⟩]) := by
  have hne : ∀ x ∈ p, x ≠ [] := fun x hx => (Path.parse_normal hp x hx).1
  obtain ⟨n', h1, h2⟩ := (h.trees v.method).insert p ⟨c, r.routeCounter⟩ hne
  refine ⟨_, by simp only [Router.injectMethod, hp, h1, Res.bind_ok']; rfl, ?_⟩
  exact {
    count := by simp [h.count]
    mids := by simp [h.mids, midsFrom_append, midsFrom, midOf_verb]
    uniq := (h.uniq.insert _ _).insert _ _
    trees := fun m => by
      simp only [HMap.get_insert, itemsFrom_append, itemsFrom, itemOf_verb, List.append_nil,
        Nat.zero_add]
      by_cases hm : v.method = m
      · subst hm; simpa [h.count] using h2
      · simpa [hm] using h.trees m
    targets := by
      intro e he q
      rcases List.mem_append.1 he with he | he
      · exact h.targets e he q
      · have : e = ⟨v.target p, c⟩ := by simpa using he
        subst this
        cases v <;> simp [Verb.target, Verb.method] }

/-- the loop of `append` over the other router's trees -/
theorem appendPaths_ok (inner : RequestMethod → PathNode.Order (Closures S))
    (hin : ∀ meth t m, (inner meth t m).Perm m) (k : Nat)
    (l : HMap RequestMethod (PathNode (Closures S)))
    (its : RequestMethod → List (PathData (Closures S)))
    (hl : ∀ m t, (m, t) ∈ l → PathNode.Rep t (its m)) (hu : HMap.Uniq l)
    (paths : HMap RequestMethod (PathNode (Closures S)))
    (base : RequestMethod → List (PathData (Closures S)))
    (hb : ∀ m, PathNode.Rep ((paths.get m).getD PathNode.new) (base m)) (hpu : HMap.Uniq paths) :
    ∃ paths', appendPaths inner k l paths = .ok paths' ∧ HMap.Uniq paths' ∧
      ∀ m, PathNode.Rep ((paths'.get m).getD PathNode.new)
        (base m ++ if (l.get m).isSome then (its m).map (shiftItem k) else []) := by
  induction l generalizing paths base with
  | nil => exact ⟨paths, rfl, hpu, fun m => by simpa using hb m⟩
  | cons e l ih =>
    obtain ⟨meth, tree⟩ := e
    have hrep := hl meth tree (by simp)
    obtain ⟨items, hi, hperm⟩ := PathNode.ownedItems_perm (inner meth) (hin meth) tree
    have hip : items.Perm (its meth) := hperm.trans hrep.contents
    have hne : ∀ d ∈ items.map (shiftItem k), ∀ c ∈ d.origPath, c ≠ [] := by
      intro d hd c hc
      obtain ⟨d0, hd0, rfl⟩ := List.mem_map.1 hd
      exact hrep.nonempty d0 (hip.mem_iff.1 hd0) c hc
    obtain ⟨x', hx, hxr⟩ := (hb meth).extend (items.map (shiftItem k)) hne
    have hxr' : PathNode.Rep x' (base meth ++ (its meth).map (shiftItem k)) :=
      hxr.perm ((hip.map _).append_left _)
    simp only [HMap.Uniq, List.map_cons, List.nodup_cons] at hu
    have hstep : appendPaths inner k ((meth, tree) :: l) paths =
        appendPaths inner k l (paths.insert meth x') := by
      simp only [appendPaths, hi]
      cases hg : paths.get meth with
      | none =>
        rw [hg] at hx
        have : PathNode.fromIter (items.map (shiftItem k)) = .ok x' := hx
        unfold shiftItem at this
        simp only [this, Res.bind_ok']
      | some x =>
        rw [hg] at hx
        have : PathNode.extend x (items.map (shiftItem k)) = .ok x' := hx
        unfold shiftItem at this
        simp only [this, Res.bind_ok']
    obtain ⟨paths', h1, h2, h3⟩ := ih (fun m t hmt => hl m t (List.mem_cons_of_mem _ hmt)) hu.2
      (paths.insert meth x')
      (fun m => if meth = m then base m ++ (its m).map (shiftItem k) else base m)
      (fun m => by
        rw [HMap.get_insert]
        by_cases hm : meth = m
        · subst hm; simpa using hxr'
        · simpa [hm] using hb m)
      (hpu.insert _ _)
    refine ⟨paths', hstep.trans h1, h2, fun m => ?_⟩
    have := h3 m
    by_cases hm : meth = m
    · subst hm
      have hnone : HMap.get l meth = none := HMap.get_eq_none_iff.2 hu.1
      simpa [HMap.get, hnone] using this
    · simpa [HMap.get, hm] using this

theorem Inv.append {r r2 : Router S} {L L2 : List (Reg S)} (h : Inv r L) (h2 : Inv r2 L2)
    (ord : AppendOrder S) (ho : ∀ m, (ord.outer m).Perm m)
    (hi : ∀ meth t m, (ord.inner meth t m).Perm m) :
    ∃ r', Router.append ord r r2 = .ok r' ∧ Inv r' (L ++ L2) := by
  have hperm := ho r2.paths
  have hu2 : HMap.Uniq (ord.outer r2.paths) := h2.uniq.perm hperm
  obtain ⟨paths', hp1, hp2, hp3⟩ := appendPaths_ok ord.inner hi r.routeCounter (ord.outer r2.paths)
    (fun m => itemsFrom m 0 L2)
    (fun m t hmt => by
      have hg := HMap.get_of_mem h2.uniq (hperm.mem_iff.1 hmt)
      have := h2.trees m
      rwa [hg] at this)
    hu2 r.paths (fun m => itemsFrom m 0 L) h.trees h.uniq
  refine ⟨_, by simp only [Router.append, hp1, Res.bind_ok']; rfl, ?_⟩
  exact {
    count := by simp [h.count, h2.count]
    mids := by
      simp only [h.mids, h2.mids, midsFrom_append, midsFrom_shift, h.count, Nat.zero_add]
    uniq := hp2
    trees := fun m => by
      have := hp3 m
      rw [HMap.get_perm h2.uniq hperm] at this
      simp only [itemsFrom_append, Nat.zero_add]
      have hsh : (itemsFrom m 0 L2).map (shiftItem r.routeCounter) = itemsFrom m L.length L2 := by
        rw [itemsFrom_shift, h.count, Nat.zero_add]
      rw [← hsh]
      cases hg : HMap.get r2.paths m with
      | some x => simpa [hg] using this
      | none =>
        have h0 := h2.trees m
        rw [hg] at h0
        have hnil : itemsFrom m 0 L2 = [] := by
          have := h0.contents
          simp only [Option.getD_none, PathNode.new, PathNode.all, PathNode.allL] at this
          exact List.perm_nil.1 this.symm
        rw [hnil]
        simpa [hg] using this
    targets := by
      intro e he p
      rcases List.mem_append.1 he with he | he
      · exact h.targets e he p
      · exact h2.targets e he p }

mutual
theorem exec_inv (c : Call S) (hf : Fair c) (r : Router S) (L : List (Reg S)) (h : Inv r L) :
    ∃ r', exec r c = .ok r' ∧ Inv r' (L ++ logOf c) := by
  cases c with
  | route v path hd =>
    cases hp : Path.parse path with
    | none =>
      obtain ⟨r', h1, h2⟩ := h.reject v hd hp
      exact ⟨r', by simp [exec, h1], by simpa [logOf, hp] using h2⟩
    | some p =>
      obtain ⟨r', h1, h2⟩ := h.route v hd hp
      exact ⟨r', by simp [exec, h1], by simpa [logOf, hp] using h2⟩
  | add hd => exact ⟨_, rfl, by simpa [logOf] using h.add hd⟩
  | mount calls ord =>
    obtain ⟨f1, f2, f3⟩ : FairL calls ∧ _ ∧ _ := by simpa [Fair] using hf
    obtain ⟨sub, h1, h2⟩ := execL_inv calls f1 Router.new [] Inv.new
    rw [List.nil_append] at h2
    obtain ⟨r', h3, h4⟩ := h.append h2 ord f2 f3
    exact ⟨r', by simp [exec, h1, h3], by simpa [logOf] using h4⟩
theorem execL_inv (cs : List (Call S)) (hf : FairL cs) (r : Router S) (L : List (Reg S)) (h : Inv r L) :
    ∃ r', execL r cs = .ok r' ∧ Inv r' (L ++ logOfL cs) := by
  cases cs with
  | nil => exact ⟨r, rfl, by simpa [logOfL] using h⟩
  | cons c cs =>
    obtain ⟨f1, f2⟩ : Fair c ∧ FairL cs := by simpa [FairL] using hf
    obtain ⟨r1, h1, h2⟩ := exec_inv c f1 r L h
    obtain ⟨r2, h3, h4⟩ := execL_inv cs f2 r1 _ h2
    exact ⟨r2, by simp [execL, h1, h3], by simpa [logOfL] using h4⟩
end

/-! ### dispatch -/

/-- run a list of matches in order -/
def runList (req : Request) : List (MatchedPath (Closures S)) → S → Res S
  | [], s => .ok s
  | x :: xs, s =>
    (x.data.closure { request := req, vars := x.vars } s).bind fun (s', flow) =>
      if flow.shouldContinue then runList req xs s' else .ok s'

/-- strictly increasing index -/
def Ord (l : List (MatchedPath (Closures S))) : Prop :=
  l.Pairwise fun a b => a.data.index < b.data.index

/-- what is left of each list -/
def rests (zs : List (List (MatchedPath (Closures S)) × Nat)) : List (MatchedPath (Closures S)) :=
  zs.flatMap fun z => z.1.drop z.2

theorem scanMin_keep (zs : List (List (MatchedPath (Closures S)) × Nat)) (n mi mv : Nat)
    (h : ∀ z ∈ zs, ∀ y, z.1[z.2]? = some y → mv < y.data.index) : (scanMin zs n (mi, mv)).1 = mi := by
  induction zs generalizing n with
  | nil => rfl
  | cons z zs ih =>
    obtain ⟨v, i⟩ := z
    have ih' := fun n => ih n (fun z hz => h z (List.mem_cons_of_mem _ hz))
    unfold scanMin
    cases hv : v[i]? with
    | none => simp [ih']
    | some y =>
      have := h (v, i) (by simp) y hv
      have : ¬ y.data.index < mv := by omega
      simp [this, ih']

theorem scanMin_find (A B : List (List (MatchedPath (Closures S)) × Nat))
    (v : List (MatchedPath (Closures S))) (i : Nat) (x : MatchedPath (Closures S)) (hx : v[i]? = some x)
    (hA : ∀ z ∈ A, ∀ y, z.1[z.2]? = some y → x.data.index < y.data.index)
    (hB : ∀ z ∈ B, ∀ y, z.1[z.2]? = some y → x.data.index < y.data.index)
    (n mi mv : Nat) (hmv : x.data.index < mv) :
    (scanMin (A ++ (v, i) :: B) n (mi, mv)).1 = n + A.length := by
  induction A generalizing n mi mv with
  | nil => simp [scanMin, hx, hmv, scanMin_keep B _ _ _ hB]
  | cons z A ih =>
    obtain ⟨w, j⟩ := z
    have ih' := fun n mi mv hmv => ih (fun z hz => hA z (List.mem_cons_of_mem _ hz)) n mi mv hmv
    simp only [List.cons_append]
    unfold scanMin
    cases hw : w[j]? with
    | none =>
      simp only
      rw [ih' _ _ _ hmv]; simp; omega
    | some y =>
      have hy := hA (w, j) (by simp) y hw
      simp only
      split
      · rw [ih' _ _ _ hy]; simp; omega
      · rw [ih' _ _ _ hmv]; simp; omega

theorem dispatch_eq (req : Request) (mtch : List (List (MatchedPath (Closures S))))
    (hs : ∀ v ∈ mtch, Ord v) (M : List (MatchedPath (Closures S))) (hM : Ord M)
    (hb : ∀ x ∈ M, x.data.index < u64Max) (indices : List Nat) (hlen : indices.length = mtch.length)
    (hp : M.Perm (rests (mtch.zip indices))) (s : S) :
    dispatch req mtch M.length indices s = runList req M s := by
  induction M generalizing indices s with
  | nil => rfl
  | cons x M ih =>
    -- locate the list whose next element is `x`
    have hxmem : x ∈ rests (mtch.zip indices) := hp.mem_iff.1 (by simp)
    obtain ⟨⟨v, i⟩, hz, hxv⟩ := List.mem_flatMap.1 hxmem
    obtain ⟨A, B, hAB⟩ := List.append_of_mem hz
    have hvm : v ∈ mtch := (List.of_mem_zip hz).1
    have hMlt : ∀ y ∈ M, x.data.index < y.data.index := (List.pairwise_cons.1 hM).1
    have hord : Ord (v.drop i) := (hs v hvm).sublist (List.drop_sublist _ _)
    -- its head is `x`
    have hhead : ∃ t, v.drop i = x :: t := by
      cases hd : v.drop i with
      | nil => simp [hd] at hxv
      | cons y t =>
        rw [hd] at hxv hord
        rcases List.mem_cons.1 hxv with rfl | hxt
        · exact ⟨t, rfl⟩
        · have h1 : y.data.index < x.data.index := (List.pairwise_cons.1 hord).1 x hxt
          have hy : y ∈ rests (mtch.zip indices) := List.mem_flatMap.2 ⟨(v, i), hz, by simp [hd]⟩
          rcases List.mem_cons.1 (hp.mem_iff.2 hy) with rfl | hyM
          · omega
          · have := hMlt y hyM; omega
    obtain ⟨t, ht⟩ := hhead
    have hilt : i < v.length := by
      have := congrArg List.length ht; simp at this; omega
    have hvi : v[i]? = some x := by
      have h0 : (v.drop i)[0]? = some x := by rw [ht]; rfl
      simpa using h0
    have htail : v.drop (i + 1) = t := by
      have := congrArg List.tail ht; simpa using this
    -- the remaining multiset
    have hperm' : M.Perm (rests A ++ (t ++ rests B)) := by
      rw [hAB] at hp
      simp only [rests, List.flatMap_append, List.flatMap_cons, ht] at hp
      have := hp.trans (List.perm_middle)
      exact this.cons_inv
    have hheads : ∀ z ∈ A ++ B, ∀ y, z.1[z.2]? = some y → x.data.index < y.data.index := by
      intro z hz' y hy
      apply hMlt
      apply hperm'.mem_iff.2
      have hyd : y ∈ z.1.drop z.2 := by
        have h0 : (z.1.drop z.2)[0]? = some y := by simpa using hy
        exact List.mem_of_getElem? h0
      rcases List.mem_append.1 hz' with h | h
      · exact List.mem_append_left _ (List.mem_flatMap.2 ⟨z, h, hyd⟩)
      · exact List.mem_append_right _ (List.mem_append_right _ (List.mem_flatMap.2 ⟨z, h, hyd⟩))
    have hmin : (scanMin (mtch.zip indices) 0 (0, u64Max)).1 = A.length := by
      rw [hAB]
      have := scanMin_find A B v i x hvi (fun z hz => hheads z (List.mem_append_left _ hz))
        (fun z hz => hheads z (List.mem_append_right _ hz)) 0 0 u64Max (hb x (by simp))
      simpa using this
    have hzip : (mtch.zip indices)[A.length]? = some (v, i) := by rw [hAB]; simp
    obtain ⟨hmv, hiv⟩ : mtch[A.length]? = some v ∧ indices[A.length]? = some i := by
      rw [List.getElem?_zip_eq_some] at hzip
      exact hzip
    have hset : mtch.zip (indices.set A.length (i + 1)) = A ++ (v, i + 1) :: B := by
      have h1 : mtch.zip (indices.set A.length (i + 1)) = (mtch.zip indices).set A.length (v, i + 1) := by
        apply List.ext_getElem?
        intro j
        by_cases hj : j = A.length
        · subst hj
          have hl1 : A.length < indices.length := (List.getElem?_eq_some_iff.1 hiv).1
          have hl2 : A.length < (mtch.zip indices).length := (List.getElem?_eq_some_iff.1 hzip).1
          rw [List.getElem?_set_self hl2, List.getElem?_zip_eq_some]
          exact ⟨hmv, List.getElem?_set_self hl1⟩
        · rw [List.getElem?_set_ne (Ne.symm hj)]
          simp only [List.zip, List.getElem?_zipWith, List.getElem?_set_ne (Ne.symm hj)]
      rw [h1, hAB]
      simp
    simp only [List.length_cons, dispatch, hmin, hmv, hiv, hvi, runList]
    cases hc : x.data.closure { request := req, vars := x.vars } s with
    | panic => rfl
    | ok r =>
      obtain ⟨s', flow⟩ := r
      simp only [Res.bind_ok']
      split
      · rw [ih (List.pairwise_cons.1 hM).2 (fun y hy => hb y (List.mem_cons_of_mem _ hy))
          (indices.set A.length (i + 1)) (by simpa using hlen)]
        rw [hset]
        simpa [rests, htail] using hperm'
      · rfl

/-! ### the matches -/

def mkMatch (uv : Bool) (q : PathBuf) (d : PathData (Closures S)) : MatchedPath (Closures S) :=
  ⟨if uv then bindings d.origPath q else [], d.data⟩

/-- the expected (sorted) matches of one method's tree -/
def expected (uv : Bool) (q : PathBuf) (items : List (PathData (Closures S))) :
    List (MatchedPath (Closures S)) :=
  (items.filter fun d => patMatchB uv d.origPath q).map (mkMatch uv q)

/-- the expected merged sequence of handlers -/
def mergedFrom (uv : Bool) (method : RequestMethod) (q : PathBuf) :
    Nat → List (Reg S) → List (MatchedPath (Closures S))
  | _, [] => []
  | i, e :: L =>
    (if e.target.applies uv method q then [⟨e.target.vars uv q, ⟨e.handler, i⟩⟩] else []) ++
      mergedFrom uv method q (i + 1) L

theorem runList_merged (uv : Bool) (req : Request) (i : Nat) (L : List (Reg S)) (s : S) :
    runList req (mergedFrom uv req.requestLine.method req.requestLine.path i L) s =
      replay uv req L s := by
  induction L generalizing i s with
  | nil => rfl
  | cons e L ih =>
    unfold mergedFrom replay
    split
    · simp only [List.cons_append, List.nil_append, runList]
      cases e.handler ⟨req, e.target.vars uv req.requestLine.path⟩ s with
      | panic => rfl
      | ok r =>
        obtain ⟨s', flow⟩ := r
        cases flow with
        | stop => simp [Flow.shouldContinue]
        | next => simpa [Flow.shouldContinue] using ih _ _
    · simpa using ih _ _

theorem mergedFrom_index (uv : Bool) (method : RequestMethod) (q : PathBuf) (i : Nat) (L : List (Reg S)) :
    ∀ x ∈ mergedFrom uv method q i L, i ≤ x.data.index ∧ x.data.index < i + L.length := by
  induction L generalizing i with
  | nil => simp [mergedFrom]
  | cons e L ih =>
    intro x hx
    unfold mergedFrom at hx
    rcases List.mem_append.1 hx with hx | hx
    · split at hx
      · have : x = ⟨e.target.vars uv q, ⟨e.handler, i⟩⟩ := by simpa using hx
        subst this; simp
      · simp at hx
    · have := ih (i + 1) x hx
      simp only [List.length_cons]; omega

theorem mergedFrom_ord (uv : Bool) (method : RequestMethod) (q : PathBuf) (i : Nat) (L : List (Reg S)) :
    Ord (mergedFrom uv method q i L) := by
  induction L generalizing i with
  | nil => simp [mergedFrom, Ord]
  | cons e L ih =>
    unfold mergedFrom
    split
    · refine List.pairwise_cons.2 ⟨fun y hy => ?_, ih (i + 1)⟩
      have := mergedFrom_index uv method q (i + 1) L y hy
      show i < y.data.index
      omega
    · simpa using ih (i + 1)

theorem itemsFrom_index (m : RequestMethod) (i : Nat) (L : List (Reg S)) :
    ∀ x ∈ itemsFrom m i L, i ≤ x.data.index ∧ x.data.index < i + L.length := by
  induction L generalizing i with
  | nil => simp [itemsFrom]
  | cons e L ih =>
    intro x hx
    unfold itemsFrom at hx
    rcases List.mem_append.1 hx with hx | hx
    · have : x.data.index = i := by
        unfold itemOf at hx
        split at hx
        · split at hx
          · rw [List.mem_singleton.1 hx]
          · simp at hx
        · split at hx
          · rw [List.mem_singleton.1 hx]
          · simp at hx
        · simp at hx
      simp only [List.length_cons]; omega
    · have := ih (i + 1) x hx
      simp only [List.length_cons]; omega

theorem itemsFrom_ord (m : RequestMethod) (i : Nat) (L : List (Reg S)) :
    (itemsFrom m i L).Pairwise fun a b => a.data.index < b.data.index := by
  induction L generalizing i with
  | nil => simp [itemsFrom]
  | cons e L ih =>
    unfold itemsFrom
    rw [List.pairwise_append]
    refine ⟨?_, ih (i + 1), ?_⟩
    · unfold itemOf
      split
      · split <;> simp
      · split <;> simp
      · simp
    · intro a ha b hb
      have h1 := itemsFrom_index m (i + 1) L b hb
      have h2 := itemsFrom_index m i [e] a (by simpa [itemsFrom] using ha)
      simp only [List.length_singleton] at h2
      omega

theorem midsFrom_index (i : Nat) (L : List (Reg S)) :
    ∀ x ∈ midsFrom i L, i ≤ x.index := by
  induction L generalizing i with
  | nil => simp [midsFrom]
  | cons e L ih =>
    intro x hx
    unfold midsFrom at hx
    rcases List.mem_append.1 hx with hx | hx
    · unfold midOf at hx
      split at hx
      · rw [List.mem_singleton.1 hx]; exact Nat.le_refl _
      · simp at hx
    · have := ih (i + 1) x hx; omega

theorem midsFrom_ord (i : Nat) (L : List (Reg S)) :
    (midsFrom i L).Pairwise fun a b => a.index < b.index := by
  induction L generalizing i with
  | nil => simp [midsFrom]
  | cons e L ih =>
    unfold midsFrom
    rw [List.pairwise_append]
    refine ⟨?_, ih (i + 1), ?_⟩
    · unfold midOf; split <;> simp
    · intro a ha b hb
      have h1 := midsFrom_index (i + 1) L b hb
      unfold midOf at ha
      split at ha
      · rw [List.mem_singleton.1 ha]; show i < b.index; omega
      · simp at ha

theorem expected_ord (uv : Bool) (q : PathBuf) (m : RequestMethod) (L : List (Reg S)) :
    Ord (expected uv q (itemsFrom m 0 L)) := by
  unfold expected Ord
  rw [List.pairwise_map]
  exact (itemsFrom_ord m 0 L).sublist List.filter_sublist

/-- the three groups together are the merged sequence -/
theorem merged_perm (uv : Bool) (method : RequestMethod) (hm : method ≠ .all) (q : PathBuf) (i : Nat)
    (L : List (Reg S)) (ht : ∀ e ∈ L, ∀ p, e.target ≠ .on .all p) :
    (mergedFrom uv method q i L).Perm
      (expected uv q (itemsFrom method i L) ++
        (expected uv q (itemsFrom .all i L) ++ (midsFrom i L).map fun c => ⟨[], c⟩)) := by
  induction L generalizing i with
  | nil => exact .refl _
  | cons e L ih =>
    have ih' := ih (i + 1) (fun e he => ht e (List.mem_cons_of_mem _ he))
    have hte := ht e (by simp)
    obtain ⟨target, handler⟩ := e
    have hexp : ∀ (a b : List (PathData (Closures S))), expected uv q (a ++ b) =
        expected uv q a ++ expected uv q b := by intro a b; simp [expected]
    cases target with
    | everywhere =>
      simp only [mergedFrom, Target.applies, if_true, itemsFrom, itemOf, List.nil_append, midsFrom,
        midOf, Target.vars, List.cons_append, List.map_cons]
      refine (ih'.cons _).trans ?_
      rw [← List.append_assoc, ← List.append_assoc]
      exact List.perm_middle.symm
    | on m' p =>
      have hma : m' ≠ .all := fun h => hte p (by rw [h])
      simp only [mergedFrom, Target.applies, itemsFrom, itemOf, hma, if_false, List.nil_append,
        midsFrom, midOf, hexp, Target.vars, decide_patMatch]
      by_cases hmm : m' = method
      · subst hmm
        by_cases hpm : patMatchB uv p q = true
        · simp only [hpm, decide_true, Bool.and_self, if_true, expected, List.filter_cons,
            List.filter_nil, List.map_cons, List.map_nil, List.cons_append, List.nil_append, mkMatch]
          exact ih'.cons _
        · simpa [hpm, expected] using ih'
      · simpa [hmm, expected] using ih'
    | anyMethod p =>
      simp only [mergedFrom, Target.applies, itemsFrom, itemOf, hm, if_false, if_true,
        List.nil_append, midsFrom, midOf, hexp, Target.vars, decide_patMatch]
      by_cases hpm : patMatchB uv p q = true
      · simp only [hpm, if_true, expected, List.filter_cons, List.filter_nil, List.map_cons,
          List.map_nil, List.cons_append, List.nil_append, mkMatch]
        exact (ih'.cons _).trans List.perm_middle.symm
      · simpa [hpm, expected] using ih'

theorem sortByIndex_eq {l l0 : List (MatchedPath (Closures S))} (hp : l.Perm l0) (h : Ord l0) :
    sortByIndex l = l0 := by
  unfold sortByIndex
  have hperm := (List.mergeSort_perm l fun a b => decide (a.data.index ≤ b.data.index)).trans hp
  have hsorted := List.pairwise_mergeSort
    (le := fun (a b : MatchedPath (Closures S)) => decide (a.data.index ≤ b.data.index))
    (by intro a b c; simp; omega) (by intro a b; simp; omega) l
  have h0 : l0.Pairwise fun a b => decide (a.data.index ≤ b.data.index) = true := by
    refine List.Pairwise.imp ?_ h
    intro a b hab; simp; omega
  refine List.Perm.eq_of_pairwise ?_ hsorted h0 hperm
  intro a b ha hb h1 h2
  have ha' := hperm.mem_iff.1 ha
  simp only [decide_eq_true_eq] at h1 h2
  -- equal indices in a strictly increasing list
  have heq : a.data.index = b.data.index := by omega
  by_cases hab : a = b
  · exact hab
  · exfalso
    clear hsorted h0 hperm hp h1 h2
    induction l0 with
    | nil => simp at hb
    | cons x l0 ih =>
      obtain ⟨hx, ho⟩ := List.pairwise_cons.1 h
      rcases List.mem_cons.1 ha' with rfl | ha2
      · rcases List.mem_cons.1 hb with rfl | hb2
        · exact hab rfl
        · have := hx b hb2; omega
      · rcases List.mem_cons.1 hb with rfl | hb2
        · have := hx a ha2; omega
        · exact ih ho hb2 ha2

theorem methodMatches_eq {r : Router S} {L : List (Reg S)} (h : Inv r L) (uv : Bool)
    (m : RequestMethod) (q : PathBuf) :
    ∃ vs, methodMatches uv r m q = .ok vs ∧ (vs = [expected uv q (itemsFrom m 0 L)] ∨
      (vs = [] ∧ expected uv q (itemsFrom m 0 L) = [])) := by
  unfold methodMatches
  have hrep := h.trees m
  cases hg : r.paths.get m with
  | none =>
    rw [hg] at hrep
    have hnil : itemsFrom m 0 L = [] := by
      have := hrep.contents
      simp only [Option.getD_none, PathNode.new, PathNode.all, PathNode.allL] at this
      exact List.perm_nil.1 this.symm
    exact ⟨[], rfl, .inr ⟨rfl, by simp [hnil, expected]⟩⟩
  | some n =>
    rw [hg] at hrep
    obtain ⟨l, h1, h2⟩ := hrep.get uv q
    simp only [Option.getD_some] at h1
    refine ⟨[sortByIndex l], by simp [h1], .inl ?_⟩
    congr 1
    exact sortByIndex_eq h2 (expected_ord uv q m L)

theorem run_eq {r : Router S} {L : List (Reg S)} (h : Inv r L) (hL : L.length < 2 ^ 64) (uv : Bool)
    (req : Request) (hm : req.requestLine.method ≠ .all) (s : S) :
    run uv r req s = replay uv req L s := by
  obtain ⟨m1, h1, h1'⟩ := methodMatches_eq h uv req.requestLine.method req.requestLine.path
  obtain ⟨m2, h2, h2'⟩ := methodMatches_eq h uv .all req.requestLine.path
  let M := mergedFrom uv req.requestLine.method req.requestLine.path 0 L
  let mtch := m1 ++ m2 ++ [r.middlewares.map fun c => (⟨[], c⟩ : MatchedPath (Closures S))]
  have hmt : run uv r req s =
      dispatch req mtch (mtch.map List.length).sum (List.replicate mtch.length 0) s := by
    simp only [run, collectMatches, h1, h2, Res.bind_ok']; rfl
  have hflat : M.Perm mtch.flatten := by
    have := merged_perm uv req.requestLine.method hm req.requestLine.path 0 L h.targets
    refine this.trans ?_
    simp only [mtch, h.mids]
    rcases h1' with rfl | ⟨rfl, e1⟩ <;> rcases h2' with rfl | ⟨rfl, e2⟩ <;> simp_all
  have hrests : rests (mtch.zip (List.replicate mtch.length 0)) = mtch.flatten := by
    clear hmt hflat
    generalize mtch = l
    induction l with
    | nil => rfl
    | cons a l ih =>
      simp only [rests, List.length_cons, List.replicate_succ, List.zip_cons_cons,
        List.flatMap_cons, List.drop_zero, List.flatten_cons] at ih ⊢
      rw [ih]
  have hsum : (mtch.map List.length).sum = M.length := by
    rw [hflat.length_eq, List.length_flatten]
  rw [hmt, hsum, dispatch_eq req mtch ?_ M (mergedFrom_ord _ _ _ _ _) ?_ _ (by simp) (by rw [hrests]; exact hflat),
    runList_merged]
  · intro v hv
    rcases List.mem_append.1 hv with hv | hv
    · rcases List.mem_append.1 hv with hv | hv
      · rcases h1' with rfl | ⟨rfl, -⟩
        · rw [List.mem_singleton.1 hv]; exact expected_ord _ _ _ _
        · simp at hv
      · rcases h2' with rfl | ⟨rfl, -⟩
        · rw [List.mem_singleton.1 hv]; exact expected_ord _ _ _ _
        · simp at hv
    · rw [List.mem_singleton.1 hv, h.mids]
      unfold Ord
      rw [List.pairwise_map]
      exact midsFrom_ord 0 L
  · intro x hx
    have := mergedFrom_index _ _ _ _ _ x hx
    simp only [u64Max] at *
    omega

end Router
end Octane
