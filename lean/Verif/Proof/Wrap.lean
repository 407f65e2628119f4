import Verif.Spec.Wrap
import Verif.Proof.Counter
/-
The router of a release build refines the numbered log, the numbers taken modulo 2^64.
-/
namespace Octane
open Spec
namespace Router
variable {S : Type u}

def modN (N : List (Reg S × Nat)) : List (Reg S × Nat) := N.map fun e => (e.1, e.2 % 2 ^ 64)

def wrapItem (k : Nat) (d : PathData (Closures S)) : PathData (Closures S) :=
  { d with data := { d.data with index := addUsize d.data.index k } }

theorem itemOf_wrap (m : RequestMethod) (k : Nat) (e : Reg S) (i : Nat) :
    (itemOf m e i).map (wrapItem k) = itemOf m e (addUsize i k) := by
  unfold itemOf
  split
  · split <;> simp [wrapItem]
  · split <;> simp [wrapItem]
  · rfl

theorem itemsN_wrap (m : RequestMethod) (k : Nat) (N : List (Reg S × Nat)) :
    (itemsN m N).map (wrapItem k) = itemsN m (N.map fun e => (e.1, addUsize e.2 k)) := by
  simp only [itemsN, List.map_flatMap, List.flatMap_map, itemOf_wrap]

theorem midsN_wrap (k : Nat) (N : List (Reg S × Nat)) :
    (midsN N).map (fun v => { v with index := addUsize v.index k }) = midsN (N.map fun e => (e.1, addUsize e.2 k)) := by
  simp only [midsN, List.map_flatMap, List.flatMap_map]
  congr 1
  funext e
  unfold midOf
  split <;> simp

theorem appendPathsWrapped_ok (inner : RequestMethod → PathNode.Order (Closures S))
    (hin : ∀ meth t m, (inner meth t m).Perm m) (k : Nat)
    (l : HMap RequestMethod (PathNode (Closures S)))
    (its : RequestMethod → List (PathData (Closures S)))
    (hl : ∀ m t, (m, t) ∈ l → PathNode.Rep t (its m)) (hu : HMap.Uniq l)
    (paths : HMap RequestMethod (PathNode (Closures S)))
    (base : RequestMethod → List (PathData (Closures S)))
    (hb : ∀ m, PathNode.Rep ((paths.get m).getD PathNode.new) (base m)) (hpu : HMap.Uniq paths) :
    ∃ paths', appendPathsWrapped inner k l paths = .ok paths' ∧ HMap.Uniq paths' ∧
      ∀ m, PathNode.Rep ((paths'.get m).getD PathNode.new)
        (base m ++ if (l.get m).isSome then (its m).map (wrapItem k) else []) := by
  induction l generalizing paths base with
  | nil => exact ⟨paths, rfl, hpu, fun m => by simpa using hb m⟩
  | cons e l ih =>
    obtain ⟨meth, tree⟩ := e
    have hrep := hl meth tree (by simp)
    obtain ⟨items, hi, hperm⟩ := PathNode.ownedItems_perm (inner meth) (hin meth) tree
    have hip : items.Perm (its meth) := hperm.trans hrep.contents
    have hne : ∀ d ∈ items.map (wrapItem k), ∀ c ∈ d.origPath, c ≠ [] := by
      intro d hd c hc
      obtain ⟨d0, hd0, rfl⟩ := List.mem_map.1 hd
      exact hrep.nonempty d0 (hip.mem_iff.1 hd0) c hc
    obtain ⟨x', hx, hxr⟩ := (hb meth).extend (items.map (wrapItem k)) hne
    have hxr' : PathNode.Rep x' (base meth ++ (its meth).map (wrapItem k)) :=
      hxr.perm ((hip.map _).append_left _)
    simp only [HMap.Uniq, List.map_cons, List.nodup_cons] at hu
    have hstep : appendPathsWrapped inner k ((meth, tree) :: l) paths =
        appendPathsWrapped inner k l (paths.insert meth x') := by
      simp only [appendPathsWrapped, hi]
      cases hg : paths.get meth with
      | none =>
        rw [hg] at hx
        have : PathNode.fromIter (items.map (wrapItem k)) = .ok x' := hx
        unfold wrapItem at this
        simp only [this, Res.bind_ok']
      | some x =>
        rw [hg] at hx
        have : PathNode.extend x (items.map (wrapItem k)) = .ok x' := hx
        unfold wrapItem at this
        simp only [this, Res.bind_ok']
    obtain ⟨paths', h1, h2, h3⟩ := ih (fun m t hmt => hl m t (List.mem_cons_of_mem _ hmt)) hu.2
      (paths.insert meth x')
      (fun m => if meth = m then base m ++ (its m).map (wrapItem k) else base m)
      (fun m => by
        rw [HMap.get_insert]
        by_cases hm : meth = m
        · subst hm; simpa using hxr'
        · simpa [hm] using hb m)
      (hpu.insert _ _)
    refine ⟨paths', hstep.trans h1, h2, fun m => ?_⟩
    have := h3 m
    by_cases hm : meth = m
    · subst hm
      have hnone : HMap.get l meth = none := HMap.get_eq_none_iff.2 hu.1
      simpa [HMap.get, hnone] using this
    · simpa [HMap.get, hm] using this

theorem InvN.appendWrapped {r r2 : Router S} {N N2 : List (Reg S × Nat)} {c c2 : Nat} (h : InvN r N c)
    (h2 : InvN r2 N2 c2) (ord : AppendOrder S) (ho : ∀ m, (ord.outer m).Perm m)
    (hi : ∀ meth t m, (ord.inner meth t m).Perm m) :
    ∃ r', Router.appendWrapped ord r r2 = .ok r' ∧
      InvN r' (N ++ N2.map fun e => (e.1, addUsize e.2 c)) (addUsize c c2) := by
  have hperm := ho r2.paths
  have hu2 : HMap.Uniq (ord.outer r2.paths) := h2.uniq.perm hperm
  obtain ⟨paths', hp1, hp2, hp3⟩ := appendPathsWrapped_ok ord.inner hi r.routeCounter (ord.outer r2.paths)
    (fun m => itemsN m N2)
    (fun m t hmt => by
      have hg := HMap.get_of_mem h2.uniq (hperm.mem_iff.1 hmt)
      have := h2.trees m
      rwa [hg] at this)
    hu2 r.paths (fun m => itemsN m N) h.trees h.uniq
  refine ⟨_, by simp only [Router.appendWrapped, hp1, Res.bind_ok']; rfl, ?_⟩
  exact {
    count := by simp [h.count, h2.count]
    mids := by
      simp only [h.mids, h2.mids, midsN_wrap, h.count]
      simp only [midsN, List.flatMap_append]
    uniq := hp2
    trees := fun m => by
      have := hp3 m
      rw [HMap.get_perm h2.uniq hperm] at this
      have happ : itemsN m (N ++ N2.map fun e => (e.1, addUsize e.2 c)) =
          itemsN m N ++ (itemsN m N2).map (wrapItem r.routeCounter) := by
        rw [itemsN_wrap, h.count]; simp only [itemsN, List.flatMap_append]
      rw [happ]
      cases hg : HMap.get r2.paths m with
      | some x => simpa [hg] using this
      | none =>
        have h0 := h2.trees m
        rw [hg] at h0
        have hnil : itemsN m N2 = [] := by
          have := h0.contents
          simp only [Option.getD_none, PathNode.new, PathNode.all, PathNode.allL] at this
          exact List.perm_nil.1 this.symm
        rw [hnil]
        simpa [hg] using this
    targets := by
      intro e he p
      rcases List.mem_append.1 he with he | he
      · exact h.targets e he p
      · obtain ⟨d, hd, rfl⟩ := List.mem_map.1 he
        exact h2.targets d hd p }

theorem InvN.recount {r : Router S} {N : List (Reg S × Nat)} {c : Nat} (h : InvN r N c) (n : Nat) :
    InvN { r with routeCounter := n } N n := ⟨rfl, h.mids, h.uniq, h.trees, h.targets⟩

theorem modN_append (A B : List (Reg S × Nat)) : modN (A ++ B) = modN A ++ modN B := List.map_append

mutual
theorem execR_inv (x : WCall S) (hf : FairW x) (r : Router S) (N : List (Reg S × Nat)) (c : Nat)
    (h : InvN r (modN N) (c % 2 ^ 64)) :
    ∃ r', execR r x = .ok r' ∧ InvN r' (modN (N ++ (numbered c x).1)) ((numbered c x).2 % 2 ^ 64) := by
  cases x with
  | route v path hd =>
    simp only [execR, Router.injectWrapped, numbered]
    cases hp : Path.parse path with
    | none =>
      obtain ⟨r', h1, h2⟩ := h.reject v hd hp
      simp only [h1, Res.bind_ok']
      exact ⟨r', by simp, by simpa using h2⟩
    | some p =>
      obtain ⟨r', h1, h2⟩ := h.route v hd hp
      simp only [h1, Res.bind_ok', if_true]
      refine ⟨_, rfl, ?_⟩
      have := h2.recount (addUsize r.routeCounter 1)
      rw [modN_append]
      have e : addUsize r.routeCounter 1 = (c + 1) % 2 ^ 64 := by rw [h.count]; unfold addUsize; omega
      rw [e] at this ⊢
      exact this
  | add hd =>
    simp only [execR, Router.addWrapped, numbered]
    refine ⟨_, rfl, ?_⟩
    have := (h.add hd).recount (addUsize r.routeCounter 1)
    rw [modN_append]
    have e : addUsize r.routeCounter 1 = (c + 1) % 2 ^ 64 := by rw [h.count]; unfold addUsize; omega
    rw [e] at this ⊢
    exact this
  | write n =>
    have hn : n < 2 ^ 64 := by simpa [FairW] using hf
    simp only [execR, numbered]
    refine ⟨_, rfl, ?_⟩
    rw [List.append_nil, Nat.mod_eq_of_lt hn]
    exact ⟨rfl, h.mids, h.uniq, h.trees, h.targets⟩
  | mount calls ord =>
    obtain ⟨f1, f2, f3⟩ : FairWL calls ∧ _ ∧ _ := by simpa [FairW] using hf
    obtain ⟨sub, h1, h2⟩ := execRL_inv calls f1 Router.new [] 0 InvN.new
    rw [List.nil_append] at h2
    obtain ⟨r', h3, h4⟩ := h.appendWrapped h2 ord f2 f3
    simp only [execR, numbered, h1, Res.bind_ok']
    refine ⟨r', h3, ?_⟩
    have e1 : (modN (numberedL 0 calls).1).map (fun e => (e.1, addUsize e.2 (c % 2 ^ 64))) =
        modN ((numberedL 0 calls).1.map fun e => (e.1, e.2 + c)) := by
      simp only [modN, List.map_map]
      apply List.map_congr_left
      intro e _
      simp only [Function.comp_apply, addUsize]
      congr 1
      omega
    have e2 : addUsize (c % 2 ^ 64) ((numberedL 0 calls).2 % 2 ^ 64) = (c + (numberedL 0 calls).2) % 2 ^ 64 := by
      unfold addUsize; omega
    rw [e1, e2] at h4
    rw [modN_append]
    exact h4
theorem execRL_inv (xs : List (WCall S)) (hf : FairWL xs) (r : Router S) (N : List (Reg S × Nat)) (c : Nat)
    (h : InvN r (modN N) (c % 2 ^ 64)) :
    ∃ r', execRL r xs = .ok r' ∧ InvN r' (modN (N ++ (numberedL c xs).1)) ((numberedL c xs).2 % 2 ^ 64) := by
  cases xs with
  | nil => exact ⟨r, rfl, by simpa [numberedL] using h⟩
  | cons x xs =>
    obtain ⟨f1, f2⟩ : FairW x ∧ FairWL xs := by simpa [FairWL] using hf
    obtain ⟨r1, h1, h2⟩ := execR_inv x f1 r N c h
    obtain ⟨r2, h3, h4⟩ := execRL_inv xs f2 r1 _ _ h2
    simp only [execRL, h1, Res.bind_ok', numberedL]
    exact ⟨r2, h3, by simpa using h4⟩
end

/-! ### without overflow -/

theorem appendPathsWrapped_eq (inner : RequestMethod → PathNode.Order (Closures S)) (k : Nat)
    (l : HMap RequestMethod (PathNode (Closures S)))
    (h : ∀ e ∈ l, ∀ items, PathNode.ownedItems (inner e.1) e.2 = some items → ∀ v ∈ items, v.data.index + k < 2 ^ 64)
    (paths : HMap RequestMethod (PathNode (Closures S))) :
    appendPathsWrapped inner k l paths = appendPaths inner k l paths := by
  induction l generalizing paths with
  | nil => rfl
  | cons e l ih =>
    obtain ⟨meth, tree⟩ := e
    simp only [appendPathsWrapped, appendPaths]
    cases hi : PathNode.ownedItems (inner meth) tree with
    | none => rfl
    | some items =>
      have hm : (items.map fun v => ({ v with data := { v.data with index := addUsize v.data.index k } } : PathData (Closures S))) =
          items.map fun v => { v with data := { v.data with index := v.data.index + k } } := by
        apply List.map_congr_left
        intro v hv
        have := h (meth, tree) (by simp) items hi v hv
        simp only [addUsize, Nat.mod_eq_of_lt this]
      simp only [hm]
      congr 1
      funext paths'
      exact ih (fun e he => h e (List.mem_cons_of_mem _ he)) paths'

theorem appendWrapped_eq {ord : AppendOrder S} {r r2 : Router S} (h : appendOverflows ord r r2 = false) :
    appendWrapped ord r r2 = append ord r r2 := by
  simp only [appendOverflows, Bool.or_eq_false_iff, List.any_eq_false, decide_eq_true_eq, decide_eq_false_iff_not] at h
  obtain ⟨⟨h1, h2⟩, h3⟩ := h
  unfold appendWrapped append
  rw [appendPathsWrapped_eq]
  · congr 1
    funext paths
    have hm : (r2.middlewares.map fun v => ({ v with index := addUsize v.index r.routeCounter } : Closures S)) =
        r2.middlewares.map fun v => { v with index := v.index + r.routeCounter } := by
      apply List.map_congr_left
      intro v hv
      have := h2 v hv
      simp only [addUsize, Nat.mod_eq_of_lt (show v.index + r.routeCounter < 2 ^ 64 by omega)]
    have hc : addUsize r.routeCounter r2.routeCounter = r.routeCounter + r2.routeCounter :=
      Nat.mod_eq_of_lt (by omega)
    simp only [hm, hc]
  · intro e he items hi v hv
    have := h1 e he
    rw [hi] at this
    simp only [Bool.not_eq_true, List.any_eq_false, decide_eq_true_eq] at this
    have := this v hv
    omega

theorem injectMethod_count {r r' : Router S} {path : Str} {hd : Closure S} {m : RequestMethod}
    (h : injectMethod r path hd m = .ok (r', true)) : r'.routeCounter = r.routeCounter + 1 := by
  unfold injectMethod at h
  split at h
  · simp at h
  · simp only [Res.bind] at h
    split at h
    · injection h with h
      injection h with h1 h2
      rw [← h1]
    · simp at h

mutual
theorem execR_eq (x : WCall S) (r r' : Router S) (h : execW r x = .ok r') : execR r x = .ok r' := by
  cases x with
  | route v path hd =>
    simp only [execW, execR, injectChecked, injectWrapped] at h ⊢
    cases hi : injectMethod r path hd v.method with
    | panic => rw [hi] at h; simp [Res.bind] at h
    | ok x =>
      obtain ⟨r1, b⟩ := x
      rw [hi] at h
      simp only [Res.bind_ok'] at h ⊢
      split at h
      · simp at h
      · rename_i hno
        injection h with h
        subst h
        cases b with
        | false => rfl
        | true =>
          have hc := injectMethod_count hi
          have : addUsize r.routeCounter 1 = r1.routeCounter := by
            rw [hc]; exact Nat.mod_eq_of_lt (by simp at hno; omega)
          rw [this, if_pos rfl]
  | add hd =>
    simp only [execW, execR, addChecked, addWrapped] at h ⊢
    split at h
    · simp at h
    · injection h with h
      subst h
      have : addUsize r.routeCounter 1 = (Router.add r hd).routeCounter := Nat.mod_eq_of_lt (by omega)
      rw [this]
  | write n => exact h
  | mount calls ord =>
    simp only [execW, execR] at h ⊢
    cases hs : execWL Router.new calls with
    | panic => rw [hs] at h; simp [Res.bind] at h
    | ok sub =>
      rw [hs] at h
      rw [execRL_eq calls _ _ hs]
      simp only [Res.bind_ok', appendChecked] at h ⊢
      split at h
      · simp at h
      · rename_i hno
        rw [appendWrapped_eq (by simpa using hno)]
        exact h
theorem execRL_eq (xs : List (WCall S)) (r r' : Router S) (h : execWL r xs = .ok r') : execRL r xs = .ok r' := by
  cases xs with
  | nil => exact h
  | cons x xs =>
    simp only [execWL, execRL] at h ⊢
    cases hx : execW r x with
    | panic => rw [hx] at h; simp [Res.bind] at h
    | ok r1 =>
      rw [hx] at h
      rw [execR_eq x _ _ hx]
      exact execRL_eq xs _ _ h
end

/-! ### programs that do not write the counter -/

mutual
theorem unwritten_numbers (c : Nat) (x : Call S) :
    (numbered c (unwritten x)).2 = c + (logOf x).length ∧
      ∀ e ∈ (numbered c (unwritten x)).1, e.2 < c + (logOf x).length := by
  cases x with
  | route v path hd =>
    simp only [unwritten, numbered, logOf]
    cases Path.parse path <;> simp
  | add hd => simp [unwritten, numbered, logOf]
  | mount calls ord =>
    obtain ⟨h1, h2⟩ := unwrittenL_numbers 0 calls
    simp only [unwritten, numbered, logOf, h1, List.mem_map]
    refine ⟨by omega, ?_⟩
    rintro _ ⟨e, he, rfl⟩
    have := h2 e he
    simp only
    omega
theorem unwrittenL_numbers (c : Nat) (xs : List (Call S)) :
    (numberedL c (unwrittenL xs)).2 = c + (logOfL xs).length ∧
      ∀ e ∈ (numberedL c (unwrittenL xs)).1, e.2 < c + (logOfL xs).length := by
  cases xs with
  | nil => simp [unwrittenL, numberedL, logOfL]
  | cons x xs =>
    obtain ⟨h1, h2⟩ := unwritten_numbers c x
    obtain ⟨h3, h4⟩ := unwrittenL_numbers (numbered c (unwritten x)).2 xs
    simp only [unwrittenL, numberedL, logOfL, List.length_append, List.mem_append]
    refine ⟨by omega, ?_⟩
    rintro e (he | he)
    · have := h2 e he; omega
    · have := h4 e he; omega
end

mutual
theorem unwritten_fits (c : Nat) (x : Call S) (h : c + (logOf x).length < 2 ^ 64) : NumFits c (unwritten x) := by
  cases x with
  | route v path hd =>
    simp only [unwritten, NumFits, logOf] at h ⊢
    cases hp : Path.parse path with
    | none => simp
    | some p => rw [hp] at h; simpa using h
  | add hd => simpa [unwritten, NumFits, logOf] using h
  | mount calls ord =>
    simp only [logOf] at h
    obtain ⟨h1, h2⟩ := unwrittenL_numbers 0 calls
    simp only [unwritten, NumFits, h1]
    refine ⟨unwrittenL_fits 0 calls (by omega), fun e he => ?_, by omega⟩
    have := h2 e he
    omega
theorem unwrittenL_fits (c : Nat) (xs : List (Call S)) (h : c + (logOfL xs).length < 2 ^ 64) :
    NumFitsL c (unwrittenL xs) := by
  cases xs with
  | nil => simp [unwrittenL, NumFitsL]
  | cons x xs =>
    simp only [logOfL, List.length_append] at h
    simp only [unwrittenL, NumFitsL, (unwritten_numbers c x).1]
    exact ⟨unwritten_fits c x (by omega), unwrittenL_fits _ xs (by omega)⟩
end

mutual
theorem unwritten_fair (x : Call S) (h : Fair x) : FairW (unwritten x) := by
  cases x with
  | route v path hd => simp [unwritten, FairW]
  | add hd => simp [unwritten, FairW]
  | mount calls ord =>
    simp only [Fair] at h
    simp only [unwritten, FairW]
    exact ⟨unwrittenL_fair calls h.1, h.2⟩
theorem unwrittenL_fair (xs : List (Call S)) (h : FairL xs) : FairWL (unwrittenL xs) := by
  cases xs with
  | nil => simp [unwrittenL, FairWL]
  | cons x xs =>
    simp only [FairL] at h
    simp only [unwrittenL, FairWL]
    exact ⟨unwritten_fair x h.1, unwrittenL_fair xs h.2⟩
end

mutual
theorem unwritten_exec (x : Call S) (r r' : Router S) (h : execW r (unwritten x) = .ok r') : exec r x = .ok r' := by
  cases x with
  | route v path hd =>
    simp only [unwritten, execW, exec, injectChecked] at h ⊢
    cases hi : injectMethod r path hd v.method with
    | panic => rw [hi] at h; simp [Res.bind] at h
    | ok x =>
      rw [hi] at h
      simp only [Res.bind_ok'] at h ⊢
      split at h
      · simp at h
      · exact h
  | add hd =>
    simp only [unwritten, execW, exec, addChecked] at h ⊢
    split at h
    · simp at h
    · exact h
  | mount calls ord =>
    simp only [unwritten, execW, exec] at h ⊢
    cases hs : execWL Router.new (unwrittenL calls) with
    | panic => rw [hs] at h; simp [Res.bind] at h
    | ok sub =>
      rw [hs] at h
      rw [unwrittenL_exec calls _ _ hs]
      simp only [Res.bind_ok', appendChecked] at h ⊢
      split at h
      · simp at h
      · exact h
theorem unwrittenL_exec (xs : List (Call S)) (r r' : Router S) (h : execWL r (unwrittenL xs) = .ok r') :
    execL r xs = .ok r' := by
  cases xs with
  | nil => exact h
  | cons x xs =>
    simp only [unwrittenL, execWL, execL] at h ⊢
    cases hx : execW r (unwritten x) with
    | panic => rw [hx] at h; simp [Res.bind] at h
    | ok r1 =>
      rw [hx] at h
      rw [unwritten_exec x _ _ hx]
      exact unwrittenL_exec xs _ _ h
end

end Router
end Octane
