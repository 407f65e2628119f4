import Verif.Spec.FieldsRelease
import Verif.Proof.RouterFields
import Verif.Proof.Wrap
/-
The router of a release build holds what the table modulo 2^64 says.
-/
namespace Octane
open Spec
namespace Router
variable {S : Type u}

theorem InvT.injectR {r : Router S} {T : Holding S} (h : InvT r T) (v : Verb) (path : Str) (hd : Closure S) :
    ∃ r', injectWrapped r path hd v.method = .ok r' ∧ InvT r' (tableR T (.route v path hd)) := by
  simp only [injectWrapped, injectMethod, tableR]
  cases hp : Path.parse path with
  | none =>
    simp only [Res.bind_ok']
    refine ⟨_, rfl, ?_⟩
    rw [if_neg (by simp)]
    exact {
      count := h.count
      mids := h.mids
      uniq := h.uniq.insert _ _
      trees := fun m => by
        simp only [HMap.get_insert]
        have := h.trees m
        split
        · rename_i hm; subst hm; simpa using this
        · exact this }
  | some p =>
    have hne : ∀ x ∈ p, x ≠ [] := fun x hx => (Path.parse_normal hp x hx).1
    obtain ⟨n', h1, h2⟩ := (h.trees v.method).insert p ⟨hd, r.routeCounter⟩ hne
    simp only [h1, Res.bind_ok', if_true]
    exact ⟨_, rfl, {
      count := by simp [h.count, addUsize]
      mids := h.mids
      uniq := (h.uniq.insert _ _).insert _ _
      trees := fun m => by
        simp only [HMap.get_insert]
        by_cases hm : v.method = m
        · subst hm; simpa [h.count] using h2
        · have hm' : ¬ m = v.method := fun e => hm e.symm
          simpa [hm, hm'] using h.trees m }⟩

theorem InvT.appendR {r r2 : Router S} {T T2 : Holding S} (h : InvT r T) (h2 : InvT r2 T2)
    (ord : AppendOrder S) (ho : ∀ m, (ord.outer m).Perm m)
    (hi : ∀ meth t m, (ord.inner meth t m).Perm m) :
    ∃ r', Router.appendWrapped ord r r2 = .ok r' ∧
      InvT r' ⟨fun m => T.trees m ++ (T2.trees m).map fun e => ⟨e.origPath, renumberR T.counter e.data⟩,
        T.middlewares ++ T2.middlewares.map (renumberR T.counter), (T.counter + T2.counter) % 2 ^ 64⟩ := by
  have hperm := ho r2.paths
  have hu2 : HMap.Uniq (ord.outer r2.paths) := h2.uniq.perm hperm
  obtain ⟨paths', hp1, hp2, hp3⟩ := appendPathsWrapped_ok ord.inner hi r.routeCounter (ord.outer r2.paths)
    T2.trees
    (fun m t hmt => by
      have hg := HMap.get_of_mem h2.uniq (hperm.mem_iff.1 hmt)
      have := h2.trees m
      rwa [hg] at this)
    hu2 r.paths T.trees h.trees h.uniq
  simp only [Router.appendWrapped, hp1, Res.bind_ok']
  exact ⟨_, rfl, {
    count := by simp [h.count, h2.count, addUsize]
    mids := by simp only [h.mids, h2.mids, h.count]; rfl
    uniq := hp2
    trees := fun m => by
      have := hp3 m
      rw [HMap.get_perm h2.uniq hperm] at this
      have hsh : (T2.trees m).map (wrapItem r.routeCounter) =
          (T2.trees m).map fun e => ⟨e.origPath, renumberR T.counter e.data⟩ := by rw [h.count]; rfl
      rw [hsh] at this
      cases hg : HMap.get r2.paths m with
      | some x => simpa [hg] using this
      | none =>
        have h0 := h2.trees m
        rw [hg] at h0
        have hnil : T2.trees m = [] := by
          have := h0.contents
          simp only [Option.getD_none, PathNode.new, PathNode.all, PathNode.allL] at this
          exact List.perm_nil.1 this.symm
        simp only [hnil]
        simpa [hg] using this }⟩

mutual
theorem execFR_inv (x : FCall S) (hf : FairF x) (r : Router S) (T : Holding S) (h : InvT r T) :
    ∃ r', execFR r x = .ok r' ∧ InvT r' (tableR T x) := by
  cases x with
  | route v path hd => exact h.injectR v path hd
  | add hd =>
    refine ⟨_, rfl, ?_⟩
    exact ⟨by simp [addWrapped, addUsize, tableR, h.count], by simp [addWrapped, Router.add, tableR, h.mids, h.count],
      h.uniq, h.trees⟩
  | counter n => exact ⟨_, rfl, by simpa only [tableR] using ⟨rfl, h.mids, h.uniq, h.trees⟩⟩
  | middlewares f =>
    exact ⟨_, rfl, by
      simp only [tableR]
      exact ⟨h.count, by simp only [writeMiddlewares, table, h.mids], h.uniq, h.trees⟩⟩
  | removeTree m => exact ⟨_, rfl, by simpa only [tableR] using h.remove m⟩
  | swapTrees m m' => exact ⟨_, rfl, by simpa only [tableR] using h.swap m m'⟩
  | insertTree m path c => simpa only [tableR, execFR] using h.insertTree m path c
  | remakeTree ord m g => simpa only [tableR, execFR] using h.remakeTree ord m g hf
  | mount calls ord =>
    obtain ⟨f1, f2, f3⟩ : FairFL calls ∧ _ ∧ _ := by simpa [FairF] using hf
    obtain ⟨sub, h1, h2⟩ := execFRL_inv calls f1 Router.new .empty InvT.new
    obtain ⟨r', h3, h4⟩ := h.appendR h2 ord f2 f3
    simp only [execFR, tableR, h1, Res.bind_ok']
    exact ⟨r', h3, h4⟩
theorem execFRL_inv (xs : List (FCall S)) (hf : FairFL xs) (r : Router S) (T : Holding S) (h : InvT r T) :
    ∃ r', execFRL r xs = .ok r' ∧ InvT r' (tableRL T xs) := by
  cases xs with
  | nil => exact ⟨r, rfl, by simpa [tableRL] using h⟩
  | cons x xs =>
    obtain ⟨f1, f2⟩ : FairF x ∧ FairFL xs := by simpa [FairFL] using hf
    obtain ⟨r1, h1, h2⟩ := execFR_inv x f1 r T h
    obtain ⟨r2, h3, h4⟩ := execFRL_inv xs f2 r1 _ h2
    simp only [execFRL, h1, Res.bind_ok', tableRL]
    exact ⟨r2, h3, h4⟩
end

mutual
theorem execFR_eq (x : FCall S) (r r' : Router S) (h : execF r x = .ok r') : execFR r x = .ok r' := by
  cases x with
  | route v path hd => exact execR_eq (.route v path hd) r r' h
  | add hd => exact execR_eq (.add hd) r r' h
  | counter n => exact h
  | middlewares f => exact h
  | removeTree m => exact h
  | swapTrees m m' => exact h
  | insertTree m path c => exact h
  | remakeTree ord m g => exact h
  | mount calls ord =>
    simp only [execF, execFR] at h ⊢
    cases hs : execFL Router.new calls with
    | panic => rw [hs] at h; simp [Res.bind] at h
    | ok sub =>
      rw [hs] at h
      rw [execFRL_eq calls _ _ hs]
      simp only [Res.bind_ok', appendChecked] at h ⊢
      split at h
      · simp at h
      · rename_i hno
        rw [appendWrapped_eq (by simpa using hno)]
        exact h
theorem execFRL_eq (xs : List (FCall S)) (r r' : Router S) (h : execFL r xs = .ok r') : execFRL r xs = .ok r' := by
  cases xs with
  | nil => exact h
  | cons x xs =>
    simp only [execFL, execFRL] at h ⊢
    cases hx : execF r x with
    | panic => rw [hx] at h; simp [Res.bind] at h
    | ok r1 =>
      rw [hx] at h
      rw [execFR_eq x _ _ hx]
      exact execFRL_eq xs _ _ h
end

end Router
end Octane
