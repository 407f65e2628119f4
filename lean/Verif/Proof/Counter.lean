import Verif.Spec.Counter
import Verif.Proof.Router
/-
The router refines the numbered log of its registrations, whatever the numbers.
-/
namespace Octane
open Spec
namespace Router
variable {S : Type u}

def itemsN (m : RequestMethod) (N : List (Reg S × Nat)) : List (PathData (Closures S)) :=
  N.flatMap fun e => itemOf m e.1 e.2

def midsN (N : List (Reg S × Nat)) : List (Closures S) := N.flatMap fun e => midOf e.1 e.2

theorem itemsN_shift (m : RequestMethod) (k : Nat) (N : List (Reg S × Nat)) :
    (itemsN m N).map (shiftItem k) = itemsN m (N.map fun e => (e.1, e.2 + k)) := by
  simp only [itemsN, List.map_flatMap, List.flatMap_map, itemOf_shift]

theorem midsN_shift (k : Nat) (N : List (Reg S × Nat)) :
    (midsN N).map (fun v => { v with index := v.index + k }) = midsN (N.map fun e => (e.1, e.2 + k)) := by
  simp only [midsN, List.map_flatMap, List.flatMap_map]
  congr 1
  funext e
  unfold midOf
  split <;> simp

structure InvN (r : Router S) (N : List (Reg S × Nat)) (c : Nat) : Prop where
  count : r.routeCounter = c
  mids : r.middlewares = midsN N
  uniq : HMap.Uniq r.paths
  trees : ∀ m, PathNode.Rep ((r.paths.get m).getD PathNode.new) (itemsN m N)
  targets : ∀ e ∈ N, ∀ p, e.1.target ≠ .on .all p

theorem InvN.new : InvN (Router.new : Router S) [] 0 :=
  ⟨rfl, rfl, HMap.Uniq.nil, fun _ => PathNode.Rep.new, by simp⟩

theorem InvN.add {r : Router S} {N : List (Reg S × Nat)} {c : Nat} (h : InvN r N c) (hd : Closure S) :
    InvN (Router.add r hd) (N ++ [(⟨.everywhere, hd⟩, c)]) (c + 1) where
  count := by simp [Router.add, h.count]
  mids := by simp [Router.add, h.mids, h.count, midsN, midOf]
  uniq := h.uniq
  trees := fun m => by
    have := h.trees m
    simpa [Router.add, itemsN, itemOf] using this
  targets := by
    intro e he p
    rcases List.mem_append.1 he with he | he
    · exact h.targets e he p
    · rw [List.mem_singleton.1 he]; simp

theorem InvN.reject {r : Router S} {N : List (Reg S × Nat)} {c : Nat} (h : InvN r N c) (v : Verb) {path : Str}
    (hd : Closure S) (hp : Path.parse path = none) :
    ∃ r', Router.injectMethod r path hd v.method = .ok (r', false) ∧ InvN r' N c := by
  refine ⟨_, by simp only [Router.injectMethod, hp]; rfl, ?_⟩
  exact {
    count := h.count
    mids := h.mids
    uniq := h.uniq.insert _ _
    trees := fun m => by
      simp only [HMap.get_insert]
      have := h.trees m
      split
      · rename_i hm; subst hm; simpa using this
      · exact this
    targets := h.targets }

theorem InvN.route {r : Router S} {N : List (Reg S × Nat)} {c : Nat} (h : InvN r N c) (v : Verb) {path : Str}
    {p : PathBuf} (hd : Closure S) (hp : Path.parse path = some p) :
    ∃ r', Router.injectMethod r path hd v.method = .ok (r', true) ∧ InvN r' (N ++ [(⟨v.target p, hd⟩, c)]) (c + 1) := by
  have hne : ∀ x ∈ p, x ≠ [] := fun x hx => (Path.parse_normal hp x hx).1
  obtain ⟨n', h1, h2⟩ := (h.trees v.method).insert p ⟨hd, r.routeCounter⟩ hne
  refine ⟨_, by simp only [Router.injectMethod, hp, h1, Res.bind_ok']; rfl, ?_⟩
  exact {
    count := by simp [h.count]
    mids := by simp [h.mids, midsN, midOf_verb]
    uniq := (h.uniq.insert _ _).insert _ _
    trees := fun m => by
      simp only [HMap.get_insert, itemsN, List.flatMap_append, List.flatMap_cons, List.flatMap_nil, itemOf_verb,
        List.append_nil]
      by_cases hm : v.method = m
      · subst hm; simpa [h.count, itemsN] using h2
      · simpa [hm, itemsN] using h.trees m
    targets := by
      intro e he q
      rcases List.mem_append.1 he with he | he
      · exact h.targets e he q
      · rw [List.mem_singleton.1 he]
        cases v <;> simp [Verb.target, Verb.method] }

theorem InvN.append {r r2 : Router S} {N N2 : List (Reg S × Nat)} {c c2 : Nat} (h : InvN r N c) (h2 : InvN r2 N2 c2)
    (ord : AppendOrder S) (ho : ∀ m, (ord.outer m).Perm m)
    (hi : ∀ meth t m, (ord.inner meth t m).Perm m) :
    ∃ r', Router.append ord r r2 = .ok r' ∧ InvN r' (N ++ N2.map fun e => (e.1, e.2 + c)) (c + c2) := by
  have hperm := ho r2.paths
  have hu2 : HMap.Uniq (ord.outer r2.paths) := h2.uniq.perm hperm
  obtain ⟨paths', hp1, hp2, hp3⟩ := appendPaths_ok ord.inner hi r.routeCounter (ord.outer r2.paths)
    (fun m => itemsN m N2)
    (fun m t hmt => by
      have hg := HMap.get_of_mem h2.uniq (hperm.mem_iff.1 hmt)
      have := h2.trees m
      rwa [hg] at this)
    hu2 r.paths (fun m => itemsN m N) h.trees h.uniq
  refine ⟨_, by simp only [Router.append, hp1, Res.bind_ok']; rfl, ?_⟩
  exact {
    count := by simp [h.count, h2.count]
    mids := by
      simp only [h.mids, h2.mids, midsN_shift, h.count]
      simp only [midsN, List.flatMap_append]
    uniq := hp2
    trees := fun m => by
      have := hp3 m
      rw [HMap.get_perm h2.uniq hperm] at this
      have happ : itemsN m (N ++ N2.map fun e => (e.1, e.2 + c)) =
          itemsN m N ++ (itemsN m N2).map (shiftItem r.routeCounter) := by
        rw [itemsN_shift, h.count]; simp only [itemsN, List.flatMap_append]
      rw [happ]
      cases hg : HMap.get r2.paths m with
      | some x => simpa [hg] using this
      | none =>
        have h0 := h2.trees m
        rw [hg] at h0
        have hnil : itemsN m N2 = [] := by
          have := h0.contents
          simp only [Option.getD_none, PathNode.new, PathNode.all, PathNode.allL] at this
          exact List.perm_nil.1 this.symm
        rw [hnil]
        simpa [hg] using this
    targets := by
      intro e he p
      rcases List.mem_append.1 he with he | he
      · exact h.targets e he p
      · obtain ⟨d, hd, rfl⟩ := List.mem_map.1 he
        exact h2.targets d hd p }

/-- every registration is in a tree or among the path-less handlers, under its number -/
theorem InvN.overflows {r r2 : Router S} {N N2 : List (Reg S × Nat)} {c c2 : Nat} (h : InvN r N c) (h2 : InvN r2 N2 c2)
    (ord : AppendOrder S) (ho : ∀ m, (ord.outer m).Perm m) (hi : ∀ meth t m, (ord.inner meth t m).Perm m) :
    Router.appendOverflows ord r r2 = true ↔ ¬ ((∀ e ∈ N2, e.2 + c < 2 ^ 64) ∧ c + c2 < 2 ^ 64) := by
  have inTree : ∀ m t, (m, t) ∈ ord.outer r2.paths → ∃ items, PathNode.ownedItems (ord.inner m) t = some items ∧
      items.Perm (itemsN m N2) := by
    intro m t hmt
    have hg := HMap.get_of_mem h2.uniq ((ho r2.paths).mem_iff.1 hmt)
    have hrep := h2.trees m
    rw [hg] at hrep
    obtain ⟨items, h1, hp⟩ := PathNode.ownedItems_perm (ord.inner m) (hi m) t
    exact ⟨items, h1, hp.trans hrep.contents⟩
  have fromItem : ∀ m d, d ∈ itemsN m N2 → ∃ e ∈ N2, e.2 = d.data.index := by
    intro m d hd
    obtain ⟨e, he, hde⟩ := List.mem_flatMap.1 hd
    refine ⟨e, he, ?_⟩
    unfold itemOf at hde
    split at hde
    · split at hde
      · rw [List.mem_singleton.1 hde]
      · simp at hde
    · split at hde
      · rw [List.mem_singleton.1 hde]
      · simp at hde
    · simp at hde
  simp only [Router.appendOverflows, Bool.or_eq_true, List.any_eq_true, decide_eq_true_eq, h.count, h2.count]
  constructor
  · rintro ((⟨⟨m, t⟩, hmt, hx⟩ | ⟨v, hv, hx⟩) | hx) ⟨hN, hc⟩
    · obtain ⟨items, h1, hp⟩ := inTree m t hmt
      simp only [h1, List.any_eq_true, decide_eq_true_eq] at hx
      obtain ⟨d, hd, hx⟩ := hx
      obtain ⟨e, he, hde⟩ := fromItem m d (hp.mem_iff.1 hd)
      have := hN e he
      omega
    · rw [h2.mids] at hv
      obtain ⟨e, he, hve⟩ := List.mem_flatMap.1 hv
      have := hN e he
      unfold midOf at hve
      split at hve
      · rw [List.mem_singleton.1 hve] at hx; simp only at hx; omega
      · simp at hve
    · omega
  · intro hn
    by_cases hc : c + c2 < 2 ^ 64
    · left
      have : ∃ e ∈ N2, 2 ^ 64 ≤ e.2 + c := by
        apply Classical.byContradiction
        intro hno
        refine hn ⟨fun e he => ?_, hc⟩
        apply Classical.byContradiction
        intro hlt
        exact hno ⟨e, he, by omega⟩
      obtain ⟨⟨⟨t, hd⟩, i⟩, he, hx⟩ := this
      have tree : ∀ m p, (⟨p, ⟨hd, i⟩⟩ : PathData (Closures S)) ∈ itemsN m N2 → ∃ x ∈ ord.outer r2.paths,
          (match PathNode.ownedItems (ord.inner x.1) x.2 with
            | some items => items.any fun v => decide (2 ^ 64 ≤ v.data.index + c)
            | none => false) = true := by
        intro m p hmem
        cases hg : HMap.get r2.paths m with
        | none =>
          have h0 := h2.trees m
          rw [hg] at h0
          have := h0.contents
          simp only [Option.getD_none, PathNode.new, PathNode.all, PathNode.allL] at this
          rw [List.perm_nil.1 this.symm] at hmem
          simp at hmem
        | some t =>
          have hmt : (m, t) ∈ ord.outer r2.paths := (ho r2.paths).mem_iff.2 (HMap.mem_of_get hg)
          obtain ⟨items, h1, hp⟩ := inTree m t hmt
          refine ⟨(m, t), hmt, ?_⟩
          simp only [h1, List.any_eq_true, decide_eq_true_eq]
          exact ⟨_, hp.mem_iff.2 hmem, hx⟩
      cases t with
      | everywhere =>
        right
        refine ⟨⟨hd, i⟩, ?_, hx⟩
        rw [h2.mids]
        exact List.mem_flatMap.2 ⟨_, he, by simp [midOf]⟩
      | on m p =>
        left
        exact tree m p (List.mem_flatMap.2 ⟨_, he, by simp [itemOf]⟩)
      | anyMethod p =>
        left
        exact tree .all p (List.mem_flatMap.2 ⟨_, he, by simp [itemOf]⟩)
    · right; omega

mutual
theorem execW_inv (x : WCall S) (hf : FairW x) (r : Router S) (N : List (Reg S × Nat)) (c : Nat) (h : InvN r N c) :
    (NumFits c x → ∃ r', execW r x = .ok r' ∧ InvN r' (N ++ (numbered c x).1) (numbered c x).2) ∧
    (¬ NumFits c x → execW r x = .panic) := by
  cases x with
  | route v path hd =>
    simp only [execW, Router.injectChecked, numbered, NumFits, h.count]
    cases hp : Path.parse path with
    | none =>
      obtain ⟨r', h1, h2⟩ := h.reject v hd hp
      simp only [h1, Res.bind_ok']
      exact ⟨fun _ => ⟨r', by simp, by simpa using h2⟩, fun hn => absurd (fun e => absurd rfl e) hn⟩
    | some p =>
      obtain ⟨r', h1, h2⟩ := h.route v hd hp
      simp only [h1, Res.bind_ok']
      refine ⟨fun hfit => ⟨r', ?_, h2⟩, fun hn => ?_⟩
      · have := hfit (by simp)
        rw [if_neg (by simp; omega)]
      · have : ¬ c + 1 < 2 ^ 64 := fun hlt => hn fun _ => hlt
        rw [if_pos ⟨trivial, by omega⟩]
  | add hd =>
    simp only [execW, Router.addChecked, numbered, NumFits, h.count]
    refine ⟨fun hfit => ⟨Router.add r hd, by rw [if_neg (by omega)], h.add hd⟩, fun hn => by rw [if_pos (by omega)]⟩
  | write n =>
    simp only [execW, numbered, NumFits]
    exact ⟨fun _ => ⟨_, rfl, by rw [List.append_nil]; exact ⟨rfl, h.mids, h.uniq, h.trees, h.targets⟩⟩,
      fun hn => absurd trivial hn⟩
  | mount calls ord =>
    obtain ⟨f1, f2, f3⟩ : FairWL calls ∧ _ ∧ _ := by simpa [FairW] using hf
    obtain ⟨ok, bad⟩ := execWL_inv calls f1 Router.new [] 0 InvN.new
    simp only [List.nil_append] at ok
    simp only [execW, NumFits, numbered]
    by_cases hfit : NumFitsL 0 calls
    · obtain ⟨sub, h1, h2⟩ := ok hfit
      simp only [h1, Res.bind_ok', Router.appendChecked]
      have hov := h.overflows h2 ord f2 f3
      obtain ⟨r', h3, h4⟩ := h.append h2 ord f2 f3
      refine ⟨fun hm => ⟨r', ?_, h4⟩, fun hn => ?_⟩
      · rw [if_neg (fun e => (hov.1 e) hm.2), h3]
      · rw [if_pos (hov.2 fun e => hn ⟨hfit, e⟩)]
    · exact ⟨fun hm => absurd hm.1 hfit, fun _ => by rw [bad hfit]; rfl⟩
theorem execWL_inv (xs : List (WCall S)) (hf : FairWL xs) (r : Router S) (N : List (Reg S × Nat)) (c : Nat)
    (h : InvN r N c) :
    (NumFitsL c xs → ∃ r', execWL r xs = .ok r' ∧ InvN r' (N ++ (numberedL c xs).1) (numberedL c xs).2) ∧
    (¬ NumFitsL c xs → execWL r xs = .panic) := by
  cases xs with
  | nil =>
    simp only [execWL, NumFitsL, numberedL]
    exact ⟨fun _ => ⟨r, rfl, by simpa using h⟩, fun hn => absurd trivial hn⟩
  | cons x xs =>
    obtain ⟨f1, f2⟩ : FairW x ∧ FairWL xs := by simpa [FairWL] using hf
    obtain ⟨ok, bad⟩ := execW_inv x f1 r N c h
    simp only [execWL, NumFitsL, numberedL]
    by_cases hfit : NumFits c x
    · obtain ⟨r1, h1, h2⟩ := ok hfit
      obtain ⟨ok2, bad2⟩ := execWL_inv xs f2 r1 _ _ h2
      simp only [h1, Res.bind_ok']
      refine ⟨fun hm => ?_, fun hn => bad2 fun e => hn ⟨hfit, e⟩⟩
      obtain ⟨r2, h3, h4⟩ := ok2 hm.2
      exact ⟨r2, h3, by simpa using h4⟩
    · exact ⟨fun hm => absurd hm.1 hfit, fun _ => by rw [bad hfit]; rfl⟩
end

/-! ### what runs -/

def mergedN (uv : Bool) (method : RequestMethod) (q : PathBuf) (N : List (Reg S × Nat)) :
    List (MatchedPath (Closures S)) :=
  (N.filter fun e => e.1.target.applies uv method q).map fun e => ⟨e.1.target.vars uv q, ⟨e.1.handler, e.2⟩⟩

theorem runList_mergedN (uv : Bool) (req : Request) (N : List (Reg S × Nat)) (s : S) :
    runList req (mergedN uv req.requestLine.method req.requestLine.path N) s =
      replay uv req (N.map (·.1)) s := by
  induction N generalizing s with
  | nil => rfl
  | cons e N ih =>
    simp only [mergedN, List.filter_cons, List.map_cons] at ih ⊢
    unfold replay
    split
    · simp only [List.map_cons, runList]
      cases e.1.handler ⟨req, e.1.target.vars uv req.requestLine.path⟩ s with
      | panic => rfl
      | ok r =>
        obtain ⟨s', flow⟩ := r
        cases flow with
        | stop => simp [Flow.shouldContinue]
        | next => simpa [Flow.shouldContinue] using ih _
    · simpa using ih _

/-- the three groups together, in any order of the log -/
theorem mergedN_perm (uv : Bool) (method : RequestMethod) (hm : method ≠ .all) (q : PathBuf)
    (N : List (Reg S × Nat)) (ht : ∀ e ∈ N, ∀ p, e.1.target ≠ .on .all p) :
    (mergedN uv method q N).Perm
      (expected uv q (itemsN method N) ++
        (expected uv q (itemsN .all N) ++ (midsN N).map fun c => ⟨[], c⟩)) := by
  have hexp : ∀ (a b : List (PathData (Closures S))), expected uv q (a ++ b) =
      expected uv q a ++ expected uv q b := by intro a b; simp [expected]
  induction N with
  | nil => exact .refl _
  | cons e N ih =>
    have ih' := ih (fun e he => ht e (List.mem_cons_of_mem _ he))
    have one := merged_perm uv method hm q e.2 [e.1] (by simpa using ht e (by simp))
    have e1 : mergedN uv method q (e :: N) = mergedFrom uv method q e.2 [e.1] ++ mergedN uv method q N := by
      simp only [mergedN, mergedFrom, List.filter_cons, List.append_nil]
      split <;> simp
    have e2 : ∀ m, itemsN m (e :: N) = itemsFrom m e.2 [e.1] ++ itemsN m N := by
      intro m; simp [itemsN, itemsFrom]
    have e3 : midsN (e :: N) = midsFrom e.2 [e.1] ++ midsN N := by simp [midsN, midsFrom]
    rw [e1, e2, e2, e3, hexp, hexp, List.map_append]
    refine (one.append ih').trans ?_
    generalize expected uv q (itemsFrom method e.2 [e.1]) = a
    generalize expected uv q (itemsFrom .all e.2 [e.1]) = b
    generalize (midsFrom e.2 [e.1]).map (fun c => (⟨[], c⟩ : MatchedPath (Closures S))) = d
    generalize expected uv q (itemsN method N) = a'
    generalize expected uv q (itemsN .all N) = b'
    generalize (midsN N).map (fun c => (⟨[], c⟩ : MatchedPath (Closures S))) = d'
    simp only [List.append_assoc]
    refine List.Perm.append_left _ ?_
    -- b ++ (d ++ (a' ++ (b' ++ d'))) ~ a' ++ (b ++ (b' ++ (d ++ d')))
    have s1 : (d ++ (a' ++ (b' ++ d'))).Perm (a' ++ (b' ++ (d ++ d'))) :=
      (List.perm_append_comm_assoc d a' (b' ++ d')).trans ((List.perm_append_comm_assoc d b' d').append_left a')
    exact (s1.append_left b).trans (List.perm_append_comm_assoc b a' (b' ++ (d ++ d')))

theorem InvN.perm {r : Router S} {N M : List (Reg S × Nat)} {c : Nat} (h : InvN r N c) (hp : M.Perm N)
    (hm : midsN M = midsN N) : InvN r M c :=
  ⟨h.count, by rw [hm, h.mids], h.uniq, fun m => (h.trees m).perm (hp.symm.flatMap_right _),
    fun e he => h.targets e (hp.mem_iff.1 he)⟩

theorem itemsN_ord (m : RequestMethod) (N : List (Reg S × Nat)) (ho : N.Pairwise fun a b => a.2 < b.2) :
    (itemsN m N).Pairwise fun a b => a.data.index < b.data.index := by
  have idx : ∀ (e : Reg S × Nat), ∀ d ∈ itemOf m e.1 e.2, d.data.index = e.2 := by
    intro e d hd
    have := itemsFrom_index m e.2 [e.1] d (by simpa [itemsFrom] using hd)
    simp only [List.length_singleton] at this
    omega
  unfold itemsN
  rw [List.pairwise_flatMap]
  refine ⟨fun e _ => ?_, ho.imp fun {a b} hab x hx y hy => ?_⟩
  · have := itemsFrom_ord m e.2 [e.1]
    simpa [itemsFrom] using this
  · rw [idx a x hx, idx b y hy]; exact hab

theorem midsN_ord (N : List (Reg S × Nat)) (ho : PathlessInOrder N) : (midsN N).Pairwise fun a b => a.index < b.index := by
  unfold midsN
  rw [List.pairwise_flatMap]
  refine ⟨fun e _ => ?_, ho.imp fun {a b} hab x hx y hy => ?_⟩
  · unfold midOf; split <;> simp
  · unfold midOf at hx hy
    split at hx
    · rename_i h1
      split at hy
      · rename_i h2
        rw [List.mem_singleton.1 hx, List.mem_singleton.1 hy]
        exact hab h1 h2
      · simp at hy
    · simp at hx

/-- two strictly sorted arrangements are one -/
theorem sorted_unique {l l0 : List (Closures S)} (hp : l.Perm l0) (h : l.Pairwise fun a b => a.index < b.index)
    (h0 : l0.Pairwise fun a b => a.index < b.index) : l = l0 := by
  refine List.Perm.eq_of_pairwise (le := fun a b => a.index < b.index) ?_ h h0 hp
  intro a b _ _ h1 h2
  omega

theorem methodMatchesN_eq {r : Router S} {N : List (Reg S × Nat)} {c : Nat} (h : InvN r N c)
    (ho : N.Pairwise fun a b => a.2 < b.2) (uv : Bool) (m : RequestMethod) (q : PathBuf) :
    ∃ vs, methodMatches uv r m q = .ok vs ∧ (vs = [expected uv q (itemsN m N)] ∨
      (vs = [] ∧ expected uv q (itemsN m N) = [])) := by
  unfold methodMatches
  have hrep := h.trees m
  cases hg : r.paths.get m with
  | none =>
    rw [hg] at hrep
    have hnil : itemsN m N = [] := by
      have := hrep.contents
      simp only [Option.getD_none, PathNode.new, PathNode.all, PathNode.allL] at this
      exact List.perm_nil.1 this.symm
    exact ⟨[], rfl, .inr ⟨rfl, by simp [hnil, expected]⟩⟩
  | some n =>
    rw [hg] at hrep
    obtain ⟨l, h1, h2⟩ := hrep.get uv q
    simp only [Option.getD_some] at h1
    refine ⟨[sortByIndex l], by simp [h1], .inl ?_⟩
    congr 1
    refine sortByIndex_eq h2 ?_
    unfold Ord expected
    rw [List.pairwise_map]
    exact (itemsN_ord m N ho).sublist List.filter_sublist

theorem runN_eq {r : Router S} {N : List (Reg S × Nat)} {c : Nat} (h : InvN r N c)
    (ho : N.Pairwise fun a b => a.2 < b.2) (hb : ∀ e ∈ N, e.2 < u64Max) (uv : Bool)
    (req : Request) (hm : req.requestLine.method ≠ .all) (s : S) :
    run uv r req s = replay uv req (N.map (·.1)) s := by
  obtain ⟨m1, h1, h1'⟩ := methodMatchesN_eq h ho uv req.requestLine.method req.requestLine.path
  obtain ⟨m2, h2, h2'⟩ := methodMatchesN_eq h ho uv .all req.requestLine.path
  let M := mergedN uv req.requestLine.method req.requestLine.path N
  let mtch := m1 ++ m2 ++ [r.middlewares.map fun c => (⟨[], c⟩ : MatchedPath (Closures S))]
  have hmt : run uv r req s =
      dispatch req mtch (mtch.map List.length).sum (List.replicate mtch.length 0) s := by
    simp only [run, collectMatches, h1, h2, Res.bind_ok']; rfl
  have hflat : M.Perm mtch.flatten := by
    have := mergedN_perm uv req.requestLine.method hm req.requestLine.path N h.targets
    refine this.trans ?_
    simp only [mtch, h.mids]
    rcases h1' with rfl | ⟨rfl, e1⟩ <;> rcases h2' with rfl | ⟨rfl, e2⟩ <;> simp_all
  have hrests : rests (mtch.zip (List.replicate mtch.length 0)) = mtch.flatten := by
    clear hmt hflat
    generalize mtch = l
    induction l with
    | nil => rfl
    | cons a l ih =>
      simp only [rests, List.length_cons, List.replicate_succ, List.zip_cons_cons,
        List.flatMap_cons, List.drop_zero, List.flatten_cons] at ih ⊢
      rw [ih]
  have hsum : (mtch.map List.length).sum = M.length := by
    rw [hflat.length_eq, List.length_flatten]
  have hMord : Ord M := by
    unfold Ord
    simp only [M, mergedN]
    rw [List.pairwise_map]
    exact ho.sublist List.filter_sublist
  have hexpo : ∀ m, Ord (expected uv req.requestLine.path (itemsN m N)) := by
    intro m
    unfold Ord expected
    rw [List.pairwise_map]
    exact (itemsN_ord m N ho).sublist List.filter_sublist
  rw [hmt, hsum, dispatch_eq req mtch ?_ M hMord ?_ _ (by simp) (by rw [hrests]; exact hflat),
    runList_mergedN]
  · intro v hv
    rcases List.mem_append.1 hv with hv | hv
    · rcases List.mem_append.1 hv with hv | hv
      · rcases h1' with rfl | ⟨rfl, -⟩
        · rw [List.mem_singleton.1 hv]; exact hexpo _
        · simp at hv
      · rcases h2' with rfl | ⟨rfl, -⟩
        · rw [List.mem_singleton.1 hv]; exact hexpo _
        · simp at hv
    · rw [List.mem_singleton.1 hv, h.mids]
      unfold Ord
      rw [List.pairwise_map]
      exact midsN_ord N (ho.imp fun hab _ _ => hab)
  · intro x hx
    simp only [M, mergedN, List.mem_map] at hx
    obtain ⟨e, he, rfl⟩ := hx
    exact hb e (List.mem_filter.1 he).1

/-! ### counters that are only raised -/

mutual
theorem raising_order (c : Nat) (x : WCall S) (h : Raising c x) :
    c ≤ (numbered c x).2 ∧ (∀ e ∈ (numbered c x).1, c ≤ e.2 ∧ e.2 < (numbered c x).2) ∧
      (numbered c x).1.Pairwise fun a b => a.2 < b.2 := by
  cases x with
  | route v path hd =>
    simp only [numbered]
    split <;> simp
  | add hd => simp [numbered]
  | write n =>
    simp only [Raising] at h
    simp [numbered, h]
  | mount calls ord =>
    simp only [Raising] at h
    obtain ⟨-, h2, h3⟩ := raisingL_order 0 calls h
    simp only [numbered, List.pairwise_map, List.mem_map]
    refine ⟨by omega, ?_, h3.imp fun hab => by omega⟩
    rintro _ ⟨e, he, rfl⟩
    have := h2 e he
    simp only
    omega
theorem raisingL_order (c : Nat) (xs : List (WCall S)) (h : RaisingL c xs) :
    c ≤ (numberedL c xs).2 ∧ (∀ e ∈ (numberedL c xs).1, c ≤ e.2 ∧ e.2 < (numberedL c xs).2) ∧
      (numberedL c xs).1.Pairwise fun a b => a.2 < b.2 := by
  cases xs with
  | nil => simp [numberedL]
  | cons x xs =>
    obtain ⟨f1, f2⟩ : Raising c x ∧ RaisingL (numbered c x).2 xs := by simpa [RaisingL] using h
    obtain ⟨a1, a2, a3⟩ := raising_order c x f1
    obtain ⟨b1, b2, b3⟩ := raisingL_order _ xs f2
    simp only [numberedL, List.mem_append, List.pairwise_append]
    refine ⟨by omega, ?_, a3, b3, fun a ha b hb => ?_⟩
    · rintro e (he | he)
      · have := a2 e he; omega
      · have := b2 e he; omega
    · have := a2 a ha; have := b2 b hb; omega
end

mutual
theorem fits_counter (c : Nat) (x : WCall S) (hf : FairW x) (h : NumFits c x) (hc : c < 2 ^ 64) :
    (numbered c x).2 < 2 ^ 64 := by
  cases x with
  | route v path hd =>
    simp only [numbered, NumFits] at h ⊢
    split
    · exact hc
    · rename_i hp; exact h (by simp [hp])
  | add hd => simpa [numbered, NumFits] using h
  | write n => simpa [numbered, FairW] using hf
  | mount calls ord => simp only [NumFits] at h; simpa [numbered] using h.2.2
theorem fitsL_counter (c : Nat) (xs : List (WCall S)) (hf : FairWL xs) (h : NumFitsL c xs) (hc : c < 2 ^ 64) :
    (numberedL c xs).2 < 2 ^ 64 := by
  cases xs with
  | nil => simpa [numberedL] using hc
  | cons x xs =>
    obtain ⟨f1, f2⟩ : FairW x ∧ FairWL xs := by simpa [FairWL] using hf
    obtain ⟨g1, g2⟩ : NumFits c x ∧ NumFitsL (numbered c x).2 xs := by simpa [NumFitsL] using h
    simp only [numberedL]
    exact fitsL_counter _ xs f2 g2 (fits_counter c x f1 g1 hc)
end

mutual
theorem plain_log (c : Nat) (x : WCall S) : logOfL x.plain = (numbered c x).1.map (·.1) := by
  cases x with
  | route v path hd =>
    simp only [WCall.plain, numbered, logOfL, logOf]
    cases Path.parse path <;> simp
  | add hd => simp [WCall.plain, numbered, logOfL, logOf]
  | write n => simp [WCall.plain, numbered, logOfL]
  | mount calls ord =>
    simp only [WCall.plain, numbered, logOfL, logOf, List.append_nil, List.map_map]
    rw [plainL_log 0 calls]
    rfl
theorem plainL_log (c : Nat) (xs : List (WCall S)) : logOfL (plainL xs) = (numberedL c xs).1.map (·.1) := by
  cases xs with
  | nil => rfl
  | cons x xs =>
    have happ : ∀ (a b : List (Call S)), logOfL (a ++ b) = logOfL a ++ logOfL b := by
      intro a b
      induction a with
      | nil => rfl
      | cons y a ih => simp [logOfL, ih]
    simp only [plainL, numberedL, happ, List.map_append]
    rw [plain_log c x, plainL_log _ xs]
end

mutual
theorem plain_fair (x : WCall S) (h : FairW x) : FairL x.plain := by
  cases x with
  | route v path hd => simp [WCall.plain, FairL, Fair]
  | add hd => simp [WCall.plain, FairL, Fair]
  | write n => simp [WCall.plain, FairL]
  | mount calls ord =>
    simp only [FairW] at h
    simp only [WCall.plain, FairL, Fair]
    exact ⟨⟨plainL_fair calls h.1, h.2.1, h.2.2⟩, trivial⟩
theorem plainL_fair (xs : List (WCall S)) (h : FairWL xs) : FairL (plainL xs) := by
  cases xs with
  | nil => simp [plainL, FairL]
  | cons x xs =>
    have happ : ∀ (a b : List (Call S)), FairL a → FairL b → FairL (a ++ b) := by
      intro a b ha hb
      induction a with
      | nil => exact hb
      | cons y a ih =>
        simp only [FairL, List.cons_append] at ha ⊢
        exact ⟨ha.1, ih ha.2⟩
    simp only [FairWL] at h
    exact happ _ _ (plain_fair x h.1) (plainL_fair xs h.2)
end

/-! ### the largest number -/

/-- a tree that holds a registration, none of which matches, is one empty list of matches -/
theorem methodMatches_miss {r : Router S} {N : List (Reg S × Nat)} {c : Nat} (h : InvN r N c) (uv : Bool)
    (m : RequestMethod) (q : PathBuf) (he : expected uv q (itemsN m N) = []) :
    ∃ vs, methodMatches uv r m q = .ok vs ∧ (∀ v ∈ vs, v = []) ∧ (itemsN m N ≠ [] → vs = [[]]) := by
  unfold methodMatches
  have hrep := h.trees m
  cases hg : r.paths.get m with
  | none =>
    rw [hg] at hrep
    have hnil : itemsN m N = [] := by
      have := hrep.contents
      simp only [Option.getD_none, PathNode.new, PathNode.all, PathNode.allL] at this
      exact List.perm_nil.1 this.symm
    exact ⟨[], rfl, by simp, fun hne => absurd hnil hne⟩
  | some n =>
    rw [hg] at hrep
    obtain ⟨l, h1, h2⟩ := hrep.get uv q
    simp only [Option.getD_some] at h1
    have hl : l = [] := by
      have h3 : l.Perm (expected uv q (itemsN m N)) := h2
      rw [he] at h3
      exact List.perm_nil.1 h3
    subst hl
    refine ⟨[[]], by simp [h1, sortByIndex], by simp, fun _ => rfl⟩

theorem itemsN_ne_nil {m : RequestMethod} {N : List (Reg S × Nat)} {e : Reg S × Nat} (he : e ∈ N)
    (hi : itemOf m e.1 e.2 ≠ []) : itemsN m N ≠ [] := by
  intro h
  exact hi (List.flatMap_eq_nil_iff.1 h e he)

theorem run_last {r : Router S} {N : List (Reg S × Nat)} {c : Nat} (h : InvN r N c) (uv : Bool) (req : Request)
    (hm : req.requestLine.method ≠ .all) (A B : List (Reg S × Nat)) (hd : Closure S)
    (hN : N = A ++ (⟨.everywhere, hd⟩, u64Max) :: B)
    (hno : ∀ e ∈ A ++ B, e.1.target.applies uv req.requestLine.method req.requestLine.path = false)
    (hin : ∃ e ∈ A ++ B, e.1.target.inTree req.requestLine.method) (s : S) :
    run uv r req s = .panic := by
  have hA : ∀ L : List (Reg S × Nat), (∀ e ∈ L, e ∈ A ++ B) →
      mergedN uv req.requestLine.method req.requestLine.path L = [] := by
    intro L hL
    simp only [mergedN, List.map_eq_nil_iff, List.filter_eq_nil_iff]
    intro e he
    simp [hno e (hL e he)]
  have hmerged : mergedN uv req.requestLine.method req.requestLine.path N = [⟨[], ⟨hd, u64Max⟩⟩] := by
    have h1 := hA A (by simp +contextual)
    have h2 := hA B (by simp +contextual)
    simp only [mergedN, List.map_eq_nil_iff] at h1 h2
    have ha : Target.applies uv .everywhere req.requestLine.method req.requestLine.path = true := rfl
    simp only [hN, mergedN, List.filter_append, List.filter_cons, h1, h2, ha, if_true, List.nil_append, List.map_cons,
      List.map_nil, Target.vars]
  have hp := mergedN_perm uv req.requestLine.method hm req.requestLine.path N h.targets
  rw [hmerged] at hp
  have hmid : (⟨hd, u64Max⟩ : Closures S) ∈ midsN N :=
    List.mem_flatMap.2 ⟨(⟨.everywhere, hd⟩, u64Max), by simp [hN], by simp [midOf]⟩
  have hpos : 0 < (midsN N).length := List.length_pos_of_mem hmid
  have hlen := hp.length_eq
  simp only [List.length_append, List.length_map, List.length_singleton] at hlen
  have x1 : expected uv req.requestLine.path (itemsN req.requestLine.method N) = [] :=
    List.eq_nil_of_length_eq_zero (by omega)
  have x2 : expected uv req.requestLine.path (itemsN .all N) = [] :=
    List.eq_nil_of_length_eq_zero (by omega)
  have x3 : midsN N = [⟨hd, u64Max⟩] := by
    obtain ⟨a, ha⟩ := List.length_eq_one_iff.1 (show (midsN N).length = 1 by omega)
    rw [ha] at hmid ⊢
    rw [List.mem_singleton.1 hmid]
  obtain ⟨m1, a1, a2, a3⟩ := methodMatches_miss h uv _ _ x1
  obtain ⟨m2, b1, b2, b3⟩ := methodMatches_miss h uv _ _ x2
  have hone : ∃ vs, m1 ++ m2 = [] :: vs := by
    cases m1 with
    | cons v vs => rw [a2 v (by simp)]; exact ⟨_, rfl⟩
    | nil =>
      obtain ⟨⟨⟨t, hd'⟩, i⟩, he, hi⟩ := hin
      have hmem : (⟨⟨t, hd'⟩, i⟩ : Reg S × Nat) ∈ N := by
        rw [hN]
        rcases List.mem_append.1 he with he | he
        · exact List.mem_append_left _ he
        · exact List.mem_append_right _ (List.mem_cons_of_mem _ he)
      cases t with
      | on m p =>
        have hi : m = req.requestLine.method := hi
        have := a3 (itemsN_ne_nil hmem (by simp [itemOf, hi]))
        simp at this
      | anyMethod p =>
        exact ⟨[], b3 (itemsN_ne_nil hmem (by simp [itemOf]))⟩
      | everywhere => exact absurd hi (by simp [Target.inTree])
  obtain ⟨vs, hvs⟩ := hone
  have hvs' : ∀ v ∈ vs, v = [] := by
    intro v hv
    have : v ∈ m1 ++ m2 := by rw [hvs]; exact List.mem_cons_of_mem _ hv
    rcases List.mem_append.1 this with h | h
    · exact a2 v h
    · exact b2 v h
  have hscan : ∀ (vs : List (List (MatchedPath (Closures S)))) (n : Nat), (∀ v ∈ vs, v = []) →
      (scanMin ((vs ++ [[(⟨[], ⟨hd, u64Max⟩⟩ : MatchedPath (Closures S))]]).zip (List.replicate (vs.length + 1) 0)) n (0, u64Max)).1 = 0 := by
    intro vs
    induction vs with
    | nil => intro n _; simp [scanMin]
    | cons v vs ih =>
      intro n hv
      have := hv v (by simp)
      subst this
      simpa [scanMin, List.replicate_succ] using ih (n + 1) fun v h => hv v (List.mem_cons_of_mem _ h)
  have hsum : ∀ (vs : List (List (MatchedPath (Closures S)))), (∀ v ∈ vs, v = []) → (vs.map List.length).sum = 0 := by
    intro vs
    induction vs with
    | nil => intro _; rfl
    | cons v vs ih =>
      intro hv
      have := hv v (by simp)
      subst this
      simpa using ih fun v h => hv v (List.mem_cons_of_mem _ h)
  have hsc := hscan ([] :: vs) 0 (by simpa using hvs')
  simp only [run, collectMatches, a1, b1, Res.bind_ok', hvs, h.mids, x3, List.map_cons, List.map_nil]
  have htot : ((([] :: vs ++ [[(⟨[], ⟨hd, u64Max⟩⟩ : MatchedPath (Closures S))]]).map List.length)).sum = 1 := by
    simp [hsum vs hvs']
  rw [htot]
  have hl : ([] :: vs ++ [[(⟨[], ⟨hd, u64Max⟩⟩ : MatchedPath (Closures S))]]).length = vs.length + 1 + 1 := by simp
  rw [hl]
  simp only [List.length_cons] at hsc
  unfold dispatch
  simp only [hsc]
  simp [List.replicate_succ]

end Router
end Octane
