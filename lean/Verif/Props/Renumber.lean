import Verif.Spec.Renumber
import Verif.Proof.Renumber
import Verif.Props.Meet
/-
C168 and C170, exactly: when the counters that a program writes make no difference.
-/
namespace Octane
open Spec Query
universe u
variable {W : Type u}

/-- C168, exactly: what a program writes to the counters makes no difference to any connection, whatever its handlers,
if and only if registrations that some request reaches both are numbered in the order in which they were made. -/
theorem C168_iff (sv : Server W) (calls : List (WCall (W × Response))) (hsort : Sortable (places calls))
    (hn : (places calls).length < 2 ^ 64) (w0 : W) :
    NumberedInOrder sv.feat.urlVariables (places calls) ↔
      ∀ (c : List (WCall (W × Response))) (r r' : Router (W × Response)), FairWL c → places c = places calls →
        execWL Router.new c = .ok r → execL Router.new (plainL c) = .ok r' →
        ∀ w s, { sv with router := r }.serve w s = { sv with router := r' }.serve w s := by
  have runs : ∀ (c : List (WCall (W × Response))) (r r' : Router (W × Response)), FairWL c → places c = places calls →
      execWL Router.new c = .ok r → execL Router.new (plainL c) = .ok r' →
      ∃ M : List (Reg (W × Response) × Nat), M.Perm (numberedL 0 c).1 ∧ M.Pairwise (fun a b => a.2 < b.2) ∧
        (numberedL 0 c).1.Pairwise (fun a b => a.2 ≠ b.2) ∧
        (∀ req : Request, req.requestLine.method ≠ .all → ∀ st,
          Router.run sv.feat.urlVariables r req st = replay sv.feat.urlVariables req (M.map (·.1)) st) ∧
        (∀ req : Request, req.requestLine.method ≠ .all → ∀ st,
          Router.run sv.feat.urlVariables r' req st =
            replay sv.feat.urlVariables req ((numberedL 0 c).1.map (·.1)) st) := by
    intro c r r' hf hp hr hr'
    obtain ⟨s1, s2, s3⟩ := hsort
    rw [← hp] at s1 s2 s3 hn
    unfold places at s1 s2 s3 hn
    rw [List.pairwise_map] at s1 s3
    rw [List.length_map] at hn
    obtain ⟨M, hM, ho⟩ := sorted_exists _ s1
    refine ⟨M, hM, ho, s1, fun req hm st => ?_, fun req hm st => ?_⟩
    · exact C168_by_number hf hr s3 (fun e he => s2 _ (List.mem_map_of_mem he)) M hM ho _ _ hm _
    · have hl : logOfL (plainL c) = wlog c := Router.plainL_log 0 c
      exact run_replays (sv := sv) (Router.plainL_fair c hf) hl (by rw [wlog, List.length_map]; exact hn) hr' req hm st
  constructor
  · intro hk c r r' hf hp hr hr' w s
    obtain ⟨M, hM, ho, -, h1, h2⟩ := runs c r r' hf hp hr hr'
    rw [← hp] at hk
    unfold NumberedInOrder places at hk
    rw [List.pairwise_map] at hk
    exact (renumbered_same { sv with router := r } r' hM ho hk h1 h2 w s).symm
  · intro hall
    unfold NumberedInOrder
    rw [List.pairwise_iff_getElem]
    intro i j hi hj hij hmeet
    apply Classical.byContradiction
    intro hno
    have hd := List.pairwise_iff_getElem.1 hsort.1 i j hi hj hij
    -- the same registrations with handlers that tell the two apart
    let N : List (Reg (W × Response) × Nat) :=
      (places calls).map fun e => (⟨e.1, told (places calls)[i].2 (places calls)[j].2 e.2⟩, e.2)
    obtain ⟨c, hf, hc⟩ := program_ofW calls N (by
      intro e he
      obtain ⟨x, hx, rfl⟩ := List.mem_map.1 he
      obtain ⟨y, hy, rfl⟩ := List.mem_map.1 hx
      exact ⟨y, hy, rfl⟩) (by
      intro e he
      obtain ⟨x, hx, rfl⟩ := List.mem_map.1 he
      exact hsort.2.1 x hx)
    have hp : places c = places calls := by
      unfold places
      rw [(hc 0).1]
      show List.map _ (List.map _ (places calls)) = _
      rw [List.map_map]
      exact List.map_id _
    obtain ⟨r, hr⟩ := (C168_panics c hf).2 (hc 0).2
    have hl : logOfL (plainL c) = wlog c := Router.plainL_log 0 c
    have hlen : (wlog c).length < 2 ^ 64 := by
      rw [← hp, places, List.length_map] at hn
      rw [wlog, List.length_map]; exact hn
    obtain ⟨r', hr', -⟩ := C12_run_is_replay (plainL c) (Router.plainL_fair c hf) (by rw [hl]; exact hlen)
    obtain ⟨M, hM, ho, hdc, h1, h2⟩ := runs c r r' hf hp hr hr'
    have hpat : ∀ e ∈ (numberedL 0 c).1, PatOk e.1.target := fun e he =>
      log_patOkL (plainL c) e.1 (by rw [hl]; exact List.mem_map_of_mem he)
    rw [(hc 0).1] at hM hdc h2 hpat
    have hiN : i < N.length := by simpa [N] using hi
    have hjN : j < N.length := by simpa [N] using hj
    have ei : N[i] = (⟨(places calls)[i].1, told (places calls)[i].2 (places calls)[j].2 (places calls)[i].2⟩,
      (places calls)[i].2) := by simp [N]
    have ej : N[j] = (⟨(places calls)[j].1, told (places calls)[i].2 (places calls)[j].2 (places calls)[j].2⟩,
      (places calls)[j].2) := by simp [N]
    obtain ⟨s, hs⟩ := renumbered_differs sv r r' hM ho hdc hpat i j hiN hjN hij (by rw [ei, ej]; exact hmeet)
      (by rw [ei, ej]; show (places calls)[j].2 < (places calls)[i].2; omega) (by
        intro e he
        rw [ei, ej]
        obtain ⟨x, hx, rfl⟩ := List.mem_map.1 he
        rfl) h1 h2 w0
    exact hs (hall c r r' hf hp hr hr' w0 s)

/-- C170, exactly: in a release build the same holds of the numbers modulo 2^64. -/
theorem C170_iff (sv : Server W) (calls : List (WCall (W × Response))) (hsort : Sortable (wrappedPlaces calls))
    (hn : (wrappedPlaces calls).length < 2 ^ 64) (w0 : W) :
    NumberedInOrder sv.feat.urlVariables (wrappedPlaces calls) ↔
      ∀ (c : List (WCall (W × Response))) (r r' : Router (W × Response)), FairWL c → wrappedPlaces c = wrappedPlaces calls →
        execRL Router.new c = .ok r → execL Router.new (plainL c) = .ok r' →
        ∀ w s, { sv with router := r }.serve w s = { sv with router := r' }.serve w s := by
  have log_wrapped : ∀ c : List (WCall (W × Response)), wlog c = (wrapped c).map (·.1) := by
    intro c
    simp [wlog, wrapped]
  have runs : ∀ (c : List (WCall (W × Response))) (r r' : Router (W × Response)), FairWL c → wrappedPlaces c = wrappedPlaces calls →
      execRL Router.new c = .ok r → execL Router.new (plainL c) = .ok r' →
      ∃ M : List (Reg (W × Response) × Nat), M.Perm (wrapped c) ∧ M.Pairwise (fun a b => a.2 < b.2) ∧
        (wrapped c).Pairwise (fun a b => a.2 ≠ b.2) ∧
        (∀ req : Request, req.requestLine.method ≠ .all → ∀ st,
          Router.run sv.feat.urlVariables r req st = replay sv.feat.urlVariables req (M.map (·.1)) st) ∧
        (∀ req : Request, req.requestLine.method ≠ .all → ∀ st,
          Router.run sv.feat.urlVariables r' req st =
            replay sv.feat.urlVariables req ((wrapped c).map (·.1)) st) := by
    intro c r r' hf hp hr hr'
    obtain ⟨s1, s2, s3⟩ := hsort
    rw [← hp] at s1 s2 s3 hn
    unfold wrappedPlaces at s1 s2 s3 hn
    rw [List.pairwise_map] at s1 s3
    rw [List.length_map] at hn
    obtain ⟨M, hM, ho⟩ := sorted_exists _ s1
    refine ⟨M, hM, ho, s1, fun req hm st => ?_, fun req hm st => ?_⟩
    · exact C170_by_number hf hr s3 (fun e he => s2 _ (List.mem_map_of_mem he)) M hM ho _ _ hm _
    · have hl : logOfL (plainL c) = (wrapped c).map (·.1) := (Router.plainL_log 0 c).trans (log_wrapped c)
      exact run_replays (sv := sv) (Router.plainL_fair c hf) hl (by rw [List.length_map]; exact hn) hr' req hm st
  constructor
  · intro hk c r r' hf hp hr hr' w s
    obtain ⟨M, hM, ho, -, h1, h2⟩ := runs c r r' hf hp hr hr'
    rw [← hp] at hk
    unfold NumberedInOrder wrappedPlaces at hk
    rw [List.pairwise_map] at hk
    exact (renumbered_same { sv with router := r } r' hM ho hk h1 h2 w s).symm
  · intro hall
    unfold NumberedInOrder
    rw [List.pairwise_iff_getElem]
    intro i j hi hj hij hmeet
    apply Classical.byContradiction
    intro hno
    have hd := List.pairwise_iff_getElem.1 hsort.1 i j hi hj hij
    -- the same registrations with handlers that tell the two apart
    let N : List (Reg (W × Response) × Nat) :=
      (wrappedPlaces calls).map fun e => (⟨e.1, told (wrappedPlaces calls)[i].2 (wrappedPlaces calls)[j].2 e.2⟩, e.2)
    obtain ⟨c, hf, hc⟩ := program_ofW calls N (by
      intro e he
      obtain ⟨x, hx, rfl⟩ := List.mem_map.1 he
      obtain ⟨y, hy, rfl⟩ := List.mem_map.1 hx
      obtain ⟨z, hz, rfl⟩ := List.mem_map.1 hy
      exact ⟨z, hz, rfl⟩) (by
      intro e he
      obtain ⟨x, hx, rfl⟩ := List.mem_map.1 he
      exact hsort.2.1 x hx)
    have hw : wrapped c = N := by
      rw [wrapped, (hc 0).1]
      refine (List.map_congr_left fun e he => ?_).trans (List.map_id _)
      obtain ⟨x, hx, rfl⟩ := List.mem_map.1 he
      have := hsort.2.1 x hx
      show (_, x.2 % 2 ^ 64) = (_, x.2)
      rw [Nat.mod_eq_of_lt (by omega)]
    have hp : wrappedPlaces c = wrappedPlaces calls := by
      rw [wrappedPlaces, hw]
      show List.map _ (List.map _ (wrappedPlaces calls)) = _
      rw [List.map_map]
      exact List.map_id _
    obtain ⟨r, hr⟩ := C170_total c hf
    have hl : logOfL (plainL c) = (wrapped c).map (·.1) := (Router.plainL_log 0 c).trans (log_wrapped c)
    have hlen : ((wrapped c).map (·.1)).length < 2 ^ 64 := by
      rw [← hp, wrappedPlaces, List.length_map] at hn
      rw [List.length_map]; exact hn
    obtain ⟨r', hr', -⟩ := C12_run_is_replay (plainL c) (Router.plainL_fair c hf) (by rw [hl]; exact hlen)
    obtain ⟨M, hM, ho, hdc, h1, h2⟩ := runs c r r' hf hp hr hr'
    have hpat : ∀ e ∈ wrapped c, PatOk e.1.target := fun e he =>
      log_patOkL (plainL c) e.1 (by rw [hl]; exact List.mem_map_of_mem he)
    rw [hw] at hM hdc h2 hpat
    have hiN : i < N.length := by simpa [N] using hi
    have hjN : j < N.length := by simpa [N] using hj
    have ei : N[i] = (⟨(wrappedPlaces calls)[i].1, told (wrappedPlaces calls)[i].2 (wrappedPlaces calls)[j].2 (wrappedPlaces calls)[i].2⟩,
      (wrappedPlaces calls)[i].2) := by simp [N]
    have ej : N[j] = (⟨(wrappedPlaces calls)[j].1, told (wrappedPlaces calls)[i].2 (wrappedPlaces calls)[j].2 (wrappedPlaces calls)[j].2⟩,
      (wrappedPlaces calls)[j].2) := by simp [N]
    obtain ⟨s, hs⟩ := renumbered_differs sv r r' hM ho hdc hpat i j hiN hjN hij (by rw [ei, ej]; exact hmeet)
      (by rw [ei, ej]; show (wrappedPlaces calls)[j].2 < (wrappedPlaces calls)[i].2; omega) (by
        intro e he
        rw [ei, ej]
        obtain ⟨x, hx, rfl⟩ := List.mem_map.1 he
        rfl) h1 h2 w0
    exact hs (hall c r r' hf hp hr hr' w0 s)

namespace RenumberExample
open DeadExample StrictExample MeetExample

/-- the counter is lowered between two routes that no request reaches both -/
def apart : List (WCall (Unit × Response)) :=
  [.write 5, .route .get c!"/a/:x" hello, .write 0, .route .addRoute c!"/b" pass]
/-- and between two that `GET /a/b` reaches -/
def together : List (WCall (Unit × Response)) :=
  [.write 5, .route .get c!"/a/:x" hello, .write 0, .route .addRoute c!"/:y/b" pass]
/-- the counter is raised to the top, and the next number is 0 -/
def over : List (WCall (Unit × Response)) :=
  [.write (2 ^ 64 - 2), .route .get c!"/a/:x" hello, .write (2 ^ 64 - 1),
    .mount [.write 1, .route .addRoute c!"/:y/b" pass] ⟨id, fun _ _ => id⟩]

theorem places_apart : places apart = [(.on .get [c!"a", c!":x"], 5), (.anyMethod [c!"b"], 0)] := by
  simp [places, apart, numberedL, numbered, parse_ax, parse_b, Verb.target, Verb.method]
theorem places_together : places together = [(.on .get [c!"a", c!":x"], 5), (.anyMethod [c!":y", c!"b"], 0)] := by
  simp [places, together, numberedL, numbered, parse_ax, parse_yb, Verb.target, Verb.method]
theorem places_over : wrappedPlaces over =
    [(.on .get [c!"a", c!":x"], 2 ^ 64 - 2), (.anyMethod [c!":y", c!"b"], 0)] := by
  simp [wrappedPlaces, wrapped, over, numberedL, numbered, parse_ax, parse_yb, Verb.target, Verb.method]

/-- the counter was lowered, and no connection notices -/
example (sv : Server Unit) (huv : sv.feat.urlVariables = true) (c : List (WCall (Unit × Response)))
    (r r' : Router (Unit × Response)) (hf : FairWL c) (hp : places c = places apart) (hr : execWL Router.new c = .ok r)
    (hr' : execL Router.new (plainL c) = .ok r') (s : Sock) :
    { sv with router := r }.serve () s = { sv with router := r' }.serve () s := by
  refine (C168_iff sv apart ?_ (by simp [places_apart]) ()).1 ?_ c r r' hf hp hr hr' () s
  · rw [places_apart]
    exact ⟨by simp, by simp, by simp⟩
  · rw [places_apart, huv]
    simp only [NumberedInOrder, List.pairwise_cons, List.mem_singleton, forall_eq]
    exact ⟨fun h => absurd h (noMeet .get), by simp⟩

/-- here one does, with some handlers -/
example (sv : Server Unit) (huv : sv.feat.urlVariables = true) :
    ∃ (c : List (WCall (Unit × Response))) (r r' : Router (Unit × Response)) (s : Sock),
      places c = places together ∧ execWL Router.new c = .ok r ∧ execL Router.new (plainL c) = .ok r' ∧
      { sv with router := r }.serve () s ≠ { sv with router := r' }.serve () s := by
  apply Classical.byContradiction
  intro hno
  have := (C168_iff sv together (by rw [places_together]; exact ⟨by simp, by simp, by simp⟩) (by simp [places_together]) ()).2
    fun c r r' _ hp hr hr' w s => Classical.byContradiction fun h => hno ⟨c, r, r', s, hp, hr, hr', h⟩
  rw [places_together, huv] at this
  simp only [NumberedInOrder, List.pairwise_cons, List.mem_singleton, forall_eq] at this
  exact absurd (this.1 meet) (by decide)

/-- and here in a release build -/
example (sv : Server Unit) (huv : sv.feat.urlVariables = true) :
    ∃ (c : List (WCall (Unit × Response))) (r r' : Router (Unit × Response)) (s : Sock),
      wrappedPlaces c = wrappedPlaces over ∧ execRL Router.new c = .ok r ∧ execL Router.new (plainL c) = .ok r' ∧
      { sv with router := r }.serve () s ≠ { sv with router := r' }.serve () s := by
  apply Classical.byContradiction
  intro hno
  have := (C170_iff sv over (by rw [places_over]; exact ⟨by simp, by simp, by simp⟩) (by simp [places_over]) ()).2
    fun c r r' _ hp hr hr' w s => Classical.byContradiction fun h => hno ⟨c, r, r', s, hp, hr, hr', h⟩
  rw [places_over, huv] at this
  simp only [NumberedInOrder, List.pairwise_cons, List.mem_singleton, forall_eq] at this
  exact absurd (this.1 meet) (by decide)

end RenumberExample
end Octane
