import Verif.Spec.Meet
import Verif.Props.Dead
import Verif.Props.Methods
/-
Helper lemmas for C159.
-/
namespace Octane
open Spec Query
universe u
variable {W : Type u} {S : Type u}

/-- a path that matches both patterns, if they overlap -/
def meeting : PathBuf → PathBuf → PathBuf
  | a :: p, b :: q => (if IsVar a then (if IsVar b then ['x'] else b) else a) :: meeting p q
  | _, _ => []

theorem meeting_length (p q : PathBuf) (h : p.length = q.length) : (meeting p q).length = p.length := by
  induction p generalizing q with
  | nil => rfl
  | cons a p ih =>
    cases q with
    | nil => simp at h
    | cons b q => simp only [meeting, List.length_cons, ih q (by simpa using h)]

theorem meeting_getElem (p q : PathBuf) (i : Nat) (c : Str) (h : (meeting p q)[i]? = some c) :
    ∃ a b, p[i]? = some a ∧ q[i]? = some b ∧ c = if IsVar a then (if IsVar b then ['x'] else b) else a := by
  induction p generalizing q i with
  | nil => simp [meeting] at h
  | cons a p ih =>
    cases q with
    | nil => simp [meeting] at h
    | cons b q =>
      cases i with
      | zero => exact ⟨a, b, rfl, rfl, by simpa [meeting] using h.symm⟩
      | succ i => simpa using ih q i (by simpa [meeting] using h)

theorem meeting_matches {uv : Bool} {p q : PathBuf} (hp : Askable uv p) (hq : Askable uv q) (h : Overlap uv p q) :
    PatMatch uv p (meeting p q) ∧ PatMatch uv q (meeting p q) := by
  cases uv with
  | true =>
    simp only [PatMatch, if_true]
    refine ⟨⟨(meeting_length p q h.1).symm, fun i a c ha hc => ?_⟩,
      ⟨by rw [meeting_length p q h.1, h.1], fun i b c hb hc => ?_⟩⟩
    · obtain ⟨a', b, h1, h2, h3⟩ := meeting_getElem p q i c hc
      rw [ha] at h1
      injection h1 with h1
      subst h1
      by_cases hv : IsVar a
      · exact .inl hv
      · rw [if_neg hv] at h3; exact .inr h3.symm
    · obtain ⟨a, b', h1, h2, h3⟩ := meeting_getElem p q i c hc
      rw [hb] at h2
      injection h2 with h2
      subst h2
      by_cases hv : IsVar b
      · exact .inl hv
      · right
        by_cases hva : IsVar a
        · rw [if_pos hva, if_neg hv] at h3; exact h3.symm
        · rw [if_neg hva] at h3
          rcases h.2 i a b h1 hb with ⟨-, h4 | h4⟩ | h4
          · exact absurd h4 hva
          · exact absurd h4 hv
          · rw [h3, h4]
  | false =>
    have hno : ∀ x : PathBuf, Askable false x → ∀ b ∈ x, ¬ IsVar b := by
      intro x hx b hb
      rcases hx b hb with ⟨h1, -⟩ | ⟨h1, -⟩
      · simp at h1
      · exact h1
    have e : p = q := by
      refine List.ext_getElem h.1 fun i h1 h2 => ?_
      rcases h.2 i _ _ (List.getElem?_eq_getElem h1) (List.getElem?_eq_getElem h2) with ⟨h3, -⟩ | e
      · simp at h3
      · exact e
    subst e
    have em : ∀ x : PathBuf, (∀ b ∈ x, ¬ IsVar b) → meeting x x = x := by
      intro x hx
      induction x with
      | nil => rfl
      | cons a x ih =>
        rw [meeting, if_neg (hx a (by simp)), ih fun b hb => hx b (List.mem_cons_of_mem _ hb)]
    simp only [PatMatch, Bool.false_eq_true, if_false]
    exact ⟨⟨(em p (hno p hp)).symm, hno p hp⟩, ⟨(em p (hno p hp)).symm, hno p hp⟩⟩

theorem overlap_of_matches {uv : Bool} {p q path : PathBuf} (h1 : PatMatch uv p path) (h2 : PatMatch uv q path) :
    Overlap uv p q := by
  cases uv with
  | true =>
    simp only [PatMatch, if_true] at h1 h2
    refine ⟨h1.1.trans h2.1.symm, fun i a b ha hb => ?_⟩
    have hi : i < path.length := by
      have := (List.getElem?_eq_some_iff.1 ha).1
      rw [← h1.1]; exact this
    rcases h1.2 i a _ ha (List.getElem?_eq_getElem hi) with h3 | h3
    · exact .inl ⟨rfl, .inl h3⟩
    · rcases h2.2 i b _ hb (List.getElem?_eq_getElem hi) with h4 | h4
      · exact .inl ⟨rfl, .inr h4⟩
      · exact .inr (h3.trans h4.symm)
  | false =>
    simp only [PatMatch, Bool.false_eq_true, if_false] at h1 h2
    obtain ⟨rfl, -⟩ := h1
    obtain ⟨rfl, -⟩ := h2
    refine ⟨rfl, fun i a b ha hb => .inr ?_⟩
    rw [ha] at hb
    exact Option.some.inj hb

theorem overlaps_of_applies {uv : Bool} {t u : Target} {m : RequestMethod} {path : PathBuf}
    (h1 : t.applies uv m path = true) (h2 : u.applies uv m path = true) : t.Overlaps uv u := by
  cases t <;> cases u <;>
    simp only [Target.applies, Bool.and_eq_true, decide_eq_true_eq, Target.Overlaps] at h1 h2 ⊢
  · exact overlap_of_matches h1.2 h2.2
  · exact overlap_of_matches h1.2 h2
  · exact overlap_of_matches h1 h2.2
  · exact overlap_of_matches h1 h2

/-- a path for both -/
def meetingOf : Target → Target → PathBuf
  | .everywhere, u => askFor 1 u
  | t, .everywhere => askFor 1 t
  | t, u => meeting t.pat u.pat

theorem meetingOf_applies {uv : Bool} {t u : Target} {m : RequestMethod} (ht : t.Askable uv) (hu : u.Askable uv)
    (h1 : t.IsFor m) (h2 : u.IsFor m) (ho : t.Overlaps uv u) :
    t.applies uv m (meetingOf t u) = true ∧ u.applies uv m (meetingOf t u) = true := by
  cases t with
  | everywhere => exact ⟨rfl, Target.ask_applies 1 h2 hu⟩
  | on m1 p =>
    cases u with
    | everywhere => exact ⟨Target.ask_applies 1 h1 ht, rfl⟩
    | on m2 q =>
      have := meeting_matches ht hu ho
      simp only [Target.applies, Bool.and_eq_true, decide_eq_true_eq]
      exact ⟨⟨h1, this.1⟩, ⟨h2, this.2⟩⟩
    | anyMethod q =>
      have := meeting_matches ht hu ho
      simp only [Target.applies, Bool.and_eq_true, decide_eq_true_eq]
      exact ⟨⟨h1, this.1⟩, this.2⟩
  | anyMethod p =>
    cases u with
    | everywhere => exact ⟨Target.ask_applies 1 h1 ht, rfl⟩
    | on m2 q =>
      have := meeting_matches ht hu ho
      simp only [Target.applies, Bool.and_eq_true, decide_eq_true_eq]
      exact ⟨this.1, ⟨h2, this.2⟩⟩
    | anyMethod q =>
      have := meeting_matches ht hu ho
      simp only [Target.applies, decide_eq_true_eq]
      exact this

/-- a segment that can be asked for -/
def SegOk (x : Str) : Prop := x ≠ [] ∧ x ≠ ['.'] ∧ x ≠ ['.', '.'] ∧ '/' ∉ x ∧ ' ' ∉ x ∧ ¬ Occurs x crlf

theorem segOk_x : SegOk ['x'] :=
  ⟨by decide, by decide, by decide, by decide, by decide, no_crlf_of_no_cr (by decide)⟩

theorem segOk_of {uv : Bool} {p : PathBuf} (ha : Askable uv p) (hp : ∀ x ∈ p, x ≠ [] ∧ x ≠ ['.'] ∧ x ≠ ['.', '.'] ∧ '/' ∉ x)
    {x : Str} (hx : x ∈ p) (hv : ¬ IsVar x) : SegOk x := by
  obtain ⟨h1, h2, h3, h4⟩ := hp x hx
  rcases ha x hx with ⟨-, h5⟩ | ⟨-, h5, h6⟩
  · exact absurd h5 hv
  · exact ⟨h1, h2, h3, h4, h5, h6⟩

theorem inst_segs {uv : Bool} {p : PathBuf} (ha : Askable uv p)
    (hp : ∀ x ∈ p, x ≠ [] ∧ x ≠ ['.'] ∧ x ≠ ['.', '.'] ∧ '/' ∉ x) : ∀ x ∈ instOf 1 p, SegOk x := by
  intro x hx
  unfold instOf at hx
  obtain ⟨b, hb, rfl⟩ := List.mem_map.1 hx
  split
  · exact segOk_x
  · rename_i hv
    exact segOk_of ha hp hb hv

theorem meeting_segs {uv : Bool} {p q : PathBuf} (hp : Askable uv p) (hq : Askable uv q)
    (hp' : ∀ x ∈ p, x ≠ [] ∧ x ≠ ['.'] ∧ x ≠ ['.', '.'] ∧ '/' ∉ x)
    (hq' : ∀ x ∈ q, x ≠ [] ∧ x ≠ ['.'] ∧ x ≠ ['.', '.'] ∧ '/' ∉ x) : ∀ x ∈ meeting p q, SegOk x := by
  intro x hx
  obtain ⟨i, hi⟩ := List.mem_iff_getElem?.1 hx
  obtain ⟨a, b, h1, h2, rfl⟩ := meeting_getElem p q i x hi
  split
  · split
    · exact segOk_x
    · rename_i hv
      exact segOk_of hq hq' (List.mem_of_getElem? h2) hv
  · rename_i hv
    exact segOk_of hp hp' (List.mem_of_getElem? h1) hv

theorem askFor_segs {uv : Bool} {t : Target} (ha : t.Askable uv) (hp : PatOk t) : ∀ x ∈ askFor 1 t, SegOk x := by
  cases t with
  | on m p => exact inst_segs ha hp
  | anyMethod p => exact inst_segs ha hp
  | everywhere =>
    intro x hx
    rw [List.eq_of_mem_replicate hx]
    exact segOk_x

theorem meetingOf_segs {uv : Bool} {t u : Target} (ht : t.Askable uv) (hu : u.Askable uv) (ht' : PatOk t)
    (hu' : PatOk u) : ∀ x ∈ meetingOf t u, SegOk x := by
  cases t with
  | everywhere => exact askFor_segs hu hu'
  | on m p =>
    cases u with
    | everywhere => exact askFor_segs ht ht'
    | on m' q => exact meeting_segs ht hu ht' hu'
    | anyMethod q => exact meeting_segs ht hu ht' hu'
  | anyMethod p =>
    cases u with
    | everywhere => exact askFor_segs ht ht'
    | on m' q => exact meeting_segs ht hu ht' hu'
    | anyMethod q => exact meeting_segs ht hu ht' hu'

/-- what the server does with a request for this path -/
theorem serve_to (sv : Server W) {name : Str} {m : RequestMethod} (hm : (name, m) ∈ methodTable) {path : PathBuf}
    (hs : ∀ x ∈ path, SegOk x) :
    ∃ req : Request, req.requestLine.method = m ∧ req.requestLine.path = path ∧
      ∀ (calls : List (Call (W × Response))) (r : Router (W × Response)), FairL calls →
        (logOfL calls).length < 2 ^ 64 → execL Router.new calls = .ok r → ∀ w,
        { sv with router := r }.serve w ⟨[bytesTo name ([] :: path)], .eof⟩ =
          Io.ofRes ((replay sv.feat.urlVariables req (logOfL calls) (w, Response.newEmpty)).bind fun st =>
            if st.2.hasBody = false then { sv with router := r }.declareError st.1 .notFound
            else .ok (st.1, sendData (st.2.getData sv.U sv.feat.cookies sv.ord))) := by
  obtain ⟨km, k1, k2⟩ := known_method hm
  have hasked := asked_bytesTo sv.feat.faithful sv.feat.cookies name path ⟨k1, k2⟩ hs
  obtain ⟨req, hread, hrl, hget⟩ := reads_asked_zero sv.feat sv.allocOk
    ⟨[bytesTo name ([] :: path)], .eof⟩ _ (by simpa [Sock.bytes] using hasked)
  have hmeth : req.requestLine.method = m := by rw [hrl]; exact km
  refine ⟨req, hmeth, ?_, ?_⟩
  · rw [hrl]
    refine resolve_names _ fun x hx => ?_
    obtain ⟨h1, h2, h3, -⟩ := hs x hx
    simp [isName, h1, h2, h3]
  · intro calls r hf hn hr w
    have hhost : req.headers.get c!"host" = some c!"b" := by
      rw [hget]
      exact (show joined [(c!"Host", c!"b")] c!"host" = some c!"b" by decide +kernel)
    rw [serve_reads (sv := { sv with router := r }) hread w, handle_spec, if_neg (by rw [hhost]; simp),
      if_neg (by rw [hmeth]; exact (known_not_all hm).2)]
    show Io.ofRes (Res.bind (Router.run sv.feat.urlVariables r req (w, Response.newEmpty)) _) = _
    rw [run_replays (sv := sv) hf rfl hn hr req (by rw [hmeth]; exact (known_not_all hm).1)]

/-- the registrations that apply to a request stand in the same order -/
theorem keeps_filter {uv : Bool} {log : List (Reg S)} {order : List Nat} (h : KeepsOrder uv log order)
    (P : Reg S → Bool) (hP : ∀ a ∈ log, ∀ b ∈ log, P a = true → P b = true → a.target.Meets uv b.target) :
    (order.filterMap (log[·]?)).filter P = log.filter P := by
  obtain ⟨hperm, hpair⟩ := h
  let Q : Nat → Bool := fun i => (log[i]?).any P
  have key : ∀ l : List Nat, (l.filterMap (log[·]?)).filter P = (l.filter Q).filterMap (log[·]?) := by
    intro l
    induction l with
    | nil => rfl
    | cons i l ih =>
      cases hi : log[i]? with
      | none => simp [Q, hi, ih]
      | some a =>
        cases hp : P a with
        | true => simp [Q, hi, hp, ih]
        | false => simp [Q, hi, hp, ih]
  have hrange : (List.range log.length).filterMap (log[·]?) = log := by
    apply List.ext_getElem?
    intro i
    have : ∀ (l : List (Reg S)), (List.range l.length).filterMap (l[·]?) = l := by
      intro l
      induction l with
      | nil => rfl
      | cons a l ih =>
        rw [List.length_cons, List.range_succ_eq_map, List.filterMap_cons_some (by rfl), List.filterMap_map]
        congr 1
    rw [this]
  have e : order.filter Q = (List.range log.length).filter Q := by
    have hnd : order.Nodup := hperm.nodup_iff.2 List.nodup_range
    refine List.Perm.eq_of_pairwise (le := (· < ·)) (by intro a b _ _ h1 h2; omega) ?_
      (List.pairwise_lt_range.filter _) (hperm.filter _)
    have hpair2 := (List.Pairwise.and hpair hnd).filter Q
    refine List.Pairwise.imp_of_mem ?_ hpair2
    rintro i j hi hj ⟨h1, h2⟩
    rcases Nat.lt_trichotomy i j with h3 | h3 | h3
    · exact h3
    · exact absurd h3 h2
    · obtain ⟨a, ha, hpa⟩ : ∃ a, log[i]? = some a ∧ P a = true := by
        have := (List.mem_filter.1 hi).2
        simpa [Q, Option.any_eq_true] using this
      obtain ⟨b, hb, hpb⟩ : ∃ b, log[j]? = some b ∧ P b = true := by
        have := (List.mem_filter.1 hj).2
        simpa [Q, Option.any_eq_true] using this
      exact absurd (hP a (List.mem_of_getElem? ha) b (List.mem_of_getElem? hb) hpa hpb) (h1 h3 a b ha hb)
  rw [key, e, ← key, hrange]

mutual
/-- what is registered somewhere can be registered by one call -/
theorem one_call (c : Call S) (e : Reg S) (he : e ∈ logOf c) (h : Closure S) :
    ∃ c', Fair c' ∧ logOf c' = [⟨e.target, h⟩] := by
  cases c with
  | route v path hd =>
    cases hp : Path.parse path with
    | none => simp [logOf, hp] at he
    | some p =>
      simp only [logOf, hp, List.mem_singleton] at he
      subst he
      exact ⟨.route v path h, trivial, by simp [logOf, hp]⟩
  | add hd =>
    simp only [logOf, List.mem_singleton] at he
    subst he
    exact ⟨.add h, trivial, by simp [logOf]⟩
  | mount calls ord =>
    simp only [logOf] at he
    exact one_callL calls e he h
theorem one_callL (cs : List (Call S)) (e : Reg S) (he : e ∈ logOfL cs) (h : Closure S) :
    ∃ c', Fair c' ∧ logOf c' = [⟨e.target, h⟩] := by
  cases cs with
  | nil => simp [logOfL] at he
  | cons c cs =>
    simp only [logOfL, List.mem_append] at he
    rcases he with he | he
    · exact one_call c e he h
    · exact one_callL cs e he h
end

/-- a program for registrations that a program makes, in any order and with any handlers -/
theorem program_of (cs : List (Call S)) (log : List (Reg S)) (h : ∀ e ∈ log, ∃ e' ∈ logOfL cs, e'.target = e.target) :
    ∃ cs', FairL cs' ∧ logOfL cs' = log := by
  induction log with
  | nil => exact ⟨[], trivial, rfl⟩
  | cons e log ih =>
    obtain ⟨cs', h1, h2⟩ := ih fun x hx => h x (List.mem_cons_of_mem _ hx)
    obtain ⟨e', he', ht⟩ := h e (by simp)
    obtain ⟨c, h3, h4⟩ := one_callL cs e' he' e.handler
    exact ⟨c :: cs', ⟨h3, h1⟩, by simp [logOfL, h2, h4, ht]⟩

end Octane
