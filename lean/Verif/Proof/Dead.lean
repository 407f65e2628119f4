import Verif.Spec.Dead
import Verif.Proof.Examples2
import Verif.Proof.Infix
import Verif.Props.Target
/-
Helper lemmas for C155: patterns compared segment by segment, a request for a given path, programs that differ only
in a handler.
-/
namespace Octane
open Spec Query
universe u
variable {W : Type u} {S : Type u}

/-- two routers that do the same with every request of a known method that can be read from this connection make
the same server -/
theorem serve_congr_known (sv : Server W) (r' : Router (W × Response)) (w : W) (s : Sock)
    (h : ∀ req (q : Asked) n, q.In sv.feat.faithful sv.feat.cookies s.bytes n → q.Was sv.feat.cookies n req →
      (q.method, req.requestLine.method) ∈ methodTable →
      Router.run sv.feat.urlVariables r' req (w, Response.newEmpty) =
        Router.run sv.feat.urlVariables sv.router req (w, Response.newEmpty)) :
    { sv with router := r' }.serve w s = sv.serve w s := by
  rw [serve_readRest, serve_readRest]
  show (readRest sv.feat sv.allocOk s (.head [])).bind _ = _
  cases hread : readRest sv.feat sv.allocOk s (.head []) with
  | panic => rfl
  | pending => rfl
  | abort => rfl
  | ok o =>
    cases o with
    | none => rfl
    | some req =>
      simp only [Io.bind_ok]
      congr 1
      rw [handle_spec, handle_spec]
      obtain ⟨q, n, hq, hw, -⟩ := readRest_received hread
      rcases hw.method with hm | ⟨-, hm⟩
      · show (if _ then _ else if _ then _ else (Router.run sv.feat.urlVariables r' req (w, Response.newEmpty)).bind _) = _
        rw [h req q n hq hw hm]
        rfl
      · rw [if_pos hm, if_pos hm]
        rfl

theorem known_not_all {name : Str} {m : RequestMethod} (h : (name, m) ∈ methodTable) : m ≠ .all ∧ m ≠ .none := by
  constructor <;> (rintro rfl; simp [methodTable] at h)

theorem known_method {name : Str} {m : RequestMethod} (h : (name, m) ∈ methodTable) :
    methodOf name = m ∧ ' ' ∉ name ∧ '\r' ∉ name := by
  have key : ∀ e ∈ methodTable, methodOf e.1 = e.2 ∧ ' ' ∉ e.1 ∧ '\r' ∉ e.1 := by decide +kernel
  exact key _ h

/-! ### patterns -/

theorem General.covers {uv : Bool} {p q path : PathBuf} (h : General uv p q) (hq : PatMatch uv q path) :
    PatMatch uv p path := by
  cases uv with
  | true =>
    simp only [PatMatch, if_true] at hq ⊢
    refine ⟨h.1.trans hq.1, fun i a c ha hc => ?_⟩
    have hi : i < q.length := by
      have := (List.getElem?_eq_some_iff.1 ha).1
      rw [← h.1]; exact this
    rcases h.2 i a q[i] ha (List.getElem?_eq_getElem hi) with ⟨-, hv⟩ | ⟨hv, e⟩
    · exact .inl hv
    · rcases hq.2 i q[i] c (List.getElem?_eq_getElem hi) hc with h1 | h1
      · exact absurd (e ▸ h1) hv
      · exact .inr (e.trans h1)
  | false =>
    simp only [PatMatch, Bool.false_eq_true, if_false] at hq ⊢
    obtain ⟨rfl, hq⟩ := hq
    have e : p = q := by
      refine List.ext_getElem h.1 fun i h1 h2 => ?_
      rcases h.2 i _ _ (List.getElem?_eq_getElem h1) (List.getElem?_eq_getElem h2) with ⟨h3, -⟩ | ⟨-, e⟩
      · simp at h3
      · exact e
    exact ⟨e, e ▸ hq⟩

/-- the path with a long segment for each variable -/
def instOf (n : Nat) (q : PathBuf) : PathBuf := q.map fun b => if IsVar b then List.replicate n 'x' else b

theorem instOf_getElem {n : Nat} {q : PathBuf} {i : Nat} {b : Str} (h : q[i]? = some b) :
    (instOf n q)[i]? = some (if IsVar b then List.replicate n 'x' else b) := by
  unfold instOf; rw [List.getElem?_map, h]; rfl

/-- a pattern whose segments are shorter than the inserted ones matches the path only if it is as general -/
theorem general_of_inst {uv : Bool} {p q : PathBuf} {n : Nat} (hn : ∀ a ∈ p, a.length < n) (hq : Askable uv q)
    (h : PatMatch uv p (instOf n q)) : General uv p q := by
  cases uv with
  | true =>
    simp only [PatMatch, if_true] at h
    refine ⟨by simpa [instOf] using h.1, fun i a b ha hb => ?_⟩
    by_cases hv : IsVar a
    · exact .inl ⟨rfl, hv⟩
    · refine .inr ⟨hv, ?_⟩
      rcases h.2 i a _ ha (instOf_getElem hb) with h1 | h1
      · exact absurd h1 hv
      · split at h1
        · have := hn a (List.mem_of_getElem? ha)
          rw [h1] at this
          simp at this
        · exact h1
  | false =>
    simp only [PatMatch, Bool.false_eq_true, if_false] at h
    have hi : instOf n q = q := by
      unfold instOf
      conv => rhs; rw [← List.map_id q]
      apply List.map_congr_left
      intro b hb
      rcases hq b hb with ⟨h1, -⟩ | ⟨h1, -⟩
      · simp at h1
      · simp [h1]
    rw [hi] at h
    refine ⟨by rw [h.1], fun i a b ha hb => .inr ⟨h.2 a (List.mem_of_getElem? ha), ?_⟩⟩
    rw [h.1, hb] at ha
    simpa using ha.symm

theorem inst_matches {uv : Bool} {q : PathBuf} (n : Nat) (hq : Askable uv q) : PatMatch uv q (instOf n q) := by
  cases uv with
  | true =>
    simp only [PatMatch, if_true]
    refine ⟨by simp [instOf], fun i a b ha hb => ?_⟩
    rw [instOf_getElem ha] at hb
    by_cases hv : IsVar a
    · exact .inl hv
    · rw [if_neg hv] at hb
      exact .inr (by simpa using hb)
  | false =>
    simp only [PatMatch, Bool.false_eq_true, if_false]
    have hno : ∀ b ∈ q, ¬ IsVar b := by
      intro b hb
      rcases hq b hb with ⟨h1, -⟩ | ⟨h1, -⟩
      · simp at h1
      · exact h1
    refine ⟨?_, hno⟩
    unfold instOf
    conv => lhs; rw [← List.map_id q]
    apply List.map_congr_left
    intro b hb
    simp [hno b hb]

/-! ### registrations -/

/-- the pattern of a registration; nothing is asked for at `/` by one that has none -/
def Spec.Target.pat : Target → PathBuf
  | .on _ p => p
  | .anyMethod p => p
  | .everywhere => []

/-- a path for a registration that those with shorter patterns and shorter constants do not apply to unless they are as
general -/
def askFor (n : Nat) : Target → PathBuf
  | .on _ p => instOf n p
  | .anyMethod p => instOf n p
  | .everywhere => List.replicate n (List.replicate n 'x')

theorem Target.general_covers {uv : Bool} {a b : Target} {m : RequestMethod} {path : PathBuf} (h : a.General uv b)
    (ha : a.IsFor m) (hb : b.applies uv m path = true) : a.applies uv m path = true := by
  cases a with
  | everywhere => rfl
  | on m' p =>
    have hm : m' = m := ha
    cases b with
    | everywhere => exact h.elim
    | on m'' q =>
      simp only [Target.applies, Bool.and_eq_true, decide_eq_true_eq] at hb ⊢
      exact ⟨hm, General.covers h hb.2⟩
    | anyMethod q =>
      simp only [Target.applies, Bool.and_eq_true, decide_eq_true_eq] at hb ⊢
      exact ⟨hm, General.covers h hb⟩
  | anyMethod p =>
    cases b with
    | everywhere => exact h.elim
    | on m'' q =>
      simp only [Target.applies, Bool.and_eq_true, decide_eq_true_eq] at hb ⊢
      exact General.covers h hb.2
    | anyMethod q =>
      simp only [Target.applies, decide_eq_true_eq] at hb ⊢
      exact General.covers h hb

theorem Target.applies_for {uv : Bool} {t : Target} {m : RequestMethod} {path : PathBuf}
    (h : t.applies uv m path = true) : t.IsFor m := by
  cases t with
  | everywhere => trivial
  | anyMethod p => trivial
  | on m' p =>
    simp only [Target.applies, Bool.and_eq_true, decide_eq_true_eq] at h
    exact h.1

/-- a path in which the segments are in a request line matches only patterns that can be asked for -/
theorem Target.applies_askable {uv : Bool} {t : Target} {m : RequestMethod} {path : PathBuf}
    (hpath : ∀ x ∈ path, ' ' ∉ x ∧ ¬ Occurs x crlf) (h : t.applies uv m path = true) : t.Askable uv := by
  have key : ∀ p : PathBuf, PatMatch uv p path → Spec.Askable uv p := by
    intro p hp seg hseg
    cases uv with
    | true =>
      simp only [PatMatch, if_true] at hp
      by_cases hv : IsVar seg
      · exact .inl ⟨rfl, hv⟩
      · obtain ⟨i, hi, e⟩ := List.mem_iff_getElem.1 hseg
        have hi' : i < path.length := hp.1 ▸ hi
        rcases hp.2 i seg path[i] (by rw [List.getElem?_eq_getElem hi, e]) (List.getElem?_eq_getElem hi') with h1 | h1
        · exact absurd h1 hv
        · exact .inr ⟨hv, h1 ▸ hpath _ (List.getElem_mem hi')⟩
    | false =>
      simp only [PatMatch, Bool.false_eq_true, if_false] at hp
      exact .inr ⟨hp.2 seg hseg, hpath seg (hp.1 ▸ hseg)⟩
  cases t with
  | everywhere => trivial
  | on m' p =>
    simp only [Target.applies, Bool.and_eq_true, decide_eq_true_eq] at h
    exact key p h.2
  | anyMethod p =>
    simp only [Target.applies, decide_eq_true_eq] at h
    exact key p h

theorem Target.ask_applies {uv : Bool} {t : Target} {m : RequestMethod} (n : Nat) (hm : t.IsFor m)
    (h : t.Askable uv) : t.applies uv m (askFor n t) = true := by
  cases t with
  | everywhere => rfl
  | on m' p =>
    simp only [Target.applies, Bool.and_eq_true, decide_eq_true_eq]
    exact ⟨hm, inst_matches n h⟩
  | anyMethod p =>
    simp only [Target.applies, decide_eq_true_eq]
    exact inst_matches n h

theorem Target.general_of_ask {uv : Bool} {a t : Target} {m : RequestMethod} {n : Nat}
    (hn : (∀ x ∈ a.pat, x.length < n) ∧ a.pat.length < n) (hask : t.Askable uv)
    (h : a.applies uv m (askFor n t) = true) : a.General uv t := by
  have hlen : ∀ p q : PathBuf, PatMatch uv p q → p.length = q.length := by
    intro p q hp
    unfold PatMatch at hp
    split at hp
    · exact hp.1
    · rw [hp.1]
  cases a with
  | everywhere => trivial
  | on m' p =>
    simp only [Target.applies, Bool.and_eq_true, decide_eq_true_eq] at h
    cases t with
    | on m'' q => exact general_of_inst hn.1 hask h.2
    | anyMethod q => exact general_of_inst hn.1 hask h.2
    | everywhere =>
      have h1 := hlen _ _ h.2
      have h2 : p.length < n := hn.2
      simp only [askFor, List.length_replicate] at h1
      omega
  | anyMethod p =>
    simp only [Target.applies, decide_eq_true_eq] at h
    cases t with
    | on m'' q => exact general_of_inst hn.1 hask h
    | anyMethod q => exact general_of_inst hn.1 hask h
    | everywhere =>
      have h1 := hlen _ _ h
      have h2 : p.length < n := hn.2
      simp only [askFor, List.length_replicate] at h1
      omega

/-! ### replaying -/

theorem replay_stopped (uv : Bool) (req : Request) (pre a b : List (Reg S)) (s : S)
    (h : ∃ e ∈ pre, e.target.applies uv req.requestLine.method req.requestLine.path = true ∧ Stops e.handler) :
    replay uv req (pre ++ a) s = replay uv req (pre ++ b) s := by
  induction pre generalizing s with
  | nil => obtain ⟨e, he, -⟩ := h; simp at he
  | cons x pre ih =>
    obtain ⟨e, he, hap, hst⟩ := h
    simp only [List.cons_append, replay]
    rcases List.mem_cons.1 he with rfl | he
    · rw [if_pos hap, if_pos hap]
      cases hh : e.handler ⟨req, e.target.vars uv req.requestLine.path⟩ s with
      | panic => rfl
      | ok r =>
        obtain ⟨s', fl⟩ := r
        rw [hst _ _ _ _ hh]
    · split
      · split
        · rfl
        · rfl
        · exact ih _ ⟨e, he, hap, hst⟩
      · exact ih _ ⟨e, he, hap, hst⟩

theorem replay_goes (uv : Bool) (req : Request) (pre rest : List (Reg S)) (s : S)
    (h : ∀ e ∈ pre, e.target.applies uv req.requestLine.method req.requestLine.path = true → Goes e.handler) :
    ∃ s', replay uv req (pre ++ rest) s = replay uv req rest s' := by
  induction pre generalizing s with
  | nil => exact ⟨s, rfl⟩
  | cons x pre ih =>
    have ih := fun s => ih s fun e he => h e (List.mem_cons_of_mem _ he)
    simp only [List.cons_append, replay]
    split
    · rename_i hap
      obtain ⟨s', hs'⟩ := h x (by simp) hap ⟨req, x.target.vars uv req.requestLine.path⟩ s
      rw [hs']
      exact ih s'
    · exact ih s

/-! ### programs that differ only in handlers -/

theorem map_eq_append_split {α β : Type _} {f : α → β} {l : List α} {a b : List β} (h : l.map f = a ++ b) :
    ∃ l1 l2, l = l1 ++ l2 ∧ l1.map f = a ∧ l2.map f = b := by
  obtain ⟨l1, l2, h1, h2, h3⟩ := List.map_eq_append_iff.1 h
  exact ⟨l1, l2, h1, h2, h3⟩

mutual
theorem relabel (c : Call S) (hf : Fair c) (log : List (Reg S))
    (h : log.map Reg.target = (logOf c).map Reg.target) : ∃ c', Fair c' ∧ logOf c' = log := by
  cases c with
  | route v path hd =>
    cases hp : Path.parse path with
    | none =>
      simp only [logOf, hp, List.map_nil, List.map_eq_nil_iff] at h
      exact ⟨.route v path hd, hf, by simp [logOf, hp, h]⟩
    | some p =>
      simp only [logOf, hp, List.map_cons, List.map_nil] at h
      obtain ⟨e, rfl, he⟩ := List.map_eq_singleton_iff.1 h
      refine ⟨.route v path e.handler, trivial, ?_⟩
      simp only [logOf, hp]
      rw [← he]
  | add hd =>
    simp only [logOf, List.map_cons, List.map_nil] at h
    obtain ⟨e, rfl, he⟩ := List.map_eq_singleton_iff.1 h
    refine ⟨.add e.handler, trivial, ?_⟩
    simp only [logOf]
    rw [← he]
  | mount calls ord =>
    simp only [logOf] at h
    obtain ⟨cs', h1, h2⟩ := relabelL calls hf.1 log h
    exact ⟨.mount cs' ord, ⟨h1, hf.2⟩, by simpa [logOf] using h2⟩
theorem relabelL (cs : List (Call S)) (hf : FairL cs) (log : List (Reg S))
    (h : log.map Reg.target = (logOfL cs).map Reg.target) : ∃ cs', FairL cs' ∧ logOfL cs' = log := by
  cases cs with
  | nil =>
    simp only [logOfL, List.map_nil, List.map_eq_nil_iff] at h
    exact ⟨[], trivial, by simp [logOfL, h]⟩
  | cons c cs =>
    simp only [logOfL, List.map_append] at h
    obtain ⟨l1, l2, rfl, e1, e2⟩ := map_eq_append_split h
    obtain ⟨c', g1, g2⟩ := relabel c hf.1 l1 e1
    obtain ⟨cs', g3, g4⟩ := relabelL cs hf.2 l2 e2
    exact ⟨c' :: cs', ⟨g1, g3⟩, by simp [logOfL, g2, g4]⟩
end

/-- what can be said of a registered pattern -/
def PatOk (t : Target) : Prop := ∀ x ∈ t.pat, x ≠ [] ∧ x ≠ ['.'] ∧ x ≠ ['.', '.'] ∧ '/' ∉ x

mutual
theorem log_patOk (c : Call S) : ∀ e ∈ logOf c, PatOk e.target := by
  cases c with
  | route v path hd =>
    intro e he
    cases hp : Path.parse path with
    | none => simp [logOf, hp] at he
    | some p =>
      simp only [logOf, hp, List.mem_singleton] at he
      subst he
      have := C01_parsed_path_normal _ _ hp
      cases v <;> exact this
  | add hd =>
    intro e he
    simp only [logOf, List.mem_singleton] at he
    subst he
    intro x hx
    simp [Target.pat] at hx
  | mount calls ord =>
    intro e he
    exact log_patOkL calls e (by simpa [logOf] using he)
theorem log_patOkL (cs : List (Call S)) : ∀ e ∈ logOfL cs, PatOk e.target := by
  cases cs with
  | nil => intro e he; simp [logOfL] at he
  | cons c cs =>
    intro e he
    simp only [logOfL, List.mem_append] at he
    rcases he with he | he
    · exact log_patOk c e he
    · exact log_patOkL cs e he
end

/-! ### a request for a given path -/

/-- the beginning of the request line -/
def lineTo (m : Str) (pieces : List Str) : Str := m ++ ' ' :: ['/'].intercalate pieces

/-- the bytes of a request for these pieces -/
def bytesTo (m : Str) (pieces : List Str) : Bytes :=
  utf8 (lineTo m pieces) ++ utf8 c!" HTTP/1.1\r\nHost: b\r\n\r\n"

theorem no_crlf_cons {c : Char} {x : Str} (hc : c ≠ '\r') (h : ¬ Occurs x crlf) : ¬ Occurs (c :: x) crlf := by
  rintro ⟨j, hj⟩
  cases j with
  | zero =>
    have e := occursAt_getElem hj 0 (by decide)
    simp [crlf] at e
    exact hc e
  | succ j => exact h ⟨_, occursAt_drop (l := [c]) hj (by simp)⟩

theorem no_crlf_slashes (ps : List Str) (h : ∀ p ∈ ps, ¬ Occurs p crlf) : ¬ Occurs (['/'].intercalate ps) crlf := by
  induction ps with
  | nil => exact no_crlf_of_no_cr (by simp [List.intercalate])
  | cons p ps ih =>
    cases ps with
    | nil => simpa [List.intercalate] using h p (by simp)
    | cons p' ps =>
      rw [intercalate_cons_cons, List.append_assoc]
      exact no_crlf_append (h p (by simp))
        (no_crlf_cons (by decide) (ih fun x hx => h x (List.mem_cons_of_mem _ hx))) (by simp)

theorem no_blank_slashes (ps : List Str) (h : ∀ p ∈ ps, ' ' ∉ p) : ' ' ∉ ['/'].intercalate ps := by
  induction ps with
  | nil => simp [List.intercalate]
  | cons p ps ih =>
    cases ps with
    | nil => simpa [List.intercalate] using h p (by simp)
    | cons p' ps =>
      rw [intercalate_cons_cons]
      have := ih fun x hx => h x (List.mem_cons_of_mem _ hx)
      have hp := h p (by simp)
      simp [this, hp]

/-- what stands before a text that starts with a blank and has its first blank line at `k` -/
theorem blank_split {a t1 t2 : Bytes} (ha : ¬ Occurs a crlfB)
    (h0 : t1.head? = some 32) (ht : ∀ j, j < t1.length → ¬ OccursAt (t1 ++ blankLine ++ t2) blankLine j) :
    FirstSplit (a ++ (t1 ++ blankLine ++ t2)) blankLine (a ++ t1) t2 := by
  refine ⟨by simp, fun j hj ho => ?_⟩
  rcases Nat.lt_or_ge j a.length with hl | hl
  · rcases Nat.lt_or_ge (j + 1) a.length with hl' | hl'
    · apply ha
      refine ⟨j, ?_⟩
      have h1 : OccursAt (a ++ (t1 ++ blankLine ++ t2)) crlfB j := by
        obtain ⟨x, y, e, ex⟩ := ho
        exact ⟨x, crlfB ++ y, by rw [e]; simp [blankLine, crlfB], ex⟩
      exact h1.of_append (by simp [crlfB]; omega)
    · have e := occursAt_getElem ho 1 (by decide)
      rw [List.getElem?_append_right hl', show j + 1 - a.length = 0 by omega] at e
      cases t1 with
      | nil => simp at h0
      | cons c t1 =>
        simp only [List.head?_cons, Option.some.injEq] at h0
        subst h0
        simp [blankLine] at e
  · rw [List.length_append] at hj
    exact ht _ (by omega) (occursAt_drop ho hl)

theorem not_climbs_names (ps : List Str) (h : ∀ x ∈ ps, isUp x = false) : ¬ Climbs ps := by
  rintro ⟨k, hk⟩
  have : (ps.take k).countP isUp = 0 := List.countP_eq_zero.2 fun p hp => by simp [h p (List.mem_of_mem_take hp)]
  omega

theorem asked_bytesTo (faithful cookies : Bool) (m : Str) (path : PathBuf) (hm : ' ' ∉ m ∧ '\r' ∉ m)
    (hp : ∀ x ∈ path, x ≠ [] ∧ x ≠ ['.'] ∧ x ≠ ['.', '.'] ∧ '/' ∉ x ∧ ' ' ∉ x ∧ ¬ Occurs x crlf) :
    Asked.In faithful cookies (bytesTo m ([] :: path)) ⟨m, [] :: path, c!"1.1", [(c!"Host", c!"b")], []⟩ 0 := by
  have hcr : ∀ x ∈ [] :: path, ¬ Occurs x crlf := by
    intro x hx
    rcases List.mem_cons.1 hx with rfl | hx
    · exact no_crlf_of_no_cr (by simp)
    · exact (hp x hx).2.2.2.2.2
  have hl0 : ¬ Occurs (lineTo m ([] :: path)) crlf :=
    no_crlf_append (no_crlf_of_no_cr hm.2) (no_crlf_cons (by decide) (no_crlf_slashes _ hcr)) (by simp)
  have hl : ¬ Occurs (lineTo m ([] :: path) ++ c!" HTTP/1.1") crlf :=
    no_crlf_append hl0 (no_crlf_of_no_cr (by decide)) (by simp)
  refine ⟨lineTo m ([] :: path) ++ c!" HTTP/1.1" ++ crlf ++ c!"Host: b", lineTo m ([] :: path) ++ c!" HTTP/1.1",
    c!"Host: b", ?_, ⟨rfl, fun j hj ho => ?_⟩, ⟨c!"HTTP/", [], ?_, ?_, by simp, ?_, ?_, by decide, fun _ => ⟨rfl, rfl⟩⟩,
    ⟨[c!"Host: b"], by simp, by simp [List.intercalate], ?_, rfl, ?_⟩, ?_, by simp, ?_⟩
  · have := blank_split (a := utf8 (lineTo m ([] :: path))) (t1 := utf8 c!" HTTP/1.1\r\nHost: b") (t2 := [])
      (fun h => hl0 (occurs_crlf_of_utf8 h)) (by decide) (by
        intro j hj ho
        have hj' : j < 18 := hj
        obtain ⟨x, y, e, rfl⟩ := ho
        have : blankLine <+: (utf8 c!" HTTP/1.1\r\nHost: b" ++ blankLine ++ []).drop x.length := by
          rw [e]; simp
        revert this
        have key : ∀ k, k < 18 → ¬ blankLine <+: (utf8 c!" HTTP/1.1\r\nHost: b" ++ blankLine ++ []).drop k := by
          decide +kernel
        exact key _ hj')
    have e1 : utf8 (lineTo m ([] :: path) ++ c!" HTTP/1.1" ++ crlf ++ c!"Host: b") =
        utf8 (lineTo m ([] :: path)) ++ utf8 c!" HTTP/1.1\r\nHost: b" := by
      rw [← utf8_append]
      congr 1
      simp [crlf]
    have e2 : utf8 c!" HTTP/1.1\r\nHost: b\r\n\r\n" = utf8 c!" HTTP/1.1\r\nHost: b" ++ blankLine ++ [] := by
      decide +kernel
    unfold bytesTo
    rw [e1, e2]
    exact this
  · rw [List.append_assoc] at ho
    rcases Nat.lt_or_ge (j + 1) (lineTo m ([] :: path) ++ c!" HTTP/1.1").length with hl' | hl'
    · exact hl ⟨j, ho.of_append (by show j + 2 ≤ _; omega)⟩
    · have e := occursAt_getElem ho 1 (by decide)
      rw [List.getElem?_append_right hl', Nat.sub_eq_zero_of_le (by omega)] at e
      simp [crlf] at e
  · simp [lineTo, List.intercalate]
  · intro t ht
    simp only [List.mem_cons, List.not_mem_nil, or_false] at ht
    rcases ht with rfl | rfl | rfl
    · exact hm.1
    · refine no_blank_slashes _ fun x hx => ?_
      rcases List.mem_cons.1 hx with rfl | hx
      · simp
      · exact (hp x hx).2.2.2.2.1
    · decide
  · intro x hx
    rcases List.mem_cons.1 hx with rfl | hx
    · simp
    · exact (hp x hx).2.2.2.1
  · refine not_climbs_names _ fun x hx => ?_
    rcases List.mem_cons.1 hx with rfl | hx
    · rfl
    · simp [isUp, (hp x hx).2.2.1]
  · intro l hl
    rw [List.mem_singleton.1 hl]
    exact no_crlf_of_no_cr (by decide)
  · intro i line n v h1 h2
    cases i with
    | zero =>
      simp only [List.getElem?_cons_zero, Option.some.injEq, Prod.mk.injEq] at h1 h2
      obtain ⟨rfl, rfl⟩ := h2
      subst h1
      exact ⟨[' '], by decide, by decide, by decide, by decide, by decide, fun _ => by decide⟩
    | succ i => simp at h1
  · exact .inr ⟨rfl, fun v k hv => by
      rw [show joined [(c!"Host", c!"b")] c!"content-length" = none by decide +kernel] at hv; simp at hv⟩
  · intro _ v hv
    rw [show joined [(c!"Host", c!"b")] c!"cookie" = none by decide +kernel] at hv
    simp at hv

/-- a request without a body needs no memory for one -/
theorem reads_asked_zero (feat : Features) (allocOk : Nat → Bool) (s : Sock) (q : Asked)
    (hq : q.In feat.faithful feat.cookies s.bytes 0) :
    ∃ req, Reads feat allocOk s req ∧ req.requestLine = ⟨methodOf q.method, resolve q.pieces, versionOf q.version⟩ ∧
      ∀ k, req.headers.get k = joined q.headers k := by
  obtain ⟨text, line, hdrs, h1, h2, h3, h4, h5, h6, h7⟩ := hq
  obtain ⟨rem, reader, r1, r2, r3⟩ := ((C25_head_from_bytes s).2 _ _ h1).1 line hdrs ⟨text, rfl, h2⟩
  obtain ⟨H, g1, g2, g3⟩ := Headers.parse_block h4
  have h3' := parse_lineParts h3
  have hg : H.get = joined q.headers := funext g3
  rw [← hg] at h5
  have hn : contentLength H = 0 := DeclaredLength.unique (contentLength_declared H) h5
  obtain ⟨cs, c1, -⟩ := Request.parse_cookies feat
    ⟨methodOf q.method, resolve q.pieces, versionOf q.version⟩ H [] (by rw [hg]; exact h7)
  refine ⟨⟨_, H, [], cs⟩, ⟨hdrs, line, rem, reader, H, _, r1, g1, h3', ?_⟩, rfl, g3⟩
  unfold Request.fromRaw
  simp only [hn]
  show Io.ofRes (Request.parse feat _ H []) = _
  rw [c1]; rfl

end Octane
