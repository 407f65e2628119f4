import Verif.Props.Server
/-
C69 – C71: which part of the request target takes part in routing, end to end.
-/
namespace Octane
open Spec
variable {W : Type u}

/-! ### helpers -/

theorem host_ok {q : WireReq} {req : Request} (hhost : q.version = c!"1.1" → ∃ h ∈ q.headers, lowered h.1 = c!"host")
    (h5 : ∀ x, (q.version, x) ∈ versionTable → req.requestLine.version = x)
    (h6 : (∀ x, (q.version, x) ∉ versionTable) → req.requestLine.version = .httpInvalid)
    (h7 : req.headers.raw.map hpair = q.headers) :
    req.requestLine.version ≠ .http11 ∨ ∃ hd ∈ req.headers.raw, lowered hd.name = c!"host" := by
  by_cases h11 : q.version = c!"1.1"
  · right
    obtain ⟨h, hm, he⟩ := hhost h11
    rw [← h7] at hm
    obtain ⟨hd, hd1, rfl⟩ := List.mem_map.1 hm
    exact ⟨hd, hd1, he⟩
  · left
    by_cases hk : ∃ x, (q.version, x) ∈ versionTable
    · obtain ⟨x, hx⟩ := hk
      rw [h5 x hx]
      rintro rfl
      have : ∀ p ∈ versionTable, p.2 = .http11 → p.1 = c!"1.1" := by decide
      exact h11 (this _ hx rfl)
    · rw [h6 (fun x hx => hk ⟨x, hx⟩)]; simp

theorem replay_none {S : Type u} (uv : Bool) (req : Request) (log : List (Reg S)) (s : S)
    (h : ∀ e ∈ log, e.target.applies uv req.requestLine.method req.requestLine.path = false) :
    replay uv req log s = .ok s := by
  induction log with
  | nil => rfl
  | cons e log ih =>
    rw [replay, h e (by simp)]
    exact ih fun x hx => h x (List.mem_cons_of_mem _ hx)

theorem resolve_snoc (ps : List Str) (x : Str) (h : isName x = true) : resolve (ps ++ [x]) = resolve ps ++ [x] := by
  have hu : isUp x = false := by
    cases hx : isUp x with
    | false => rfl
    | true =>
      rw [isUp, beq_iff_eq] at hx
      subst hx
      exact absurd h (by decide)
  simp [resolve, survivorsRev, hu, h]

/-! ### C69 -/

/-- C69: a well-formed request with a known method to which no registration applies is answered, in any
segmentation, by the 404 page; no handler runs: the state is what it was, whatever the handlers are. -/
theorem C69_unmatched (sv : Server W) (calls : List (Call (W × Response))) (hf : FairL calls)
    (hn : (logOfL calls).length < 2 ^ 64) (hsetup : execL Router.new calls = .ok sv.router)
    (q : WireReq) (hq : q.Good) (s : Sock) (hb : s.bytes = q.bytes)
    (halloc : ∀ k ≤ q.body.length, sv.allocOk k = true) (hmax : q.body.length ≤ i64Max)
    (m : RequestMethod) (hm : (q.method, m) ∈ methodTable)
    (hhost : q.version = c!"1.1" → ∃ h ∈ q.headers, lowered h.1 = c!"host")
    (hnone : ∀ e ∈ logOfL calls, e.target.applies sv.feat.urlVariables m (resolve q.pieces) = false)
    (w : W) (hc : 0 ≤ sv.clock w) :
    ∃ bytes v, sv.serve w s = .ok (w, bytes) ∧ ClientParses bytes v ∧ v.code = c!"404" ∧
      v.reason = c!"NOT FOUND" := by
  obtain ⟨req, h1, h2, -, h4, h5, h6, h7, -⟩ :=
    reads_wire sv.feat sv.allocOk q hq s [] (by simpa using hb) (.inl rfl) halloc hmax
  have hm1 := h2 m hm
  obtain ⟨r, g1, g2⟩ := C12_run_is_replay calls hf hn
  rw [hsetup] at g1
  simp only [Res.ok.injEq] at g1
  subst g1
  have hmn : req.requestLine.method ≠ .none := by
    rw [hm1]
    have : ∀ p ∈ methodTable, p.2 ≠ .none := by decide
    exact this _ hm
  have hrun : Router.run sv.feat.urlVariables sv.router req (w, Response.newEmpty) =
      .ok (w, Response.newEmpty) := by
    rw [g2 _ _ _ h1.facts.2]
    apply replay_none
    rw [hm1, h4]; exact hnone
  obtain ⟨bytes, v, e1, e2, e3, e4, -⟩ :=
    ((C34_dispatch sv w s req h1 (host_ok hhost h5 h6 h7) hmn).1 w _ hrun).1 rfl hc
  exact ⟨bytes, v, e1, e2, e3, e4⟩

/-! ### C70, C71: what of the target matters -/

/-- the handler does not look at the request -/
def Spec.Blind (h : Closure S) : Prop := ∀ mr mr', h mr = h mr'

theorem replay_same {S : Type u} (uv : Bool) (req req' : Request) (log : List (Reg S)) (s : S)
    (hb : ∀ e ∈ log, Blind e.handler)
    (h : ∀ e ∈ log, e.target.applies uv req.requestLine.method req.requestLine.path =
      e.target.applies uv req'.requestLine.method req'.requestLine.path) :
    replay uv req log s = replay uv req' log s := by
  induction log generalizing s with
  | nil => rfl
  | cons e log ih =>
    have ih' := fun s => ih s (fun x hx => hb x (List.mem_cons_of_mem _ hx))
      (fun x hx => h x (List.mem_cons_of_mem _ hx))
    rw [replay, replay, h e (by simp), hb e (by simp) _ ⟨req', e.target.vars uv req'.requestLine.path⟩]
    simp only [ih']

/-- two requests that differ only in the target are answered alike by handlers that do not look at the
request, if the same registrations apply to them -/
theorem serve_same (sv : Server W) (calls : List (Call (W × Response))) (hf : FairL calls)
    (hn : (logOfL calls).length < 2 ^ 64) (hsetup : execL Router.new calls = .ok sv.router)
    (hblind : ∀ e ∈ logOfL calls, Blind e.handler)
    (q : WireReq) (pieces' : List Str) (hq : q.Good) (hq' : { q with pieces := pieces' }.Good)
    (s s' : Sock) (hb : s.bytes = q.bytes) (hb' : s'.bytes = { q with pieces := pieces' }.bytes)
    (halloc : ∀ k ≤ q.body.length, sv.allocOk k = true) (hmax : q.body.length ≤ i64Max)
    (h : ∀ e ∈ logOfL calls, ∀ m, e.target.applies sv.feat.urlVariables m (resolve q.pieces) =
      e.target.applies sv.feat.urlVariables m (resolve pieces'))
    (w : W) : sv.serve w s = sv.serve w s' := by
  obtain ⟨req, h1, h2, h3, h4, h5, h6, h7, h8, -⟩ :=
    reads_wire sv.feat sv.allocOk q hq s [] (by simpa using hb) (.inl rfl) halloc hmax
  obtain ⟨req', h1', h2', h3', h4', h5', h6', h7', h8', -⟩ :=
    reads_wire sv.feat sv.allocOk _ hq' s' [] (by simpa using hb') (.inl rfl) halloc hmax
  obtain ⟨r, g1, g2⟩ := C12_run_is_replay calls hf hn
  rw [hsetup] at g1
  simp only [Res.ok.injEq] at g1
  subst g1
  have hmeth : req.requestLine.method = req'.requestLine.method := by
    by_cases hk : ∃ x, (q.method, x) ∈ methodTable
    · obtain ⟨x, hx⟩ := hk
      rw [h2 x hx, h2' x hx]
    · rw [h3 fun x hx => hk ⟨x, hx⟩, h3' fun x hx => hk ⟨x, hx⟩]
  have hver : req.requestLine.version = req'.requestLine.version := by
    by_cases hk : ∃ x, (q.version, x) ∈ versionTable
    · obtain ⟨x, hx⟩ := hk
      rw [h5 x hx, h5' x hx]
    · rw [h6 fun x hx => hk ⟨x, hx⟩, h6' fun x hx => hk ⟨x, hx⟩]
  have hrun : Router.run sv.feat.urlVariables sv.router req (w, Response.newEmpty) =
      Router.run sv.feat.urlVariables sv.router req' (w, Response.newEmpty) := by
    rw [g2 _ _ _ h1.facts.2, g2 _ _ _ h1'.facts.2]
    apply replay_same _ _ _ _ _ hblind
    intro e he
    rw [h4, h4', ← hmeth]
    exact h e he _
  rw [serve_reads h1, serve_reads h1', handle_spec, handle_spec, hver, hmeth, h8, h8', hrun]

/-! ### C70: the query string -/

/-- The full claim of C70: the query string does not take part in routing, so if no handler looks at
the request, then the answer is the same with a query string as without. -/
def C70_statement : Prop :=
  ∀ (W : Type) (sv : Server W) (calls : List (Call (W × Response))), FairL calls →
    (logOfL calls).length < 2 ^ 64 → execL Router.new calls = .ok sv.router →
    (∀ k, sv.allocOk k = true) → (∀ e ∈ logOfL calls, Blind e.handler) →
    ∀ (q : WireReq) (ps : List Str) (last query : Str), q.pieces = ps ++ [last] → isName last = true →
      '?' ∉ last → q.Good → { q with pieces := ps ++ [last ++ '?' :: query] }.Good →
      q.body.length ≤ i64Max → ∀ (s s' : Sock), s.bytes = q.bytes →
      s'.bytes = { q with pieces := ps ++ [last ++ '?' :: query] }.bytes →
      ∀ w, sv.serve w s = sv.serve w s'

/-- the last segment of the pattern, if it has one, is a variable -/
def Spec.EndsInVariable (p : List Str) : Prop := ∀ a, p.getLast? = some a → a.head? = some ':'

theorem isName_query (last query : Str) : isName (last ++ '?' :: query) = true := by
  have h : '?' ∈ last ++ '?' :: query := by simp
  have : last ++ '?' :: query ≠ [] ∧ last ++ '?' :: query ≠ ['.'] ∧ last ++ '?' :: query ≠ ['.', '.'] := by
    refine ⟨by simp, ?_, ?_⟩ <;> · intro he; rw [he] at h; revert h; decide
  simp [isName, this]

theorem matches_snoc (p ps : List Str) (a x : Str) :
    Matches (p ++ [a]) (ps ++ [x]) ↔ Matches p ps ∧ (a.head? = some ':' ∨ a = x) := by
  constructor
  · rintro ⟨hl, h⟩
    simp only [List.length_append, List.length_singleton, Nat.add_right_cancel_iff] at hl
    refine ⟨⟨hl, fun i b c hb hc => ?_⟩, ?_⟩
    · refine h i b c ?_ ?_
      · rw [List.getElem?_append_left (List.getElem?_eq_some_iff.1 hb).1]; exact hb
      · rw [List.getElem?_append_left (List.getElem?_eq_some_iff.1 hc).1]; exact hc
    · refine h p.length a x ?_ ?_
      · simp
      · rw [hl]; simp
  · rintro ⟨⟨hl, h⟩, ha⟩
    refine ⟨by simp [hl], fun i b c hb hc => ?_⟩
    rcases Nat.lt_trichotomy i p.length with hi | rfl | hi
    · rw [List.getElem?_append_left hi] at hb
      rw [List.getElem?_append_left (hl ▸ hi)] at hc
      exact h i b c hb hc
    · simp only [List.getElem?_concat_length, Option.some.injEq] at hb
      rw [hl] at hc
      simp only [List.getElem?_concat_length, Option.some.injEq] at hc
      rw [← hb, ← hc]; exact ha
    · rw [List.getElem?_eq_none (by simp; omega)] at hb
      simp at hb

/-- What holds of C70: if every pattern ends in a variable (and there may be middleware without a path),
the answer is the same with a query string as without. Missing: patterns that end in a literal
segment, for which `C70_literal_404` shows that the claim fails always. -/
theorem C70_same_partial (sv : Server W) (calls : List (Call (W × Response))) (hf : FairL calls)
    (hn : (logOfL calls).length < 2 ^ 64) (hsetup : execL Router.new calls = .ok sv.router)
    (halloc : ∀ k, sv.allocOk k = true) (hblind : ∀ e ∈ logOfL calls, Blind e.handler)
    (huv : sv.feat.urlVariables = true)
    (hvar : ∀ e ∈ logOfL calls, match e.target with
      | .on _ p | .anyMethod p => EndsInVariable p
      | .everywhere => True)
    (q : WireReq) (ps : List Str) (last query : Str) (hp : q.pieces = ps ++ [last])
    (hl : isName last = true) (hq : q.Good) (hq' : { q with pieces := ps ++ [last ++ '?' :: query] }.Good)
    (hmax : q.body.length ≤ i64Max) (s s' : Sock) (hb : s.bytes = q.bytes)
    (hb' : s'.bytes = { q with pieces := ps ++ [last ++ '?' :: query] }.bytes) (w : W) :
    sv.serve w s = sv.serve w s' := by
  refine serve_same sv calls hf hn hsetup hblind q _ hq hq' s s' hb hb' (fun k _ => halloc k) hmax ?_ w
  intro e he m
  rw [hp, resolve_snoc _ _ hl, resolve_snoc _ _ (isName_query _ _), huv]
  have key : ∀ p, EndsInVariable p → (PatMatch true p (resolve ps ++ [last]) ↔
      PatMatch true p (resolve ps ++ [last ++ '?' :: query])) := by
    intro p hpv
    simp only [PatMatch, if_true]
    rcases List.eq_nil_or_concat p with rfl | ⟨p', a, rfl⟩
    · simp [Matches]
    · rw [List.concat_eq_append] at hpv ⊢
      have := hpv a (by simp)
      simp only [matches_snoc, this, true_or, and_true]
  have hv := hvar e he
  cases ht : e.target with
  | everywhere => rfl
  | on m' p => rw [ht] at hv; simp only [Target.applies, key p hv]
  | anyMethod p => rw [ht] at hv; simp only [Target.applies, key p hv]

/-- How far the failure goes: if every registration has a pattern that ends in a literal segment without
`?`, then every request with a query string is answered by 404, and no handler runs. -/
theorem C70_literal_404 (sv : Server W) (calls : List (Call (W × Response))) (hf : FairL calls)
    (hn : (logOfL calls).length < 2 ^ 64) (hsetup : execL Router.new calls = .ok sv.router)
    (halloc : ∀ k, sv.allocOk k = true)
    (hlit : ∀ e ∈ logOfL calls, match e.target with
      | .on _ p | .anyMethod p => ∀ a, p.getLast? = some a → a.head? ≠ some ':' ∧ '?' ∉ a
      | .everywhere => False)
    (q : WireReq) (hq : q.Good) (ps : List Str) (last query : Str)
    (hp : q.pieces = ps ++ [last ++ '?' :: query]) (m : RequestMethod) (hm : (q.method, m) ∈ methodTable)
    (hhost : q.version = c!"1.1" → ∃ h ∈ q.headers, lowered h.1 = c!"host")
    (hmax : q.body.length ≤ i64Max) (s : Sock) (hb : s.bytes = q.bytes) (w : W) (hc : 0 ≤ sv.clock w) :
    ∃ bytes v, sv.serve w s = .ok (w, bytes) ∧ ClientParses bytes v ∧ v.code = c!"404" ∧
      v.reason = c!"NOT FOUND" := by
  refine C69_unmatched sv calls hf hn hsetup q hq s hb (fun k _ => halloc k) hmax m hm hhost ?_ w hc
  intro e he
  rw [hp, resolve_snoc _ _ (isName_query _ _)]
  have key : ∀ uv p, (∀ a, p.getLast? = some a → a.head? ≠ some ':' ∧ '?' ∉ a) →
      ¬ PatMatch uv p (resolve ps ++ [last ++ '?' :: query]) := by
    intro uv p hpl h
    have hne : ∀ p' a, p = p' ++ [a] → a ≠ last ++ '?' :: query := by
      rintro p' a rfl rfl
      exact (hpl (last ++ '?' :: query) (by simp)).2 (by simp)
    cases uv with
    | false =>
      simp only [PatMatch, Bool.false_eq_true, if_false] at h
      exact hne _ _ h.1 rfl
    | true =>
      simp only [PatMatch, if_true] at h
      rcases List.eq_nil_or_concat p with rfl | ⟨p', a, rfl⟩
      · exact absurd h.1 (by simp)
      · rw [List.concat_eq_append] at h hpl hne
        rcases (matches_snoc ..).1 h with ⟨-, h1 | h1⟩
        · exact (hpl a (by simp)).1 h1
        · exact hne _ _ rfl h1
  have hv := hlit e he
  cases ht : e.target with
  | everywhere => rw [ht] at hv; exact hv.elim
  | on m' p => rw [ht] at hv; simp [Target.applies, key _ p hv]
  | anyMethod p => rw [ht] at hv; simp [Target.applies, key _ p hv]

/-! ### C71: percent-encoding -/

/-- `ps'` is `ps` with some characters percent-encoded -/
def Spec.EncodesAll (ps ps' : List Str) : Prop :=
  ps'.length = ps.length ∧ ∀ (i : Nat) a b, ps[i]? = some a → ps'[i]? = some b → Encodes a b

/-- The full claim of C71: a target is the same target when characters of its segments are
percent-encoded, so if no handler looks at the request, then the answer is the same. -/
def C71_statement : Prop :=
  ∀ (W : Type) (sv : Server W) (calls : List (Call (W × Response))), FairL calls →
    (logOfL calls).length < 2 ^ 64 → execL Router.new calls = .ok sv.router →
    (∀ k, sv.allocOk k = true) → (∀ e ∈ logOfL calls, Blind e.handler) →
    ∀ (q : WireReq) (ps ps' : List Str), q.pieces = [] :: ps → EncodesAll ps ps' →
      (∀ x ∈ ps ++ ps', isName x = true) → q.Good → { q with pieces := [] :: ps' }.Good →
      q.body.length ≤ i64Max → ∀ (s s' : Sock), s.bytes = q.bytes →
      s'.bytes = { q with pieces := [] :: ps' }.bytes → ∀ w, sv.serve w s = sv.serve w s'

theorem resolve_names (ps : List Str) (h : ∀ x ∈ ps, isName x = true) : resolve ([] :: ps) = ps := by
  have key : ∀ l : List Str, (∀ x ∈ l, isName x = true) → survivorsRev 0 (l ++ [[]]) = l := by
    intro l
    induction l with
    | nil => intro _; decide
    | cons x l ih =>
      intro hl
      have hx := hl x (by simp)
      have hu : isUp x = false := by
        cases hu : isUp x with
        | false => rfl
        | true =>
          rw [isUp, beq_iff_eq] at hu
          subst hu
          exact absurd hx (by decide)
      rw [List.cons_append, survivorsRev, hu, hx]
      simp [ih fun y hy => hl y (List.mem_cons_of_mem _ hy)]
  unfold resolve
  rw [List.reverse_cons, key _ (by simpa using h), List.reverse_reverse]

/-- What holds of C71: the answer is the same if characters are percent-encoded only in segments at
which all patterns have a variable. Missing: encoded characters in segments matched literally. -/
theorem C71_same_partial (sv : Server W) (calls : List (Call (W × Response))) (hf : FairL calls)
    (hn : (logOfL calls).length < 2 ^ 64) (hsetup : execL Router.new calls = .ok sv.router)
    (halloc : ∀ k, sv.allocOk k = true) (hblind : ∀ e ∈ logOfL calls, Blind e.handler)
    (huv : sv.feat.urlVariables = true) (q : WireReq) (ps ps' : List Str) (hp : q.pieces = [] :: ps)
    (henc : EncodesAll ps ps') (hname : ∀ x ∈ ps ++ ps', isName x = true)
    (hvar : ∀ e ∈ logOfL calls, match e.target with
      | .on _ p | .anyMethod p => ∀ (i : Nat) a, p[i]? = some a → a.head? = some ':' ∨ ps[i]? = ps'[i]?
      | .everywhere => True)
    (hq : q.Good) (hq' : { q with pieces := [] :: ps' }.Good)
    (hmax : q.body.length ≤ i64Max) (s s' : Sock) (hb : s.bytes = q.bytes)
    (hb' : s'.bytes = { q with pieces := [] :: ps' }.bytes) (w : W) :
    sv.serve w s = sv.serve w s' := by
  refine serve_same sv calls hf hn hsetup hblind q _ hq hq' s s' hb hb' (fun k _ => halloc k) hmax ?_ w
  intro e he m
  rw [hp, resolve_names _ fun x hx => hname x (by simp [hx]),
    resolve_names _ fun x hx => hname x (by simp [hx]), huv]
  have key : ∀ p, (∀ (i : Nat) a, p[i]? = some a → a.head? = some ':' ∨ ps[i]? = ps'[i]?) →
      (PatMatch true p ps ↔ PatMatch true p ps') := by
    intro p hpv
    simp only [PatMatch, if_true, Matches, henc.1]
    refine and_congr_right fun _ => ?_
    constructor
    · intro h i a b ha hb
      rcases hpv i a ha with h1 | h1
      · exact .inl h1
      · exact h i a b ha (h1.trans hb)
    · intro h i a b ha hb
      rcases hpv i a ha with h1 | h1
      · exact .inl h1
      · exact h i a b ha (h1.symm.trans hb)
  have hv := hvar e he
  cases ht : e.target with
  | everywhere => rfl
  | on m' p => rw [ht] at hv; simp only [Target.applies, key p hv]
  | anyMethod p => rw [ht] at hv; simp only [Target.applies, key p hv]

/-- How far the failure goes: a URL variable holds the segment exactly as the client wrote it, neither
percent-decoded nor (in the last segment) without the query string. -/
theorem C71_variable_raw (sv : Server W) (calls : List (Call (W × Response))) (hf : FairL calls)
    (hn : (logOfL calls).length < 2 ^ 64) (hsetup : execL Router.new calls = .ok sv.router)
    (huv : sv.feat.urlVariables = true)
    (q : WireReq) (hq : q.Good) (s : Sock) (hb : s.bytes = q.bytes)
    (halloc : ∀ k ≤ q.body.length, sv.allocOk k = true) (hmax : q.body.length ≤ i64Max)
    (m : RequestMethod) (hm : (q.method, m) ∈ methodTable)
    (hhost : q.version = c!"1.1" → ∃ h ∈ q.headers, lowered h.1 = c!"host")
    (ps : List Str) (hp : q.pieces = [] :: ps) (hname : ∀ x ∈ ps, isName x = true)
    (p : List Str) (hmat : Matches p ps) (n x : Str) (hbind : Binds p ps n x)
    (w w' : W) (hc : 0 ≤ sv.clock w) (hd : Closure (W × Response))
    (post : List (Reg (W × Response))) (hlog : logOfL calls = ⟨.on m p, hd⟩ :: post)
    (hh : ∀ mr, hd mr (w, Response.newEmpty) =
      (Response.newEmpty.send sv.U (sv.clock w) (utf8 ((mr.vars.get n).getD []))).bind
        fun r => .ok ((w', r), .stop)) :
    ∃ bytes v, sv.serve w s = .ok (w', bytes) ∧ ClientParses bytes v ∧ v.code = c!"200" ∧
      v.body = utf8 x := by
  have hres : resolve q.pieces = ps := by rw [hp, resolve_names _ hname]
  obtain ⟨req, bytes, v, -, -, -, -, e1, e2, e3, -, -, e4, -⟩ := C54_served sv calls hf hn hsetup q hq s hb
    halloc hmax m hm hhost [] post ⟨.on m p, hd⟩ hlog (by simp)
    (by rw [hres, huv]; simp [Target.applies, PatMatch, hmat]) w w' hc
    (fun mr => utf8 ((mr.vars.get n).getD [])) hh
  refine ⟨bytes, v, e1, e2, e3, ?_⟩
  rw [e4, hres, huv]
  obtain ⟨t, ht⟩ := logOfL_parsed calls ⟨.on m p, hd⟩ (by rw [hlog]; simp) p (.inr ⟨m, rfl⟩)
  have hne : ∀ a ∈ p, a ≠ [] := fun a ha => (Path.parse_normal ht a ha).1
  have : (bindings p ps).get n = some x :=
    (C05_bindings t p ht ps _ (checkMatches_bindings hne hmat) n x).1.2 hbind
  simp [Target.vars, this]

/-! ### the counterexamples -/

namespace TargetExample

/-- a request with these segments -/
def q (ps : List Str) : WireReq := ⟨c!"GET", [] :: ps, c!"1.0", [(c!"A", c!"b")], []⟩

theorem good (ps : List Str) (h : ∀ p ∈ ps, ' ' ∉ p ∧ '/' ∉ p ∧ '\r' ∉ p) (hname : ∀ x ∈ ps, isName x = true) :
    (q ps).Good := by
  have hup : ∀ x ∈ ([] : Str) :: ps, isUp x = false := by
    intro x hx
    rcases List.mem_cons.1 hx with rfl | hx
    · rfl
    · cases hu : isUp x with
      | false => rfl
      | true =>
        rw [isUp, beq_iff_eq] at hu
        subst hu
        exact absurd (hname _ hx) (by decide)
  refine ⟨⟨by simp [q], ⟨by simp [q], ?_⟩, ?_, by simp [q], ⟨by simp [q], ?_⟩, ?_⟩, ?_⟩
  · intro p hp
    rcases List.mem_cons.1 hp with rfl | hp
    · simp
    · exact h p hp
  · rintro ⟨k, hk⟩
    have : ((q ps).pieces.take k).countP isUp = 0 := by
      rw [List.countP_eq_zero]
      intro x hx
      have := hup x (List.mem_of_mem_take hx)
      simp [this]
    omega
  · intro h hm
    simp only [q, List.mem_singleton] at hm
    subst hm
    exact ⟨by decide, by decide, by decide, by decide⟩
  · refine .inr ⟨rfl, fun v m hv => ?_⟩
    have : joined (q ps).headers c!"content-length" = none := (joined_none _ _).2
      (show ∀ h ∈ [(c!"A", c!"b")], _ by decide +kernel)
    rw [this] at hv; simp at hv
  · intro v hv
    have : joined (q ps).headers c!"cookie" = none := (joined_none _ _).2
      (show ∀ h ∈ [(c!"A", c!"b")], _ by decide +kernel)
    rw [this] at hv; simp at hv

/-- a handler that says "hi" -/
def hi : Closure (Unit × Response) := fun _ st =>
  (st.2.send Unicode.asciiOnly 0 [104, 105]).bind fun r => .ok (((), r), .stop)

def calls : List (Call (Unit × Response)) := [.route .get c!"/a" hi]

theorem log : logOfL calls = [⟨.on .get [c!"a"], hi⟩] := by
  have e1 : Path.parse c!"/a" = some [c!"a"] := by decide +kernel
  simp [calls, logOfL, logOf, Verb.target, Verb.method, e1]

def sock (ps : List Str) : Sock := ⟨[(q ps).bytes], .eof⟩

theorem sock_bytes (ps : List Str) : (sock ps).bytes = (q ps).bytes := by simp [sock, Sock.bytes]

/-- `/a` is answered by the handler -/
theorem plain (sv : Server Unit) (hsv : ∃ router, sv = { empty with router })
    (hr : execL Router.new calls = .ok sv.router) :
    ∃ bytes v, sv.serve () (sock [c!"a"]) = .ok ((), bytes) ∧ ClientParses bytes v ∧ v.code = c!"200" := by
  obtain ⟨router, rfl⟩ := hsv
  obtain ⟨req, bytes, v, -, -, -, -, h5, h6, h7, -⟩ := C54_served _ calls
    (by simp [calls, FairL, Fair]) (by rw [log]; decide) hr (q [c!"a"]) (good _ (by decide) (by decide))
    (sock _) (sock_bytes _) (fun _ _ => rfl) (by decide) .get (by decide +kernel) (by intro h; cases h)
    [] [] ⟨.on .get [c!"a"], hi⟩ log (by simp)
    (show Target.applies true (.on .get [c!"a"]) .get (resolve [[], c!"a"]) = true by decide +kernel)
    () () (by simp [empty]) (fun _ => [104, 105]) (fun mr => rfl)
  exact ⟨bytes, v, h5, h6, h7⟩

/-- a single other segment is not -/
theorem other (sv : Server Unit) (hsv : ∃ router, sv = { empty with router })
    (hr : execL Router.new calls = .ok sv.router) (x : Str) (hx : x ≠ c!"a")
    (h : ' ' ∉ x ∧ '/' ∉ x ∧ '\r' ∉ x) (hname : isName x = true) :
    ∃ bytes v, sv.serve () (sock [x]) = .ok ((), bytes) ∧ ClientParses bytes v ∧ v.code = c!"404" := by
  obtain ⟨router, rfl⟩ := hsv
  obtain ⟨bytes, v, h1, h2, h3, -⟩ := C69_unmatched _ calls
    (by simp [calls, FairL, Fair]) (by rw [log]; decide) hr (q [x]) (good _ (by simpa using h) (by simpa using hname))
    (sock _) (sock_bytes _) (fun _ _ => rfl) (by simp [q])
    .get (show (c!"GET", _) ∈ methodTable by decide +kernel) (by intro h; cases h)
    (by
      intro e he
      rw [log, List.mem_singleton] at he
      subst he
      have : resolve [[], x] = [x] := resolve_names [x] (by simpa using hname)
      show Target.applies true (.on .get [c!"a"]) .get (resolve [[], x]) = false
      rw [this]
      have hno : ¬ PatMatch true [c!"a"] [x] := by
        intro hm
        rw [PatMatch, if_pos rfl] at hm
        rcases hm.2 0 _ _ rfl rfl with h1 | h1
        · revert h1; decide
        · exact hx h1.symm
      simp [Target.applies, hno])
    () (by simp [empty])
  exact ⟨bytes, v, h1, h2, h3⟩

theorem differ (sv : Server Unit) (hsv : ∃ router, sv = { empty with router })
    (hr : execL Router.new calls = .ok sv.router) (x : Str) (hx : x ≠ c!"a")
    (h : ' ' ∉ x ∧ '/' ∉ x ∧ '\r' ∉ x) (hname : isName x = true) :
    sv.serve () (sock [c!"a"]) ≠ sv.serve () (sock [x]) := by
  obtain ⟨b, v, h1, h2, h3⟩ := plain sv hsv hr
  obtain ⟨b', v', h1', h2', h3'⟩ := other sv hsv hr x hx h hname
  intro he
  rw [h1, h1'] at he
  simp only [Io.ok.injEq, Prod.mk.injEq, true_and] at he
  subst he
  rw [h2.unique h2', h3'] at h3
  exact absurd h3 (by decide)

end TargetExample

open TargetExample in
/-- C70 is false of the code: `/a` is answered by its handler, `/a?x=1` by 404. -/
theorem C70_counterexample : ¬ C70_statement := by
  intro h
  obtain ⟨router, hr, -⟩ := C12_run_is_replay calls (by simp [calls, FairL, Fair]) (by rw [log]; decide)
  exact differ { empty with router } ⟨router, rfl⟩ hr c!"a?x=1" (by decide) (by decide) (by decide)
    (h Unit { empty with router } calls (by simp [calls, FairL, Fair]) (by rw [log]; decide) hr
      (fun _ => rfl) (by rw [log]; simp [Blind]; intro _ _; rfl) (q [c!"a"]) [[]] c!"a" c!"x=1" rfl (by decide) (by decide)
      (good _ (by decide) (by decide)) (good [c!"a?x=1"] (by decide) (by decide)) (by decide) _ _
      (sock_bytes _) (sock_bytes [c!"a?x=1"]) ())

open TargetExample in
/-- C71 is false of the code: `/a` is answered by its handler, `/%61` by 404. -/
theorem C71_counterexample : ¬ C71_statement := by
  intro h
  obtain ⟨router, hr, -⟩ := C12_run_is_replay calls (by simp [calls, FairL, Fair]) (by rw [log]; decide)
  have henc : EncodesAll [c!"a"] [c!"%61"] := by
    refine ⟨rfl, ?_⟩
    intro i a b ha hb
    match i, ha, hb with
    | 0, ha, hb =>
      cases ha; cases hb
      exact .pct (x := 6) (y := 1) (by decide) (by decide) (by decide) .nil
    | i + 1, ha, hb => simp at ha
  exact differ { empty with router } ⟨router, rfl⟩ hr c!"%61" (by decide) (by decide) (by decide)
    (h Unit { empty with router } calls (by simp [calls, FairL, Fair]) (by rw [log]; decide) hr
      (fun _ => rfl) (by rw [log]; simp [Blind]; intro _ _; rfl) (q [c!"a"]) [c!"a"] [c!"%61"] rfl henc (by decide)
      (good _ (by decide) (by decide)) (good [c!"%61"] (by decide) (by decide)) (by decide) _ _
      (sock_bytes _) (sock_bytes [c!"%61"]) ())

/-! ### the partial theorems apply -/

namespace TargetExample

def varCalls (h : Closure (Unit × Response)) : List (Call (Unit × Response)) := [.route .get c!"/:x" h]

theorem varLog (h : Closure (Unit × Response)) : logOfL (varCalls h) = [⟨.on .get [c!":x"], h⟩] := by
  have e1 : Path.parse c!"/:x" = some [c!":x"] := by decide +kernel
  simp [varCalls, logOfL, logOf, Verb.target, Verb.method, e1]

example : ∃ sv : Server Unit, execL Router.new (varCalls hi) = .ok sv.router ∧
    sv.serve () (sock [c!"a"]) = sv.serve () (sock [c!"a?x=1"]) := by
  obtain ⟨router, hr, -⟩ := C12_run_is_replay (varCalls hi) (by simp [varCalls, FairL, Fair])
    (by rw [varLog]; decide)
  exact ⟨{ empty with router }, hr, C70_same_partial { empty with router } (varCalls hi)
    (by simp [varCalls, FairL, Fair]) (by rw [varLog]; decide) hr (fun _ => rfl)
    (by rw [varLog]; simp [Blind]; intro _ _; rfl) rfl
    (by rw [varLog]; simp [EndsInVariable]) (q [c!"a"]) [[]] c!"a" c!"x=1" rfl (by decide)
    (good _ (by decide) (by decide)) (good [c!"a?x=1"] (by decide) (by decide)) (by decide) _ _
    (sock_bytes _) (sock_bytes [c!"a?x=1"]) ()⟩

/-- a handler that sends the value of its variable `x` -/
def show_x : Closure (Unit × Response) := fun mr st =>
  (st.2.send Unicode.asciiOnly 0 (utf8 ((mr.vars.get c!"x").getD []))).bind fun r => .ok (((), r), .stop)

example : ∃ sv : Server Unit, ∃ bytes v, execL Router.new (varCalls show_x) = .ok sv.router ∧
    sv.serve () (sock [c!"%61?y=%20"]) = .ok ((), bytes) ∧ ClientParses bytes v ∧
    v.body = utf8 c!"%61?y=%20" := by
  obtain ⟨router, hr, -⟩ := C12_run_is_replay (varCalls show_x) (by simp [varCalls, FairL, Fair])
    (by rw [varLog]; decide)
  obtain ⟨bytes, v, h1, h2, -, h3⟩ := C71_variable_raw { empty with router } (varCalls show_x)
    (by simp [varCalls, FairL, Fair]) (by rw [varLog]; decide) hr rfl (q [c!"%61?y=%20"])
    (good _ (by decide) (by decide)) _ (sock_bytes _) (fun _ _ => rfl) (by decide) .get (by decide +kernel)
    (by intro h; cases h) [c!"%61?y=%20"] rfl (by decide) [c!":x"]
    ⟨rfl, fun i a b ha hb => by
      match i, ha with
      | 0, ha => cases ha; exact .inl rfl
      | i + 1, ha => simp at ha⟩ c!"x" c!"%61?y=%20"
    ⟨0, rfl, rfl, fun j hj => by
      match j, hj with
      | j + 1, _ => simp⟩ () () (by simp [empty]) show_x [] (varLog _) (fun mr => rfl)
  exact ⟨_, bytes, v, hr, h1, h2, h3⟩

end TargetExample

namespace TargetExample

/-- the hypotheses of `C70_literal_404` are met -/
example (router : Router (Unit × Response)) (hr : execL Router.new calls = .ok router) :
    ∃ bytes v, ({ empty with router } : Server Unit).serve () (sock [c!"a?x=1"]) = .ok ((), bytes) ∧
      ClientParses bytes v ∧ v.code = c!"404" ∧ v.reason = c!"NOT FOUND" :=
  C70_literal_404 { empty with router } calls (by simp [calls, FairL, Fair]) (by rw [log]; decide) hr
    (fun _ => rfl) (by rw [log]; simp) (q [c!"a?x=1"]) (good _ (by decide) (by decide)) [[]] c!"a" c!"x=1" rfl
    .get (by decide +kernel) (by intro h; cases h) (by decide) _ (sock_bytes _) () (by simp [empty])

/-- the hypotheses of `C71_same_partial` are met -/
example : ∃ sv : Server Unit, execL Router.new (varCalls hi) = .ok sv.router ∧
    sv.serve () (sock [c!"a"]) = sv.serve () (sock [c!"%61"]) := by
  obtain ⟨router, hr, -⟩ := C12_run_is_replay (varCalls hi) (by simp [varCalls, FairL, Fair])
    (by rw [varLog]; decide)
  have henc : EncodesAll [c!"a"] [c!"%61"] := by
    refine ⟨rfl, ?_⟩
    intro i a b ha hb
    match i, ha, hb with
    | 0, ha, hb =>
      cases ha; cases hb
      exact .pct (x := 6) (y := 1) (by decide) (by decide) (by decide) .nil
    | i + 1, ha, hb => simp at ha
  exact ⟨{ empty with router }, hr, C71_same_partial { empty with router } (varCalls hi)
    (by simp [varCalls, FairL, Fair]) (by rw [varLog]; decide) hr (fun _ => rfl)
    (by rw [varLog]; simp [Blind]; intro _ _; rfl) rfl (q [c!"a"]) [c!"a"] [c!"%61"] rfl henc (by decide)
    (by
      rw [varLog]
      simp only [List.mem_singleton, forall_eq]
      intro i a ha
      match i, ha with
      | 0, ha => cases ha; exact .inl rfl
      | i + 1, ha => simp at ha)
    (good _ (by decide) (by decide)) (good [c!"%61"] (by decide) (by decide)) (by decide) _ _
    (sock_bytes _) (sock_bytes [c!"%61"]) ()⟩

end TargetExample

end Octane
