import Verif.Props.Target
/-
C70, C71: exactly what becomes of a request whose target has a query string or percent-encoded characters.
-/
namespace Octane
open Spec
variable {W : Type u}

theorem replay_kept {S : Type u} (uv : Bool) (req : Request) (keep : Reg S → Bool) (log : List (Reg S)) (s : S)
    (h : ∀ e ∈ log, keep e = false → e.target.applies uv req.requestLine.method req.requestLine.path = false) :
    replay uv req log s = replay uv req (log.filter keep) s := by
  induction log generalizing s with
  | nil => rfl
  | cons e log ih =>
    have ih' := fun s => ih s fun x hx => h x (List.mem_cons_of_mem _ hx)
    cases hk : keep e with
    | false =>
      rw [List.filter_cons_of_neg (by simp [hk]), replay, if_neg (by simp [h e (by simp) hk])]
      exact ih' s
    | true =>
      rw [List.filter_cons_of_pos hk, replay, replay]
      simp only [ih']

/-- two requests that differ only in the target, the one sent to a server with some registrations, the other to one
without those that do not apply to it -/
theorem serve_kept (sv : Server W) (calls calls' : List (Call (W × Response))) (hf : FairL calls) (hf' : FairL calls')
    (hn : (logOfL calls).length < 2 ^ 64) (hsetup : execL Router.new calls = .ok sv.router)
    (r' : Router (W × Response)) (hsetup' : execL Router.new calls' = .ok r')
    (hblind : ∀ e ∈ logOfL calls, Blind e.handler) (keep : Reg (W × Response) → Bool)
    (hlog : logOfL calls' = (logOfL calls).filter keep)
    (q : WireReq) (pieces' : List Str) (hq : q.Good) (hq' : { q with pieces := pieces' }.Good)
    (s s' : Sock) (hb : s.bytes = q.bytes) (hb' : s'.bytes = { q with pieces := pieces' }.bytes)
    (halloc : ∀ k ≤ q.body.length, sv.allocOk k = true) (hmax : q.body.length ≤ i64Max)
    (hin : ∀ e ∈ logOfL calls, keep e = true → ∀ m, e.target.applies sv.feat.urlVariables m (resolve q.pieces) =
      e.target.applies sv.feat.urlVariables m (resolve pieces'))
    (hout : ∀ e ∈ logOfL calls, keep e = false → ∀ m,
      e.target.applies sv.feat.urlVariables m (resolve pieces') = false)
    (w : W) : sv.serve w s' = { sv with router := r' }.serve w s := by
  obtain ⟨req, h1, h2, h3, h4, h5, h6, h7, h8, -⟩ :=
    reads_wire sv.feat sv.allocOk q hq s [] (by simpa using hb) (.inl rfl) halloc hmax
  obtain ⟨req', h1', h2', h3', h4', h5', h6', h7', h8', -⟩ :=
    reads_wire sv.feat sv.allocOk _ hq' s' [] (by simpa using hb') (.inl rfl) halloc hmax
  obtain ⟨r, g1, g2⟩ := C12_run_is_replay calls hf hn
  rw [hsetup] at g1
  simp only [Res.ok.injEq] at g1
  subst g1
  obtain ⟨r, g1', g2'⟩ := C12_run_is_replay calls' hf' (Nat.lt_of_le_of_lt (hlog ▸ List.length_filter_le _ _) hn)
  rw [hsetup'] at g1'
  simp only [Res.ok.injEq] at g1'
  subst g1'
  have hmeth : req'.requestLine.method = req.requestLine.method := by
    by_cases hk : ∃ x, (q.method, x) ∈ methodTable
    · obtain ⟨x, hx⟩ := hk
      rw [h2 x hx, h2' x hx]
    · rw [h3 fun x hx => hk ⟨x, hx⟩, h3' fun x hx => hk ⟨x, hx⟩]
  have hver : req'.requestLine.version = req.requestLine.version := by
    by_cases hk : ∃ x, (q.version, x) ∈ versionTable
    · obtain ⟨x, hx⟩ := hk
      rw [h5 x hx, h5' x hx]
    · rw [h6 fun x hx => hk ⟨x, hx⟩, h6' fun x hx => hk ⟨x, hx⟩]
  have hrun : Router.run sv.feat.urlVariables sv.router req' (w, Response.newEmpty) =
      Router.run sv.feat.urlVariables r' req (w, Response.newEmpty) := by
    rw [g2 _ _ _ h1'.facts.2, g2' _ _ _ h1.facts.2, hlog, replay_kept _ req' keep]
    · apply replay_same
      · exact fun e he => hblind e (List.mem_filter.1 he).1
      · intro e he
        rw [h4, h4', hmeth]
        exact (hin e (List.mem_filter.1 he).1 (List.mem_filter.1 he).2 _).symm
    · intro e he hk
      rw [h4']
      exact hout e he hk _
  have h1k : Reads ({ sv with router := r' } : Server W).feat ({ sv with router := r' } : Server W).allocOk s req := h1
  rw [serve_reads h1', serve_reads h1k, handle_spec, handle_spec, hver, hmeth, h8, h8']
  rw [hrun]
  rfl

/-- Whether a registration still applies when a query string is put behind the path: it has no path, or its last
segment is a variable. -/
def Spec.takesQuery (uv : Bool) : Target → Bool
  | .everywhere => true
  | .on _ p | .anyMethod p => uv && p.getLast?.any fun a => a.head? == some ':'

/-- C70, exactly: with a query string a request is answered as without it by the application that has only the
registrations that end in a variable, or have no path. (No pattern is supposed to end in a literal with a `?`.) -/
theorem C70_exact (sv : Server W) (calls calls' : List (Call (W × Response))) (hf : FairL calls) (hf' : FairL calls')
    (hn : (logOfL calls).length < 2 ^ 64) (hsetup : execL Router.new calls = .ok sv.router)
    (r' : Router (W × Response)) (hsetup' : execL Router.new calls' = .ok r')
    (halloc : ∀ k, sv.allocOk k = true) (hblind : ∀ e ∈ logOfL calls, Blind e.handler)
    (hlog : logOfL calls' = (logOfL calls).filter fun e => takesQuery sv.feat.urlVariables e.target)
    (hlit : ∀ e ∈ logOfL calls, ∀ m p a, (e.target = .on m p ∨ e.target = .anyMethod p) → p.getLast? = some a →
      '?' ∈ a → sv.feat.urlVariables = true ∧ a.head? = some ':')
    (q : WireReq) (ps : List Str) (last query : Str) (hp : q.pieces = ps ++ [last])
    (hl : isName last = true) (hq : q.Good) (hq' : { q with pieces := ps ++ [last ++ '?' :: query] }.Good)
    (hmax : q.body.length ≤ i64Max) (s s' : Sock) (hb : s.bytes = q.bytes)
    (hb' : s'.bytes = { q with pieces := ps ++ [last ++ '?' :: query] }.bytes) (w : W) :
    sv.serve w s' = { sv with router := r' }.serve w s := by
  refine serve_kept sv calls calls' hf hf' hn hsetup r' hsetup' hblind _ hlog q _ hq hq' s s' hb hb'
    (fun k _ => halloc k) hmax ?_ ?_ w
  · intro e _ hk m
    rw [hp, resolve_snoc _ _ hl, resolve_snoc _ _ (isName_query _ _)]
    have key : ∀ p, (sv.feat.urlVariables && p.getLast?.any fun a => a.head? == some ':') = true →
        (PatMatch sv.feat.urlVariables p (resolve ps ++ [last]) ↔
          PatMatch sv.feat.urlVariables p (resolve ps ++ [last ++ '?' :: query])) := by
      intro p hpv
      rw [Bool.and_eq_true] at hpv
      rw [hpv.1]
      simp only [PatMatch, if_true]
      rcases List.eq_nil_or_concat p with rfl | ⟨p', a, rfl⟩
      · simp [Matches]
      · rw [List.concat_eq_append] at hpv ⊢
        have : a.head? = some ':' := by simpa using hpv.2
        simp only [matches_snoc, this, true_or, and_true]
    cases ht : e.target with
    | everywhere => rfl
    | on m' p => rw [ht] at hk; simp only [Target.applies, key p hk]
    | anyMethod p => rw [ht] at hk; simp only [Target.applies, key p hk]
  · intro e he hk m
    rw [resolve_snoc _ _ (isName_query _ _)]
    have key : ∀ p, (∃ m, e.target = .on m p ∨ e.target = .anyMethod p) →
        (sv.feat.urlVariables && p.getLast?.any fun a => a.head? == some ':') = false →
        ¬ PatMatch sv.feat.urlVariables p (resolve ps ++ [last ++ '?' :: query]) := by
      rintro p ⟨m, hep⟩ hpv h
      have hq : ∀ p' a, p = p' ++ [a] → a ≠ last ++ '?' :: query := by
        rintro p' a rfl rfl
        obtain ⟨h1, h2⟩ := hlit e he m _ (last ++ '?' :: query) hep (by simp) (by simp)
        simp [h1, h2] at hpv
      cases hu : sv.feat.urlVariables with
      | false =>
        rw [hu] at h
        simp only [PatMatch, Bool.false_eq_true, if_false] at h
        exact hq _ _ h.1 rfl
      | true =>
        rw [hu] at h hpv
        simp only [PatMatch, if_true] at h
        rcases List.eq_nil_or_concat p with rfl | ⟨p', a, rfl⟩
        · have := h.1
          simp at this
        · rw [List.concat_eq_append] at hpv h hq
          rw [matches_snoc] at h
          rcases h.2 with h2 | h2
          · simp [h2] at hpv
          · exact hq _ _ rfl h2
    cases ht : e.target with
    | everywhere => rw [ht] at hk; simp [takesQuery] at hk
    | on m' p => rw [ht] at hk; simp [Target.applies, key p ⟨m', .inl ht⟩ hk]
    | anyMethod p => rw [ht] at hk; simp [Target.applies, key p ⟨.get, .inr ht⟩ hk]

/-- Whether a registration still applies when the segments `ps` are written `ps'`: it has no path, or has a variable
wherever they differ. -/
def Spec.takesRewriting (uv : Bool) (ps ps' : List Str) : Target → Bool
  | .everywhere => true
  | .on _ p | .anyMethod p => (p.zip (ps.zip ps')).all fun x => (uv && x.1.head? == some ':') || x.2.1 == x.2.2

/-- C71, exactly: a request whose target has characters percent-encoded is answered as the request for the plain
target by the application that has only the registrations with variables at the segments in question. (No pattern
is supposed to have the encoded text as a literal segment there.) -/
theorem C71_exact (sv : Server W) (calls calls' : List (Call (W × Response))) (hf : FairL calls) (hf' : FairL calls')
    (hn : (logOfL calls).length < 2 ^ 64) (hsetup : execL Router.new calls = .ok sv.router)
    (r' : Router (W × Response)) (hsetup' : execL Router.new calls' = .ok r')
    (halloc : ∀ k, sv.allocOk k = true) (hblind : ∀ e ∈ logOfL calls, Blind e.handler)
    (q : WireReq) (ps ps' : List Str) (hp : q.pieces = [] :: ps)
    (henc : EncodesAll ps ps') (hname : ∀ x ∈ ps ++ ps', isName x = true)
    (hlog : logOfL calls' = (logOfL calls).filter fun e => takesRewriting sv.feat.urlVariables ps ps' e.target)
    (hlit : ∀ e ∈ logOfL calls, ∀ m p (i : Nat) a b, (e.target = .on m p ∨ e.target = .anyMethod p) → p[i]? = some a →
      ps[i]? = some b → ps'[i]? = some a → b ≠ a → sv.feat.urlVariables = true ∧ a.head? = some ':')
    (hq : q.Good) (hq' : { q with pieces := [] :: ps' }.Good)
    (hmax : q.body.length ≤ i64Max) (s s' : Sock) (hb : s.bytes = q.bytes)
    (hb' : s'.bytes = { q with pieces := [] :: ps' }.bytes) (w : W) :
    sv.serve w s' = { sv with router := r' }.serve w s := by
  have hlen : ps.length = ps'.length := henc.1.symm
  -- position by position
  have hall : ∀ (uv : Bool) (p : List Str),
      ((p.zip (ps.zip ps')).all fun x => (uv && x.1.head? == some ':') || x.2.1 == x.2.2) = true ↔
      ∀ (i : Nat) a b c, p[i]? = some a → ps[i]? = some b → ps'[i]? = some c →
        (uv = true ∧ a.head? = some ':') ∨ b = c := by
    intro uv p
    rw [List.all_eq_true]
    constructor
    · intro h i a b c ha hb hc
      have hm : (a, b, c) ∈ p.zip (ps.zip ps') := by
        rw [List.mem_iff_getElem?]
        exact ⟨i, by simp [List.getElem?_zip_eq_some, ha, hb, hc]⟩
      simpa using h _ hm
    · intro h x hx
      obtain ⟨i, hi⟩ := List.mem_iff_getElem?.1 hx
      simp only [List.getElem?_zip_eq_some] at hi
      simpa using h i _ _ _ hi.1 hi.2.1 hi.2.2
  refine serve_kept sv calls calls' hf hf' hn hsetup r' hsetup' hblind _ hlog q _ hq hq' s s' hb hb'
    (fun k _ => halloc k) hmax ?_ ?_ w
  · intro e _ hk m
    rw [hp, resolve_names _ fun x hx => hname x (by simp [hx]), resolve_names _ fun x hx => hname x (by simp [hx])]
    have key : ∀ p, ((p.zip (ps.zip ps')).all fun x => (sv.feat.urlVariables && x.1.head? == some ':') ||
        x.2.1 == x.2.2) = true → (PatMatch sv.feat.urlVariables p ps ↔ PatMatch sv.feat.urlVariables p ps') := by
      intro p hpv
      rw [hall] at hpv
      cases hu : sv.feat.urlVariables with
      | false =>
        simp only [PatMatch, Bool.false_eq_true, if_false]
        have : ∀ (x y : List Str), x.length = y.length → p = x → (∀ (i : Nat) a b c, p[i]? = some a → ps[i]? = some b →
            ps'[i]? = some c → b = c) → (x = ps ∧ y = ps' ∨ x = ps' ∧ y = ps) → p = y := by
          intro x y hxy hpx hpv hor
          subst hpx
          apply List.ext_getElem? 
          intro i
          by_cases hi : i < p.length
          · have h1 := List.getElem?_eq_getElem hi
            have h2 := List.getElem?_eq_getElem (hxy ▸ hi : i < y.length)
            rcases hor with ⟨rfl, rfl⟩ | ⟨rfl, rfl⟩
            · rw [h1, h2, hpv i _ _ _ h1 h1 h2]
            · rw [h1, h2, hpv i _ _ _ h1 h2 h1]
          · rw [List.getElem?_eq_none (by omega), List.getElem?_eq_none (by omega)]
        have hpv' : ∀ (i : Nat) a b c, p[i]? = some a → ps[i]? = some b → ps'[i]? = some c → b = c := by
          intro i a b c ha hb hc
          rcases hpv i a b c ha hb hc with h | h
          · rw [hu] at h; simp at h
          · exact h
        exact ⟨fun h => ⟨this ps ps' hlen h.1 hpv' (.inl ⟨rfl, rfl⟩), h.2⟩,
          fun h => ⟨this ps' ps hlen.symm h.1 hpv' (.inr ⟨rfl, rfl⟩), h.2⟩⟩
      | true =>
        simp only [PatMatch, if_true, Matches, hlen]
        refine and_congr_right fun hpl => ?_
        constructor
        · intro h i a c ha hc
          have hi : i < ps.length := by
            have := (List.getElem?_eq_some_iff.1 hc).1
            omega
          rcases hpv i a _ c ha (List.getElem?_eq_getElem hi) hc with h1 | h1
          · exact .inl h1.2
          · exact h i a c ha (h1 ▸ List.getElem?_eq_getElem hi)
        · intro h i a b ha hb
          have hi : i < ps'.length := by
            have := (List.getElem?_eq_some_iff.1 hb).1
            omega
          rcases hpv i a b _ ha hb (List.getElem?_eq_getElem hi) with h1 | h1
          · exact .inl h1.2
          · exact h i a b ha (h1 ▸ List.getElem?_eq_getElem hi)
    cases ht : e.target with
    | everywhere => rfl
    | on m' p => rw [ht] at hk; simp only [Target.applies, key p hk]
    | anyMethod p => rw [ht] at hk; simp only [Target.applies, key p hk]
  · intro e he hk m
    rw [resolve_names _ fun x hx => hname x (by simp [hx])]
    have key : ∀ p, (∃ m, e.target = .on m p ∨ e.target = .anyMethod p) →
        ((p.zip (ps.zip ps')).all fun x => (sv.feat.urlVariables && x.1.head? == some ':') ||
          x.2.1 == x.2.2) = false → ¬ PatMatch sv.feat.urlVariables p ps' := by
      rintro p ⟨m, hep⟩ hpv h
      rw [← Bool.not_eq_true, hall] at hpv
      refine hpv fun i a b c ha hb hc => ?_
      by_cases hbc : b = c
      · exact .inr hbc
      refine .inl ?_
      cases hu : sv.feat.urlVariables with
      | false =>
        rw [hu] at h
        simp only [PatMatch, Bool.false_eq_true, if_false] at h
        rw [h.1, hc] at ha
        injection ha with ha
        subst ha
        have := hlit e he m p i c b hep (h.1 ▸ hc) hb hc hbc
        rw [hu] at this
        exact this
      | true =>
        rw [hu] at h
        simp only [PatMatch, if_true] at h
        rcases h.2 i a c ha hc with h1 | h1
        · exact ⟨rfl, h1⟩
        · subst h1
          exact ⟨rfl, (hlit e he m p i a b hep ha hb hc hbc).2⟩
    cases ht : e.target with
    | everywhere => rw [ht] at hk; simp [takesRewriting] at hk
    | on m' p => rw [ht] at hk; simp [Target.applies, key p ⟨m', .inl ht⟩ hk]
    | anyMethod p => rw [ht] at hk; simp [Target.applies, key p ⟨.get, .inr ht⟩ hk]

namespace TargetExample

/-- a handler that says "lo" -/
def lo : Closure (Unit × Response) := fun _ st =>
  (st.2.send Unicode.asciiOnly 0 [108, 111]).bind fun r => .ok (((), r), .stop)

/-- `/a` says "hi", everything else of one segment "lo" -/
def both : List (Call (Unit × Response)) := [.route .get c!"/a" hi, .route .get c!"/:x" lo]

theorem bothLog : logOfL both = [⟨.on .get [c!"a"], hi⟩, ⟨.on .get [c!":x"], lo⟩] := by
  have e1 : Path.parse c!"/a" = some [c!"a"] := by decide +kernel
  have e2 : Path.parse c!"/:x" = some [c!":x"] := by decide +kernel
  simp [both, logOfL, logOf, Verb.target, Verb.method, e1, e2]

/-- `/a?x=1` and `/%61` are answered by the second handler, as `/a` is without the first -/
example (r r' : Router (Unit × Response)) (hr : execL Router.new both = .ok r)
    (hr' : execL Router.new (varCalls lo) = .ok r') :
    ({ empty with router := r } : Server Unit).serve () (sock [c!"a?x=1"]) =
      ({ empty with router := r' } : Server Unit).serve () (sock [c!"a"]) ∧
    ({ empty with router := r } : Server Unit).serve () (sock [c!"%61"]) =
      ({ empty with router := r' } : Server Unit).serve () (sock [c!"a"]) := by
  constructor
  · exact C70_exact { empty with router := r } both (varCalls lo) (by simp [both, FairL, Fair])
      (by simp [varCalls, FairL, Fair]) (by rw [bothLog]; decide) hr r' hr' (fun _ => rfl)
      (by rw [bothLog]; simp [Blind]; exact ⟨fun _ _ => rfl, fun _ _ => rfl⟩)
      (by rw [bothLog, varLog]; rfl)
      (by
        rw [bothLog]
        intro e he m p a ht ha hq
        simp only [List.mem_cons, List.not_mem_nil, or_false] at he
        rcases he with rfl | rfl <;> rcases ht with ht | ht <;> cases ht <;> cases ha <;> exact absurd hq (by decide))
      (q [c!"a"]) [[]] c!"a" c!"x=1" rfl (by decide) (good _ (by decide) (by decide))
      (good [c!"a?x=1"] (by decide) (by decide)) (by decide) _ _ (sock_bytes _) (sock_bytes [c!"a?x=1"]) ()
  · exact C71_exact { empty with router := r } both (varCalls lo) (by simp [both, FairL, Fair])
      (by simp [varCalls, FairL, Fair]) (by rw [bothLog]; decide) hr r' hr' (fun _ => rfl)
      (by rw [bothLog]; simp [Blind]; exact ⟨fun _ _ => rfl, fun _ _ => rfl⟩)
      (q [c!"a"]) [c!"a"] [c!"%61"] rfl
      ⟨rfl, fun i a b ha hb => by
        match i, ha, hb with
        | 0, ha, hb =>
          cases ha; cases hb
          exact .pct (x := 6) (y := 1) (by decide) (by decide) (by decide) .nil
        | i + 1, ha, _ => simp at ha⟩ (by decide)
      (by rw [bothLog, varLog]; rfl)
      (by
        rw [bothLog]
        intro e he m p i a b ht ha hb hc hne
        match i, hb with
        | 0, hb =>
          injection hc with hc; subst hc
          simp only [List.mem_cons, List.not_mem_nil, or_false] at he
          rcases he with rfl | rfl <;> rcases ht with ht | ht <;> cases ht <;> exact absurd ha (by decide)
        | i + 1, hb => simp at hb)
      (good _ (by decide) (by decide))
      (good [c!"%61"] (by decide) (by decide)) (by decide) _ _ (sock_bytes _) (sock_bytes [c!"%61"]) ()

end TargetExample

end Octane
