import Verif.Props.Answer
/-
C143: no answer has two headers whose names differ only in case.
-/
namespace Octane
open Spec
variable {W : Type u}

namespace Spec

/-- no two of the headers have names that agree up to case, `Set-Cookie` excepted (RFC 7230 section 3.2.2) -/
def Once (hs : List (Str × Str)) : Prop :=
  ((hs.map fun h => lowered h.1).filter fun n => n ≠ c!"set-cookie").Nodup

/-- of two of these names that agree up to case (`Set-Cookie` excepted), both are the same -/
def OneSpelling (P : Str → Prop) : Prop :=
  ∀ k k', P k → P k' → lowered k = lowered k' → lowered k ≠ c!"set-cookie" → k = k'

/-- an operation that stores each of the headers it touches, whatever was done before -/
def ResOp.Steady : ResOp → Prop
  | .defaultHeaders _ | .sendFile .. | .removeHeader _ => False
  | .send clock _ => clock ≤ i64Max
  | _ => True

end Spec

theorem Spec.Once.perm {hs hs' : List (Str × Str)} (h : hs.Perm hs') : Once hs ↔ Once hs' :=
  ((h.map _).filter _).nodup_iff

/-- for headers of different names, it is a matter of the spellings -/
theorem once_iff {hs : List (Str × Str)} (hu : (hs.map (·.1)).Nodup) :
    Once hs ↔ OneSpelling fun k => k ∈ hs.map (·.1) := by
  unfold Once OneSpelling
  induction hs with
  | nil => simp
  | cons h hs ih =>
    rw [List.map_cons, List.nodup_cons] at hu
    by_cases hc : lowered h.1 = c!"set-cookie"
    · rw [List.map_cons, List.filter_cons_of_neg (by simp [hc]), ih hu.2]
      constructor
      · intro H k k' hk hk' e ne
        rw [List.map_cons, List.mem_cons] at hk hk'
        rcases hk with rfl | hk
        · exact absurd hc ne
        · rcases hk' with rfl | hk'
          · exact absurd (e.trans hc) ne
          · exact H k k' hk hk' e ne
      · intro H k k' hk hk' e ne
        exact H k k' (by simp [List.mem_map.1 hk]) (by simp [List.mem_map.1 hk']) e ne
    · rw [List.map_cons, List.filter_cons_of_pos (by simpa using hc), List.nodup_cons, ih hu.2]
      constructor
      · rintro ⟨H0, H⟩ k k' hk hk' e ne
        have hnot : ∀ x ∈ hs.map (·.1), lowered x ≠ lowered h.1 := by
          intro x hx ex
          obtain ⟨y, hy, rfl⟩ := List.mem_map.1 hx
          exact H0 (List.mem_filter.2 ⟨List.mem_map.2 ⟨y, hy, ex⟩, by simpa using hc⟩)
        rw [List.map_cons, List.mem_cons] at hk hk'
        rcases hk with rfl | hk <;> rcases hk' with rfl | hk'
        · rfl
        · exact absurd e.symm (hnot _ hk')
        · exact absurd e (hnot _ hk)
        · exact H k k' hk hk' e ne
      · intro H
        refine ⟨fun hmem => ?_, fun k k' hk hk' e ne =>
          H k k' (by simp [List.mem_map.1 hk]) (by simp [List.mem_map.1 hk']) e ne⟩
        obtain ⟨hm, -⟩ := List.mem_filter.1 hmem
        obtain ⟨y, hy, ey⟩ := List.mem_map.1 hm
        have := H h.1 y.1 (by simp) (List.mem_map.2 ⟨y, List.mem_cons_of_mem _ hy, rfl⟩) ey.symm hc
        exact hu.1 (this ▸ List.mem_map.2 ⟨y, hy, rfl⟩)

/-- The full claim of C143: whatever the handlers do, no answer has two headers whose names agree up to case. -/
def C143_statement : Prop :=
  ∀ (sv : Server Unit) (s : Sock) (bytes : Bytes) (v : ClientView),
    sv.serve () s = .ok ((), bytes) → ClientParses bytes v → Once v.headers

/-- Exactly when, for an answer the handlers made: when the names stored in the response have one spelling each. -/
theorem C143_exact (sv : Server W) (w w' : W) (s : Sock) (req : Request) (res : Response)
    (h : Reads sv.feat sv.allocOk s req)
    (hv : req.requestLine.version ≠ .http11 ∨ ∃ hd ∈ req.headers.raw, lowered hd.name = c!"host")
    (hm : req.requestLine.method ≠ .none)
    (hr : Router.run sv.feat.urlVariables sv.router req (w, Response.newEmpty) = .ok (w', res))
    (hu : HMap.Uniq res.headers)
    (hb : res.body ≠ .none) (hw : Writable sv.U res) (hc : sv.feat.cookies = false ∨ res.cookies = []) :
    ∃ bytes v, sv.serve w s = .ok (w', bytes) ∧ ClientParses bytes v ∧
      (Once v.headers ↔ OneSpelling fun k => (res.get k).isSome) := by
  obtain ⟨v, v1, v2, -⟩ := client_head sv.U sv.feat.cookies sv.ord res hw hc
  refine ⟨_, v, ((C34_dispatch sv w s req h hv hm).1 w' res hr).2 hb, v1, ?_⟩
  rw [Once.perm v2, once_iff hu]
  have : (fun k => k ∈ res.headers.map (·.1)) = fun k => (res.get k).isSome = true := by
    funext k
    refine propext ⟨fun hk => ?_, fun hk => ?_⟩
    · obtain ⟨y, hy, rfl⟩ := List.mem_map.1 hk
      show (HMap.get res.headers y.1).isSome = true
      rw [HMap.get_of_mem hu (k := y.1) (v := y.2) hy]
      rfl
    · obtain ⟨x, hx⟩ := Option.isSome_iff_exists.1 hk
      exact List.mem_map.2 ⟨(k, x), mem_of_get hx, rfl⟩
  rw [this]

theorem exec_stored {U : Unicode} {op : ResOp} {r r' : Response} (h : op.exec U r = .ok r')
    (hu : HMap.Uniq r.headers) (hs : op.Steady) (k : Str) (hk : k ∈ op.touches) : (r'.get k).isSome := by
  cases op <;> simp only [ResOp.exec] at h <;> simp only [ResOp.touches, List.not_mem_nil] at hk <;>
    simp only [ResOp.Steady] at hs
  case send clock body =>
    obtain ⟨-, -, -, -, -, -, -, -, g1, g2, -⟩ := send_spec h
    simp only [List.mem_cons, List.not_mem_nil, or_false] at hk
    rcases hk with rfl | rfl | rfl
    · rw [g1]; rfl
    · obtain ⟨h0, -, -, -, -, -, -, -, -, -, ⟨d, hd, hg⟩, -⟩ := defaultHeaders_spec h
      obtain ⟨c, -, -, _, _, -, -, e⟩ := dateHeader_spec clock h0 hs
      rw [e] at hd
      injection hd with hd
      subst hd
      exact congrArg Option.isSome hg
    · rw [g2]; split <;> rfl
  case attachmentNamed n =>
    injection h with h
    subst h
    simp only [List.mem_cons, List.not_mem_nil, or_false] at hk
    rcases hk with rfl | rfl
    · exact congrArg Option.isSome ((HMap.get_insert_ne _ _ (by decide)).trans (HMap.get_insert_self _ _ _))
    · exact congrArg Option.isSome (HMap.get_insert_self _ _ _)
  all_goals
    injection h with h
    subst h
    simp only [List.mem_cons, List.not_mem_nil, or_false] at hk
    subst hk
    exact congrArg Option.isSome (HMap.get_insert_self _ _ _)

/-- an operation that stores what it touches removes nothing -/
theorem exec_names {U : Unicode} {op : ResOp} {r r' : Response} (h : op.exec U r = .ok r')
    (hu : HMap.Uniq r.headers) (hs : op.Steady) (k : Str) :
    (r'.get k).isSome ↔ k ∈ op.touches ∨ (r.get k).isSome := by
  by_cases hk : k ∈ op.touches
  · simp [hk, exec_stored h hu hs k hk]
  · rw [exec_frame h hu hk]; simp [hk]

/-- the names in a response after any steady operations are those the operations touch -/
theorem names_stored {U : Unicode} {ops : List ResOp} {r r' : Response} (h : execOps U r ops = .ok r')
    (hu : HMap.Uniq r.headers) (hs : ∀ o ∈ ops, o.Steady) (k : Str) :
    (r'.get k).isSome ↔ (∃ o ∈ ops, k ∈ o.touches) ∨ (r.get k).isSome := by
  induction ops generalizing r with
  | nil => simp only [execOps, Res.ok.injEq] at h; subst h; simp
  | cons o ops ih =>
    obtain ⟨r1, h1, h2⟩ := execOps_cons_ok h
    rw [ih h2 (exec_uniq h1 hu) (fun x hx => hs x (List.mem_cons_of_mem _ hx)), exec_names h1 hu (hs o (by simp))]
    simp only [List.mem_cons]
    grind

/-- Exactly when, by what the handlers do. As long as they use `set`, `send`, `with_type`, `attachment` with or
without a name, `redirect` and what does not concern headers, the names of the answer are those of these operations: `send` has
`Content-Length`, `Date` and `Content-Type`, and so on. There are two headers of one name exactly if two of the names
are two spellings of one. -/
theorem C143_iff (sv : Server W) (w w' : W) (s : Sock) (req : Request) (res : Response)
    (h : Reads sv.feat sv.allocOk s req)
    (hv : req.requestLine.version ≠ .http11 ∨ ∃ hd ∈ req.headers.raw, lowered hd.name = c!"host")
    (hm : req.requestLine.method ≠ .none)
    (hr : Router.run sv.feat.urlVariables sv.router req (w, Response.newEmpty) = .ok (w', res))
    (ops : List ResOp) (hops : execOps sv.U Response.newEmpty ops = .ok res) (hs : ∀ o ∈ ops, o.Steady)
    (hb : res.body ≠ .none) (hw : Writable sv.U res) (hc : sv.feat.cookies = false ∨ res.cookies = []) :
    ∃ bytes v, sv.serve w s = .ok (w', bytes) ∧ ClientParses bytes v ∧
      (Once v.headers ↔ OneSpelling fun k => ∃ o ∈ ops, k ∈ o.touches) := by
  obtain ⟨bytes, v, h1, h2, h3⟩ := C143_exact sv w w' s req res h hv hm hr (execOps_uniq hops HMap.Uniq.nil) hb hw hc
  refine ⟨bytes, v, h1, h2, h3.trans ?_⟩
  have : (fun k => (res.get k).isSome = true) = fun k => ∃ o ∈ ops, k ∈ o.touches := by
    funext k
    refine propext ((names_stored hops HMap.Uniq.nil hs k).trans ?_)
    have : Response.newEmpty.get k = none := rfl
    simp [this]
  rw [this]

/-- What holds of C143, for all operations: handlers that write every name in one spelling, that of the library where
the library has one, make an answer without such a pair. -/
theorem C143_one_partial (sv : Server W) (w w' : W) (s : Sock) (req : Request) (res : Response)
    (h : Reads sv.feat sv.allocOk s req)
    (hv : req.requestLine.version ≠ .http11 ∨ ∃ hd ∈ req.headers.raw, lowered hd.name = c!"host")
    (hm : req.requestLine.method ≠ .none)
    (hr : Router.run sv.feat.urlVariables sv.router req (w, Response.newEmpty) = .ok (w', res))
    (ops : List ResOp) (hops : execOps sv.U Response.newEmpty ops = .ok res)
    (hs : OneSpelling fun k => ∃ o ∈ ops, k ∈ o.touches)
    (hb : res.body ≠ .none) (hw : Writable sv.U res) (hc : sv.feat.cookies = false ∨ res.cookies = []) :
    ∃ bytes v, sv.serve w s = .ok (w', bytes) ∧ ClientParses bytes v ∧ Once v.headers := by
  obtain ⟨bytes, v, h1, h2, h3⟩ := C143_exact sv w w' s req res h hv hm hr (execOps_uniq hops HMap.Uniq.nil) hb hw hc
  refine ⟨bytes, v, h1, h2, h3.2 ?_⟩
  have key : ∀ k, (res.get k).isSome = true → ∃ o ∈ ops, k ∈ o.touches := by
    intro k hk
    refine Classical.byContradiction fun hn => ?_
    rw [execOps_frame hops HMap.Uniq.nil (fun o ho hx => hn ⟨o, ho, hx⟩)] at hk
    cases hk
  exact fun k k' hk hk' => hs k k' (key k hk) (key k' hk')

/-- No error page has such a pair. -/
theorem C143_pages (U : Unicode) (cookies : Bool) (ord : MapOrder) (clock : Int) (i : Fin 61) (bytes : Bytes)
    (h : errorPage U cookies ord clock (.named i) = .ok bytes) (v : ClientView) (hv : ClientParses bytes v) :
    Once v.headers := by
  by_cases hc : 0 ≤ clock
  · obtain ⟨bytes', v', g1, g2, -, -, -, -, -, -, g3, g5, -, g4⟩ := C55_error_pages U cookies ord clock i hc
    rw [g1] at h
    injection h with h
    subst h
    rw [g4 v hv]
    refine (once_iff g5).2 ?_
    intro k k' hk hk' e _
    obtain ⟨a, ha, rfl⟩ := List.mem_map.1 hk
    obtain ⟨b, hb, rfl⟩ := List.mem_map.1 hk'
    have ha := g3 a ha
    have hb := g3 b hb
    exact (by decide +kernel : ∀ x ∈ [c!"Content-Length", c!"Date", c!"Content-Type"],
      ∀ y ∈ [c!"Content-Length", c!"Date", c!"Content-Type"], lowered x = lowered y → x = y) _ ha _ hb e
  · rw [C55_clock_before_epoch U cookies ord clock _ (by omega)] at h
    simp at h

namespace SpellingExample
open AnswerExample

/-- a handler that writes the name of a header in its own way, and sends a text -/
def small : List ResOp := [.set c!"content-type" c!"text/plain", .send 0 (utf8 c!"x")]

/-- what it leaves: two types -/
def smallLeft : Response :=
  { Response.newEmpty with
    contentLen := some 1, body := .sized 1 (.cursor (utf8 c!"x")),
    headers := [(c!"content-type", c!"text/plain"), (c!"Content-Length", c!"1"),
      (c!"Date", c!"Thu, 01 Jan 1970 00:00:00 GMT"), (c!"Content-Type", c!"text/html")] }

theorem small_ops : execOps Unicode.asciiOnly Response.newEmpty small = .ok smallLeft := by decide +kernel

theorem small_left (mr : MatchedRequest) :
    doing (fun _ => small) mr ((), Response.newEmpty) = .ok (((), smallLeft), .stop) := by
  unfold doing
  simp only [small_ops, Res.bind_ok']

theorem small_writable : Writable Unicode.asciiOnly smallLeft :=
  writable (by decide) (by decide +kernel) (by decide +kernel) rfl

theorem small_steady : ∀ o ∈ small, o.Steady := by
  simp only [small, List.mem_cons, List.not_mem_nil, or_false]
  rintro o (rfl | rfl)
  · exact trivial
  · show (0 : Int) ≤ i64Max
    decide

/-- the hypotheses of `C143_iff` are met, and there are two types -/
theorem twice : ∃ bytes v, (demo (doing fun _ => small)).serve () request = .ok ((), bytes) ∧
    ClientParses bytes v ∧ ¬ Once v.headers := by
  obtain ⟨bytes, v, h1, h2, h3⟩ := C143_iff (demo (doing fun _ => small)) () () request asked smallLeft reads
    (.inl (by decide)) (by decide) (demo_run _ _ small_left) small small_ops small_steady (by simp [smallLeft])
    small_writable (.inr rfl)
  refine ⟨bytes, v, h1, h2, fun h => ?_⟩
  exact absurd (h3.1 h c!"content-type" c!"Content-Type" ⟨_, List.mem_cons_self .., by simp [ResOp.touches]⟩
    ⟨.send 0 (utf8 c!"x"), by simp [small], by simp [ResOp.touches]⟩ (by decide +kernel) (by decide +kernel))
    (by decide)

/-- the hypotheses of `C143_one_partial` are met by the handler that uses the spelling of the library -/
example : ∃ bytes v, (demo (doing fun _ => polite)).serve () request = .ok ((), bytes) ∧
    ClientParses bytes v ∧ Once v.headers :=
  C143_one_partial (demo (doing fun _ => polite)) () () request asked politely reads (.inl (by decide)) (by decide)
    (demo_run _ _ polite_left) polite polite_ops
    (by
      rintro k k' ⟨o, ho, hk⟩ ⟨o', ho', hk'⟩ e -
      have key : ∀ o ∈ polite, ∀ k ∈ o.touches,
          k ∈ [c!"Connection", c!"Content-Length", c!"Date", c!"Content-Type"] := by
        simp only [polite, List.mem_cons, List.not_mem_nil, or_false]
        rintro o (rfl | rfl | rfl) k hk <;> revert k <;> decide
      exact (by decide +kernel : ∀ x ∈ [c!"Connection", c!"Content-Length", c!"Date", c!"Content-Type"],
        ∀ y ∈ [c!"Connection", c!"Content-Length", c!"Date", c!"Content-Type"], lowered x = lowered y → x = y)
        _ (key o ho k hk) _ (key o' ho' k' hk') e)
    (by simp [politely]) politely_writable (.inr rfl)

end SpellingExample

/-- C143 is false of the code. -/
theorem C143_counterexample : ¬ C143_statement := by
  intro h
  obtain ⟨bytes, v, h1, h2, h3⟩ := SpellingExample.twice
  exact h3 (h _ _ bytes v h1 h2)

end Octane
