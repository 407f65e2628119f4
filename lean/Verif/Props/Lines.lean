import Verif.Props.Field
import Verif.Props.Unknown
/-
C135: header lines that are continued on the next line. C136: header values that are not UTF-8.
-/
namespace Octane
open Spec
variable {W : Type u}

/-! ### C135: folded lines -/

/-- the bytes of a head with these lines, and what follows it -/
def Spec.written (line : Str) (lines : List Str) (rest : Bytes) : Bytes :=
  utf8 (crlf.intercalate (line :: lines)) ++ blankLine ++ rest

/-- The full claim of C135 (RFC 7230 section 3.2.4): if a header line begins with a blank, it continues the line
before it: the request is refused with 400, or answered as the one in which it is all one line. -/
def C135_statement (faithful : Bool) : Prop :=
  ∀ (sv : Server Nat) (w : Nat) (s s' : Sock) (line l : Str) (pre post : List Str) (c : Char) (more : Str) (rest : Bytes),
    sv.feat.faithful = faithful → (∀ x ∈ line :: pre ++ l :: (c :: more) :: post, '\r' ∉ x ∧ x ≠ []) → isBlank c →
    s.bytes = written line (pre ++ l :: (c :: more) :: post) rest →
    s'.bytes = written line (pre ++ (l ++ ' ' :: more) :: post) rest → s.fin = .eof → s'.fin = .eof →
    (∀ k, sv.allocOk k = true) → (∀ w, 0 ≤ sv.clock w) →
    Page sv w s w c!"400" c!"BAD REQUEST" ∨ sv.serve w s = sv.serve w s'

theorem headLines_written {line : Str} {l : Str} {lines : List Str} {rest : Bytes}
    (h : ∀ x ∈ line :: l :: lines, '\r' ∉ x ∧ x ≠ []) : HeadLines (written line (l :: lines) rest) (l :: lines) := by
  refine ⟨_, line, rest, firstSplit_lines line (l :: lines) h rest, ?_,
    fun x hx => no_crlf_of_no_cr (h x (List.mem_cons_of_mem _ hx)).1⟩
  rw [intercalate_cons_cons]
  exact firstSplit_of_not_mem (h line (by simp)).1

/-- What holds of C135: with the feature `faithful` a folded line reaches no handler, under no name. Missing: the
answer, for there is none; and builds without the feature. -/
theorem C135_refused_partial (sv : Server W) (hfaith : sv.feat.faithful = true) (w : W) (s : Sock)
    (lines : List Str) (h : HeadLines s.bytes lines) (c : Char) (more : Str) (hl : c :: more ∈ lines)
    (hc : isBlank c) : sv.serve w s = .panic :=
  C100_refused_partial sv hfaith w s lines h [] c more hl (by simp) hc

/-- A line without a colon, folded or not, makes the task panic in every build: nothing is answered, and no handler
runs. -/
theorem C135_no_colon (sv : Server W) (w : W) (s : Sock) (lines : List Str) (h : HeadLines s.bytes lines) (l : Str)
    (hl : l ∈ lines) (hc : ':' ∉ l) : sv.serve w s = .panic := by
  obtain ⟨text, line, rest, h1, h2, h3⟩ := h
  obtain ⟨rem, reader, r1, -⟩ := ((C25_head_from_bytes s).2 _ _ h1).1 line _ ⟨text, rfl, h2⟩
  have hp := C27_refuses sv.feat.faithful lines h3 l hl (by
    rintro n v ⟨ws, e, -⟩
    rw [e] at hc
    simp at hc)
  unfold Server.serve
  simp only [r1, hp, Io.bind_ok, Res.bind_ok', Res.unwrap_none, Io.ofRes_panic, Io.bind_panic]

/-- A folded line with a colon, in a build without the feature, is a header of its own, whose name begins with the
blank. The header it continues is cut off, and nobody who asks for a name without blanks finds what it says. -/
theorem C135_own_header (cookies : Bool) (bytes : Bytes) (pre post : List Str) (c : Char) (a b : Str)
    (h : HeadLines bytes (pre ++ (c :: a ++ ':' :: b) :: post)) (hc : isBlank c) (ha : ':' ∉ a)
    (q : Asked) (n : Nat) (hq : q.In false cookies bytes n) :
    ∃ hs hs', hs.length = pre.length ∧
      q.headers = hs ++ (c :: a, b.dropWhile fun x => x == ' ' || x == '\t') :: hs' ∧
      ∀ k, (∀ x ∈ k, ¬ isBlank x) → joined q.headers k = joined (hs ++ hs') k := by
  obtain ⟨text, line, rest, h1, h2, h3⟩ := h
  obtain ⟨text', line', hdrs', h1', h2', -, ⟨lines, b1, b2, b3, b4, b5⟩, -⟩ := hq
  obtain ⟨e1, -⟩ := h1.unique h1'
  obtain rfl := utf8_injective e1
  obtain ⟨-, e2⟩ := h2.unique h2'
  obtain rfl := lines_inj (by simp) b1 h3 b3 (e2.trans b2)
  have hlen : pre.length < q.headers.length := by rw [b4]; simp
  obtain ⟨hd, hhd⟩ : ∃ hd, q.headers[pre.length]? = some hd := ⟨_, List.getElem?_eq_getElem hlen⟩
  have hline := b5 pre.length (c :: a ++ ':' :: b) hd.1 hd.2 (by simp) hhd
  have hcc : ':' ∉ c :: a := by
    rw [List.mem_cons]
    rintro (h | h)
    · rcases hc with rfl | rfl <;> simp at h
    · exact ha h
  have hparse : Header.parse false (c :: a ++ ':' :: b) =
      some ⟨c :: a, b.dropWhile fun x => x == ' ' || x == '\t'⟩ := by
    unfold Header.parse
    rw [splitN2_append hcc]
    simp
  have e := (Header.parse_iff false _ ⟨hd.1, hd.2⟩).2 hline
  rw [hparse] at e
  simp only [Option.some.injEq, Header.mk.injEq] at e
  have e' : hd = (c :: a, b.dropWhile fun x => x == ' ' || x == '\t') := by rw [e.1, e.2]
  have hsplit : q.headers = q.headers.take pre.length ++ hd :: q.headers.drop (pre.length + 1) := by
    obtain ⟨hi, hv⟩ := List.getElem?_eq_some_iff.1 hhd
    rw [← hv, ← List.drop_eq_getElem_cons hi, List.take_append_drop]
  refine ⟨q.headers.take pre.length, q.headers.drop (pre.length + 1), by simp; omega, e' ▸ hsplit, ?_⟩
  intro k hk
  have hne : lowered hd.1 ≠ k := by
    rintro rfl
    refine hk c ?_ hc
    have : small c = c := by rcases hc with rfl | rfl <;> decide
    rw [lowered, List.mem_map]
    exact ⟨c, by simp [e'], this⟩
  generalize q.headers.take pre.length = hs at *
  generalize q.headers.drop (pre.length + 1) = hs' at *
  rw [hsplit]
  unfold joined
  simp [List.filter_append, hne]

namespace LinesExample
open FieldExample

def folded : Bytes := written c!"GET / HTTP/1.0" [c!"A: b", c!" c"] []
def unfolded : Bytes := written c!"GET / HTTP/1.0" [c!"A: b c"] []

theorem folded_lines : HeadLines folded [c!"A: b", c!" c"] := headLines_written (by decide)

/-- a line that looks like another header -/
def nested : Bytes := written c!"GET / HTTP/1.0" [c!"A: b", c!"\tHost: c"] []

theorem nested_lines : HeadLines nested [c!"A: b", c!"\tHost: c"] := headLines_written (by decide)

example : Server.serve (counting true) 0 ⟨[nested], .eof⟩ = .panic :=
  C135_refused_partial (counting true) rfl 0 _ _ (by simpa [Sock.bytes] using nested_lines) '\t' c!"Host: c"
    (by decide) (by decide)

example (faithful : Bool) : Server.serve (counting faithful) 0 ⟨[folded], .eof⟩ = .panic :=
  C135_no_colon (counting faithful) 0 _ _ (by simpa [Sock.bytes] using folded_lines) c!" c" (by decide) (by decide)

/-- there is such a request -/
theorem nested_asked : Asked.In false true nested
    ⟨c!"GET", [[], []], c!"1.0", [(c!"A", c!"b"), (c!"\tHost", c!"c")], []⟩ 0 := by
  refine ⟨_, c!"GET / HTTP/1.0", _, firstSplit_lines c!"GET / HTTP/1.0" [c!"A: b", c!"\tHost: c"] (by decide) [],
    firstSplit_of_not_mem (a := c!"GET / HTTP/1.0") (b := crlf.intercalate [c!"A: b", c!"\tHost: c"]) (by decide),
    ⟨c!"HTTP/", [], by decide, by decide, by decide, by decide, ?_, by decide, by simp⟩,
    ⟨[c!"A: b", c!"\tHost: c"], by decide, rfl,
      fun l hl => no_crlf_of_no_cr ((by decide : ∀ l ∈ [c!"A: b", c!"\tHost: c"], '\r' ∉ l) l hl), rfl, ?_⟩, ?_,
    by decide, ?_⟩
  · rintro ⟨k, hk⟩
    have : (([[], []] : List Str).take k).countP isUp = 0 :=
      List.countP_eq_zero.2 fun p hp =>
        (by decide : ∀ p ∈ ([[], []] : List Str), ¬ isUp p = true) p (List.mem_of_mem_take hp)
    simp only at hk
    omega
  · intro i line n v h1 h2
    match i with
    | 0 =>
      simp at h1 h2
      subst h1; obtain ⟨rfl, rfl⟩ := h2
      exact ⟨[' '], by decide, by decide, by decide, by decide, by decide, by simp⟩
    | 1 =>
      simp at h1 h2
      subst h1; obtain ⟨rfl, rfl⟩ := h2
      exact ⟨[' '], by decide, by decide, by decide, by decide, by decide, by simp⟩
    | i + 2 => simp at h2
  · refine (C86_length _ _).2 (.inr ⟨rfl, fun v m hv => ?_⟩)
    rw [show valuesOf _ c!"content-length" = [] from (by decide +kernel :
      valuesOf [(c!"A", c!"b"), (c!"\tHost", c!"c")] c!"content-length" = [])] at hv
    simp at hv
  · intro _ v hv
    rw [show joined _ c!"cookie" = none from (by decide +kernel :
      joined [(c!"A", c!"b"), (c!"\tHost", c!"c")] c!"cookie" = none)] at hv
    simp at hv

example : ∃ hs hs', hs.length = 1 ∧ [(c!"A", c!"b"), (c!"\tHost", c!"c")] = hs ++ (c!"\tHost", c!"c") :: hs' := by
  obtain ⟨hs, hs', h1, h2, -⟩ := C135_own_header true nested [c!"A: b"] [] '\t' c!"Host" c!" c" nested_lines (by decide)
    (by decide) _ _ nested_asked
  exact ⟨hs, hs', h1, h2⟩

end LinesExample

open LinesExample FieldExample in
/-- C135 is false of the code with the feature and without it. -/
theorem C135_counterexample (faithful : Bool) : ¬ C135_statement faithful := by
  intro h
  have hp := C135_no_colon (counting faithful) 0 ⟨[folded], .eof⟩ _ (by simpa [Sock.bytes] using folded_lines) c!" c"
    (by decide) (by decide)
  have hn : Server.serve (counting faithful) 0 ⟨[unfolded], .eof⟩ ≠ .panic := by
    cases faithful <;> decide +kernel
  rcases h (counting faithful) 0 ⟨[folded], .eof⟩ ⟨[unfolded], .eof⟩ c!"GET / HTTP/1.0" c!"A: b" [] [] ' ' c!"c" []
    rfl (by decide) (by decide) (by simp [Sock.bytes, folded]) (by simp [Sock.bytes, unfolded]) rfl rfl
    (fun _ => rfl) (fun _ => by simp [counting]) with ⟨bytes, v, h1, -⟩ | h1
  · rw [hp] at h1; cases h1
  · rw [hp] at h1; exact hn h1.symm

/-! ### C136: values that are not UTF-8 -/

/-- the bytes of a request with one more header, whose value is any bytes -/
def Spec.WireReq.withRaw (q : WireReq) (pre post : List (Str × Str)) (n : Str) (v : Bytes) : Bytes :=
  crlfB.intercalate (utf8 q.line :: pre.map (fun h => utf8 (wireHeader h)) ++
    (utf8 (n ++ c!": ") ++ v) :: post.map (fun h => utf8 (wireHeader h))) ++ blankLine ++ q.body

/-- The full claim of C136 (RFC 7230 section 3.2.4): the bytes from 0x80 on in the value of a header are opaque. So if
neither the server nor a handler looks at the header, the request is answered as without it. -/
def C136_statement : Prop :=
  ∀ (P : Str → Prop) (calls : List (Call (Nat × Response))) (sv : Server Nat) (q : WireReq)
    (pre post : List (Str × Str)) (n : Str) (v : Bytes) (s s' : Sock) (w : Nat),
    FairL calls → (logOfL calls).length < 2 ^ 64 → execL Router.new calls = .ok sv.router →
    (∀ e ∈ logOfL calls, LooksOnlyAt P e.handler) → q.headers = pre ++ post → q.Framed →
    (n ≠ [] ∧ ∀ c ∈ n, isTchar c) → ¬ P (lowered n) → lowered n ∉ [c!"content-length", c!"cookie", c!"host"] →
    (∀ b ∈ v, 0x80 ≤ b.toNat) → s.bytes = q.bytes → s'.bytes = q.withRaw pre post n v → s.fin = .eof → s'.fin = .eof →
    (∀ k, sv.allocOk k = true) → (∀ w, 0 ≤ sv.clock w) → q.body.length ≤ i64Max → sv.serve w s = sv.serve w s'

theorem utf8_lines (l : Str) (ls : List Str) :
    utf8 (crlf.intercalate (l :: ls)) = crlfB.intercalate (utf8 l :: ls.map utf8) := by
  induction ls generalizing l with
  | nil => simp [List.intercalate]
  | cons m ls ih => rw [intercalate_cons_cons, List.map_cons, intercalate_cons_cons, utf8_append, utf8_append, ih,
      utf8_crlf]

theorem withRaw_utf8 (q : WireReq) (pre post : List (Str × Str)) (n t : Str) :
    q.withRaw pre post n (utf8 t) = { q with headers := pre ++ (n, t) :: post }.bytes := by
  unfold WireReq.bytes WireReq.withRaw
  rw [utf8_lines]
  simp [wireHeader, WireReq.line, utf8_append, Function.comp_def]

theorem blank_not_in_raw (l : Bytes) (ls : List Bytes) (hl : ∀ x ∈ l :: ls, 13 ∉ x ∧ x ≠ []) (t : Bytes)
    {j : Nat} (h : OccursAt (crlfB.intercalate (l :: ls) ++ (crlfB ++ t)) blankLine j) :
    (crlfB.intercalate (l :: ls)).length ≤ j := by
  induction ls generalizing l j with
  | nil =>
    have e : crlfB.intercalate [l] = l := by simp [List.intercalate]
    rw [e] at h ⊢
    exact blank_after (hl l (by simp)).1 h
  | cons l' ls ih =>
    rw [intercalate_cons_cons] at h ⊢
    simp only [List.append_assoc] at h ⊢
    have h1 := blank_after (hl l (by simp)).1 h
    have h2 := occursAt_drop h h1
    generalize hk : j - l.length = k at h2
    obtain ⟨x, r, hxr, hx⟩ : ∃ x r, crlfB.intercalate (l' :: ls) = x :: r ∧ x ≠ 13 := by
      obtain ⟨x, m, rfl⟩ := List.exists_cons_of_ne_nil (hl l' (by simp)).2
      refine ⟨x, (crlfB.intercalate ((x :: m) :: ls)).tail, ?_, fun h0 => (hl (x :: m) (by simp)).1 (by simp [h0])⟩
      cases ls <;> simp [List.intercalate]
    have hk2 : 2 ≤ k := by
      rcases Nat.lt_or_ge k 2 with hlt | hge
      · exfalso
        have hk' : k = 0 ∨ k = 1 := by omega
        rcases hk' with rfl | rfl
        · have e := occursAt_getElem h2 2 (by decide)
          rw [hxr] at e
          simp [crlfB, blankLine] at e
          exact hx e
        · have e := occursAt_getElem h2 0 (by decide)
          simp [crlfB, blankLine] at e
      · exact hge
    have h3 := occursAt_drop (l := crlfB) h2 (by simpa [crlfB] using hk2)
    have h4 := ih l' (fun x hx => hl x (by simp at hx ⊢; right; exact hx)) h3
    simp only [List.length_append]
    have : crlfB.length = 2 := rfl
    omega

/-- A head that is not UTF-8 is answered by the 400 page before anything of it is looked at, whatever follows and
however the stream ends; no handler runs. -/
theorem C136_refused (sv : Server W) (w : W) (s : Sock) (head rest : Bytes) (h : FirstSplit s.bytes blankLine head rest)
    (hu : ∀ text, head ≠ utf8 text) (hc : 0 ≤ sv.clock w) : Page sv w s w c!"400" c!"BAD REQUEST" := by
  have hr := ((C25_head_from_bytes s).2 _ _ h).2 (fun t ht => absurd ht (hu t))
  refine page_of 21 hc ?_ (by decide +kernel) (by decide +kernel)
  unfold Server.serve
  simp only [hr, Io.bind_ok]
  rfl

theorem intercalate_mid (ls : List Bytes) (x : Bytes) (cs : List Bytes) :
    ∃ A C, crlfB.intercalate (ls ++ x :: cs) = A ++ x ++ C ∧ (C = [] ∨ ∃ C', C = 13 :: C') := by
  induction ls with
  | nil =>
    cases cs with
    | nil => exact ⟨[], [], by simp [List.intercalate], .inl rfl⟩
    | cons c cs =>
      refine ⟨[], crlfB ++ crlfB.intercalate (c :: cs), ?_, .inr ⟨_, rfl⟩⟩
      rw [List.nil_append, intercalate_cons_cons]; simp
  | cons l ls ih =>
    obtain ⟨A, C, h1, h2⟩ := ih
    refine ⟨l ++ crlfB ++ A, C, ?_, h2⟩
    cases hls : ls ++ x :: cs with
    | nil => simp at hls
    | cons y ys => rw [List.cons_append, hls, intercalate_cons_cons, ← hls, h1]; simp

/-- So one such value is enough, also in a header nobody looks at: if it is not UTF-8, and has no carriage return,
the answer is 400. -/
theorem C136_value (sv : Server W) (w : W) (s : Sock) (q : WireReq) (hq : q.Framed) (pre post : List (Str × Str))
    (hp : q.headers = pre ++ post) (n : Str) (v : Bytes) (hn : '\r' ∉ n) (hv : 13 ∉ v) (hu : ∀ t, v ≠ utf8 t)
    (hb : s.bytes = q.withRaw pre post n v) (hc : 0 ≤ sv.clock w) : Page sv w s w c!"400" c!"BAD REQUEST" := by
  have hlines : ∀ x ∈ utf8 q.line :: (pre.map (fun h => utf8 (wireHeader h)) ++
      (utf8 (n ++ c!": ") ++ v) :: post.map (fun h => utf8 (wireHeader h))), 13 ∉ x ∧ x ≠ [] := by
    have hcr : ∀ h ∈ pre ++ post, 13 ∉ utf8 (wireHeader h) ∧ utf8 (wireHeader h) ≠ [] := by
      intro h hh
      obtain ⟨h1, h2⟩ := hq.header_cr (h := h) (by rw [hp]; exact hh)
      exact ⟨cr_not_mem_utf8 h1, fun h0 => h2 (utf8_injective (by rw [h0]; rfl))⟩
    intro x hx
    simp only [List.mem_cons, List.mem_append, List.mem_map] at hx
    rcases hx with rfl | ⟨h, hh, rfl⟩ | rfl | ⟨h, hh, rfl⟩
    · exact ⟨cr_not_mem_utf8 hq.line_cr, fun h0 => by
        have : q.line = [] := utf8_injective (by rw [h0]; rfl)
        simp [WireReq.line] at this⟩
    · exact hcr h (by simp [hh])
    · refine ⟨?_, by simp [utf8_append]⟩
      rw [List.mem_append]
      rintro (h | h)
      · exact cr_not_mem_utf8 (by simp [hn]) h
      · exact hv h
    · exact hcr h (by simp [hh])
  refine C136_refused sv w s (rest := q.body) (head := crlfB.intercalate (utf8 q.line :: (pre.map (fun h => utf8 (wireHeader h)) ++
      (utf8 (n ++ c!": ") ++ v) :: post.map (fun h => utf8 (wireHeader h))))) ⟨hb, fun j hj ho => ?_⟩ ?_ hc
  · rw [hb, WireReq.withRaw, List.append_assoc, show blankLine = crlfB ++ crlfB from rfl, List.append_assoc] at ho
    have := blank_not_in_raw _ _ hlines _ ho
    omega
  · intro text ht
    obtain ⟨A, C, h1, h2⟩ := intercalate_mid (utf8 q.line :: pre.map (fun h => utf8 (wireHeader h)))
      (utf8 (n ++ c!": ") ++ v) (post.map (fun h => utf8 (wireHeader h)))
    rw [← List.cons_append, h1] at ht
    have e : utf8 text = (A ++ utf8 (n ++ c!":")) ++ 32 :: (v ++ C) := by
      rw [← ht, show n ++ c!": " = (n ++ c!":") ++ c!" " by simp, utf8_append (n ++ c!":"),
        show utf8 c!" " = [32] by decide]
      simp
    obtain ⟨-, t, -, -, ht⟩ := utf8_split_ascii (by decide) e
    rcases h2 with rfl | ⟨C', rfl⟩
    · exact hu t (by rw [ht, List.append_nil])
    · obtain ⟨t', -, -, ht', -⟩ := utf8_split_ascii (by decide) ht
      exact hu t' ht'.symm

/-- What holds of C136: if the bytes happen to be UTF-8, the header is ignored as any other. Missing: other
values, which are refused (`C136_value`). -/
theorem C136_utf8_partial (P : Str → Prop) (calls : List (Call (W × Response))) (hf : FairL calls)
    (hn : (logOfL calls).length < 2 ^ 64) (sv : Server W) (hsv : execL Router.new calls = .ok sv.router)
    (hl : ∀ e ∈ logOfL calls, LooksOnlyAt P e.handler)
    (q : WireReq) (pre post : List (Str × Str)) (n : Str) (v : Bytes) (hp : q.headers = pre ++ post) (hq : q.Framed)
    (hname : n ≠ [] ∧ ∀ c ∈ n, isTchar c) (hP : ¬ P (lowered n))
    (hk : lowered n ∉ [c!"content-length", c!"cookie", c!"host"]) (hv : ∀ b ∈ v, 0x80 ≤ b.toNat)
    (t : Str) (hu : v = utf8 t)
    (s s' : Sock) (hb : s.bytes = q.bytes) (hb' : s'.bytes = q.withRaw pre post n v)
    (halloc : ∀ k ≤ q.body.length, sv.allocOk k = true) (hmax : q.body.length ≤ i64Max) (w : W) :
    sv.serve w s = sv.serve w s' := by
  subst hu
  have hhigh : ∀ c ∈ t, 128 ≤ c.toNat := by
    intro c hc
    rcases Nat.lt_or_ge c.toNat 128 with h | h
    · have hm : UInt8.ofNat c.toNat ∈ utf8 t := by
        simp only [utf8, List.mem_flatMap]
        exact ⟨c, hc, by rw [utf8EncodeChar_ascii h]; simp⟩
      have := hv _ hm
      rw [UInt8.toNat_ofNat'] at this
      omega
    · exact h
  refine C130_ignored P calls hf hn sv hsv hl q pre post n t hp hq hname ⟨fun c hc => ?_, fun c hc => ?_⟩ hP hk s s' hb
    (by rw [hb', withRaw_utf8]) halloc hmax w
  · rintro ⟨h | h, -⟩ <;> have := hhigh c hc <;> omega
  · have := hhigh c (List.mem_of_mem_head? hc)
    rintro (rfl | rfl) <;> exact absurd this (by decide)

namespace LinesExample
open TargetExample FieldsExample UnknownExample

/-- `é` in Latin-1 and in UTF-8 -/
def latin : Bytes := [0xE9]
def unicode : Bytes := [0xC3, 0xA9]

theorem latin_not (t : Str) : latin ≠ utf8 t := by
  intro h
  have : fromUtf8 latin = some t := by rw [h, fromUtf8_utf8]
  rw [show fromUtf8 latin = none by decide +kernel] at this
  cases this

def asksRaw (v : Bytes) : Sock := ⟨[{ q [c!"a"] with headers := [(c!"A", c!"1")] }.withRaw [(c!"A", c!"1")] [] c!"X" v], .eof⟩

example : Page (demo tells) () (asksRaw latin) () c!"400" c!"BAD REQUEST" :=
  C136_value (demo tells) () _ { q [c!"a"] with headers := [(c!"A", c!"1")] } (framed _ (by decide) (by decide) (by decide))
    [(c!"A", c!"1")] [] rfl c!"X" latin (by decide) (by decide) latin_not (by simp [asksRaw, Sock.bytes]) (by decide)

/-- the end of the head alone, and the stream stays open -/
example : Page (demo tells) () ⟨[latin ++ blankLine], .silent⟩ () c!"400" c!"BAD REQUEST" :=
  C136_refused (demo tells) () _ latin [] (by
    refine ⟨by simp [Sock.bytes], fun j hj ho => ?_⟩
    have : j = 0 := by simp [latin] at hj; omega
    subst this
    exact absurd (occursAt_getElem ho 0 (by decide)) (by simp [Sock.bytes, latin, blankLine])) latin_not (by decide)

example (router : Router (Unit × Response)) (hr : execL Router.new [.add tells] = .ok router) :
    Server.serve { empty with router } () (asks [(c!"A", c!"1")]) =
      Server.serve { empty with router } () (asksRaw unicode) :=
  C136_utf8_partial (· = c!"a") [.add tells] (by simp [FairL, Fair]) (by simp [logOfL, logOf]) { empty with router } hr
    (by intro e he; simp only [logOfL, logOf, List.append_nil, List.mem_singleton] at he; subst he; exact tells_only)
    { q [c!"a"] with headers := [(c!"A", c!"1")] } [(c!"A", c!"1")] [] c!"X" unicode rfl
    (framed _ (by decide) (by decide) (by decide)) (by decide) (by decide +kernel) (by decide +kernel) (by decide)
    c!"é" (by decide) _ _ (by simp [FieldsExample.asks, Sock.bytes]) (by simp [asksRaw, Sock.bytes]) (fun _ _ => rfl) (by decide) ()

end LinesExample

open LinesExample FieldsExample TargetExample FieldExample in
/-- C136 is false of the code. -/
theorem C136_counterexample : ¬ C136_statement := by
  intro h
  have h1 := h (fun _ => False) [] (counting false) { q [c!"a"] with headers := [(c!"A", c!"1")] } [(c!"A", c!"1")] []
    c!"X" latin (asks [(c!"A", c!"1")]) (asksRaw latin) 0 (by simp [FairL]) (by simp [logOfL]) (by simp [execL, counting])
    (by simp [logOfL]) rfl (framed _ (by decide) (by decide) (by decide)) (by decide) (by simp) (by decide +kernel)
    (by decide) (by simp [FieldsExample.asks, Sock.bytes]) (by simp [asksRaw, Sock.bytes]) rfl rfl (fun _ => rfl)
    (fun _ => by simp [counting]) (by decide)
  revert h1
  decide +kernel

end Octane
