import Verif.Props.Unknown
import Verif.Props.TargetChars
import Verif.Props.Cost
/-
C149: the size of a request.
-/
namespace Octane
open Spec
variable {W : Type u}

/-- The full claim of C149: there is a size beyond which a request is refused, by 400, 413, 414 or 431, before any handler
is run. -/
def C149_statement : Prop :=
  ∃ limit : Nat, ∀ (sv : Server Unit) (q : WireReq) (s : Sock), q.Good → limit < q.bytes.length → s.bytes = q.bytes →
    (∀ k, sv.allocOk k = true) → q.body.length ≤ i64Max → (∀ w, 0 ≤ sv.clock w) →
    ∃ code reason, code ∈ [c!"400", c!"413", c!"414", c!"431"] ∧ Page sv () s () code reason

/-- the request with a header `X` of `n` characters more -/
def Spec.padded (q : WireReq) (n : Nat) : WireReq := { q with headers := q.headers ++ [(c!"X", List.replicate n 'x')] }

theorem padded_values (q : WireReq) (n : Nat) (k : Str) (hk : k ≠ c!"x") :
    joined (padded q n).headers k = joined q.headers k := by
  unfold joined padded
  have : lowered c!"X" = c!"x" := by decide +kernel
  simp only [List.filter_append, List.filter_cons, this]
  rw [if_neg (by simpa using hk.symm)]
  simp

theorem padded_good {q : WireReq} (hq : q.Good) (n : Nat) : (padded q n).Good := by
  refine ⟨⟨hq.method, hq.pieces, hq.inside, hq.version, ⟨by simp [padded], fun h hm => ?_⟩, ?_⟩, fun v hv => ?_⟩
  · simp only [padded, List.mem_append, List.mem_cons, List.not_mem_nil, or_false] at hm
    rcases hm with hm | rfl
    · exact hq.headers.2 h hm
    · refine ⟨show c!"X" ≠ [] by decide, show ∀ c ∈ c!"X", isTchar c by decide, fun c hc => ?_, fun c hc => ?_⟩
      · rw [List.eq_of_mem_replicate hc]; decide
      · have : c = 'x' := by
          cases n with
          | zero => simp at hc
          | succ n => simpa [List.replicate_succ] using hc.symm
        rw [this]; decide
  · have h := hq.length
    unfold DeclaredLength at h ⊢
    simp only [padded_values q n c!"content-length" (by decide)]
    exact h
  · rw [padded_values q n c!"cookie" (by decide)] at hv
    exact hq.cookies v hv

theorem headers_le_bytes (q : WireReq) (h : Str × Str) (hm : h ∈ q.headers) : h.2.length ≤ q.bytes.length := by
  have key : ∀ ls : List Str, ∀ x ∈ ls, x.length ≤ (crlf.intercalate ls).length := by
    intro ls
    induction ls with
    | nil => simp
    | cons a ls ih =>
      intro x hx
      cases ls with
      | nil => simp only [List.mem_cons, List.not_mem_nil, or_false] at hx; subst hx; simp [List.intercalate]
      | cons b ls =>
        rw [intercalate_cons_cons]
        simp only [List.length_append]
        rcases List.mem_cons.1 hx with rfl | hx
        · omega
        · have := ih x hx; omega
  have h1 := key (q.line :: q.headers.map wireHeader) (wireHeader h) (by simp; exact .inr ⟨_, _, hm, rfl⟩)
  have h2 : h.2.length ≤ (wireHeader h).length := by simp [wireHeader]; omega
  have h3 := length_le_utf8 (crlf.intercalate (q.line :: q.headers.map wireHeader))
  unfold WireReq.bytes
  simp only [List.length_append]
  omega

/-- What happens instead, for the head: every request is answered the same with a header of any length more, when no
handler looks at that header. -/
theorem C149_header (P : Str → Prop) (hP : ¬ P c!"x") (calls : List (Call (W × Response))) (hf : FairL calls)
    (hn : (logOfL calls).length < 2 ^ 64) (sv : Server W) (hsv : execL Router.new calls = .ok sv.router)
    (hl : ∀ e ∈ logOfL calls, LooksOnlyAt P e.handler) (q : WireReq) (hq : q.Good) (n : Nat)
    (s s' : Sock) (hb : s.bytes = q.bytes) (hb' : s'.bytes = (padded q n).bytes)
    (halloc : ∀ k ≤ q.body.length, sv.allocOk k = true) (hmax : q.body.length ≤ i64Max) (w : W) :
    n ≤ s'.bytes.length ∧ sv.serve w s' = sv.serve w s := by
  have hg := padded_good hq n
  have hlow : lowered c!"X" = c!"x" := by decide +kernel
  refine ⟨?_, ?_⟩
  · rw [hb']
    simpa using headers_le_bytes (padded q n) (c!"X", List.replicate n 'x') (by simp [padded])
  · have hh := hg.headers.2 (c!"X", List.replicate n 'x') (by simp [padded])
    exact (C130_ignored P calls hf hn sv hsv hl q q.headers [] c!"X" (List.replicate n 'x') (by simp) hq.toFramed
      ⟨hh.1, hh.2.1⟩ hh.2.2 (by rw [hlow]; exact hP) (by rw [hlow]; decide) s s' hb hb' halloc hmax w).symm

/-- For the target: a request with a segment of any length more is read, and the segment is given to the handlers. -/
theorem C149_target (feat : Features) (allocOk : Nat → Bool) (q : WireReq) (hq : q.Good) (n : Nat) (h0 : 0 < n) (s : Sock)
    (hb : s.bytes = { q with pieces := q.pieces ++ [List.replicate n 'x'] }.bytes)
    (halloc : ∀ k ≤ q.body.length, allocOk k = true) (hmax : q.body.length ≤ i64Max) :
    ∃ req, Reads feat allocOk s req ∧ req.requestLine.path = resolve q.pieces ++ [List.replicate n 'x'] := by
  have hname : isName (List.replicate n 'x') = true := by
    have hne : ∀ t : Str, t ≠ [] → 'x' ∉ t → List.replicate n 'x' ≠ t := by
      intro t ht hx he
      cases t with
      | nil => exact ht rfl
      | cons a t =>
        have : a ∈ List.replicate n 'x' := by rw [he]; simp
        exact hx (by rw [← List.eq_of_mem_replicate this]; simp)
    have h1 := hne c!"." (by decide) (by decide)
    have h2 := hne c!".." (by decide) (by decide)
    have h3 : List.replicate n 'x' ≠ [] := by simp; omega
    simp only [isName, Bool.not_eq_true', Bool.or_eq_false_iff, beq_eq_false_iff_ne]
    exact ⟨⟨h3, h1⟩, h2⟩
  have hup : isUp (List.replicate n 'x') = false := by
    cases hx : isUp (List.replicate n 'x') with
    | false => rfl
    | true => simp_all [isName, isUp]
  have hg : { q with pieces := q.pieces ++ [List.replicate n 'x'] }.Good := by
    refine ⟨⟨hq.method, ⟨by simp, fun p hp => ?_⟩, ?_, hq.version, hq.headers, hq.length⟩, hq.cookies⟩
    · simp only [List.mem_append, List.mem_cons, List.not_mem_nil, or_false] at hp
      rcases hp with hp | rfl
      · exact hq.pieces.2 p hp
      · refine ⟨fun h => ?_, fun h => ?_, fun h => ?_⟩ <;> exact absurd (List.eq_of_mem_replicate h) (by decide)
    · rintro ⟨k, hk⟩
      refine hq.inside ⟨k, ?_⟩
      simp only [List.take_append] at hk
      rw [List.countP_append, List.countP_append] at hk
      have : ((List.take (k - q.pieces.length) [List.replicate n 'x']).countP isUp) = 0 := by
        refine List.countP_eq_zero.2 fun p hp => ?_
        have := List.mem_of_mem_take hp
        simp only [List.mem_cons, List.not_mem_nil, or_false] at this
        simp [this, hup]
      omega
  obtain ⟨req, h1, h2⟩ := C147_read feat allocOk _ hg s hb halloc hmax
  exact ⟨req, h1, by rw [h2, resolve_snoc _ _ hname]⟩

/-- For the body: any body is read and given to the handlers, if its length is declared and memory can be had. -/
theorem C149_body (feat : Features) (allocOk : Nat → Bool) (q : WireReq) (hq : q.Good)
    (hno : ∀ h ∈ q.headers, lowered h.1 ≠ c!"content-length") (body : Bytes) (t : Str)
    (ht : Numeral body.length t) (s : Sock)
    (hb : s.bytes = { q with headers := q.headers ++ [(c!"Content-Length", t)], body := body }.bytes)
    (halloc : ∀ k ≤ body.length, allocOk k = true) (hmax : body.length ≤ i64Max) :
    ∃ req, Reads feat allocOk s req ∧ req.body = body := by
  have hlow : lowered c!"Content-Length" = c!"content-length" := by decide +kernel
  have hval : joined (q.headers ++ [(c!"Content-Length", t)]) c!"content-length" =
      some (t) := by
    have hz : q.headers.filter (fun h => decide (lowered h.1 = c!"content-length")) = [] :=
      List.filter_eq_nil_iff.2 fun h hm => by simpa using hno h hm
    have hz' : (q.headers ++ [(c!"Content-Length", t)]).filter
        (fun h => decide (lowered h.1 = c!"content-length")) = [(c!"Content-Length", t)] := by
      rw [List.filter_append, hz, List.filter_cons, if_pos (by simpa using hlow)]
      rfl
    unfold joined
    rw [hz']
    simp [List.intercalate]
  have hother : ∀ k, k ≠ c!"content-length" →
      joined (q.headers ++ [(c!"Content-Length", t)]) k = joined q.headers k := by
    intro k hk
    unfold joined
    rw [List.filter_append, List.filter_cons, if_neg (by simp only [hlow, decide_eq_true_eq]; exact hk.symm)]
    simp
  have hg : { q with headers := q.headers ++ [(c!"Content-Length", t)], body := body }.Good := by
    refine ⟨⟨hq.method, hq.pieces, hq.inside, hq.version, ⟨by simp, fun h hm => ?_⟩, ?_⟩, fun v hv => ?_⟩
    · simp only [List.mem_append, List.mem_cons, List.not_mem_nil, or_false] at hm
      rcases hm with hm | rfl
      · exact hq.headers.2 h hm
      · refine ⟨show c!"Content-Length" ≠ [] by decide, show ∀ c ∈ c!"Content-Length", isTchar c by decide,
          fun c hc hbad => ?_, fun c hc hbad => ?_⟩
        · have := ht.2.1 c hc
          simp only [isRefusedControl, isControl, Char.le_def, UInt32.le_iff_toNat_le] at *
          have a : ('0' : Char).val.toNat = 48 := rfl
          have b : ('9' : Char).val.toNat = 57 := rfl
          simp only [Char.toNat] at *
          omega
        · have := ht.2.1 c (List.mem_of_head? hc)
          rcases hbad with rfl | rfl <;> revert this <;> decide
    · refine .inl ⟨_, hval, ?_⟩
      exact ⟨t, .inl rfl, ht.1, ht.2.1, ht.2.2.2.symm, by
        simp only [i64Max] at hmax; show body.length < 2 ^ 64; omega⟩
    · exact hq.cookies v (by rw [← hother c!"cookie" (by decide)]; exact hv)
  obtain ⟨req, h1, -, -, -, -, -, -, -, h2, -⟩ := reads_wire feat allocOk _ hg s [] (by simpa using hb) (.inl rfl) halloc hmax
  exact ⟨req, h1, h2⟩

/-- What holds of C149: a request that declares more than 9223372036854775807 bytes of body is never answered, nor given to
a handler, whatever the client does. Missing: any other limit, and the answer. -/
theorem C149_limit_partial (sv : Server W) (w : W) (s : Sock) (n : Nat) (head rest : Bytes) (text line hdrs : Str)
    (hs : List (Str × Str)) (h1 : FirstSplit s.bytes blankLine head rest) (h2 : head = utf8 text)
    (h3 : FirstSplit text crlf line hdrs) (h4 : BlockOk sv.feat.faithful hdrs hs)
    (h5 : LineOk sv.feat.faithful line) (h6 : DeclaredLength (joined hs) n) (hn : 9223372036854775807 < n)
    (hlen : s.bytes.length ≤ i64Max) :
    ∀ a, sv.serve w s ≠ .ok a := by
  obtain ⟨rem, reader, r1, r2, r3⟩ := ((C25_head_from_bytes s).2 _ _ h1).1 line hdrs ⟨text, h2, h3⟩
  obtain ⟨H, e1, -, e3⟩ := Headers.parse_block h4
  obtain ⟨rl, e4⟩ := (RequestLine.parse_some_iff _ _).2 h5
  have hc : contentLength H = n := DeclaredLength.unique (contentLength_declared H) (by rw [funext e3]; exact h6)
  have hrem : rem.length < n := by
    have := congrArg List.length h1.1
    have := congrArg List.length r2
    simp only [List.length_append, i64Max] at *
    omega
  have hf : ∀ a, Request.fromRaw sv.feat sv.allocOk H rl rem reader ≠ .ok a := by
    unfold Request.fromRaw
    simp only [hc]
    rw [if_pos (by omega), if_pos hrem]
    intro a
    split
    · simp [Io.bind]
    · split
      · simp [Io.bind]
      · cases readExact (n - rem.length) reader with
        | ok x =>
          cases x with
          | none => simp [Io.bind]
          | some x => simp only [Io.bind]; rw [if_pos (by simp only [i64Max]; omega)]; simp
        | _ => simp [Io.bind]
  intro a
  unfold Server.serve
  rw [r1, Io.bind_ok]
  simp only [e1, e4, Res.bind_ok', Res.unwrap_some, Io.ofRes_ok, Io.bind_ok]
  cases hx : Request.fromRaw sv.feat sv.allocOk H rl rem reader with
  | ok x => exact absurd hx (hf x)
  | _ => simp [Io.bind]

namespace LargeExample
open StrictExample FieldsExample

theorem bytes_one (b : Bytes) : (⟨[b], .eof⟩ : Sock).bytes = b := by simp [Sock.bytes]

/-- `GET /a` with a header of a million characters is answered like `GET /a` -/
example (h : Closure (Unit × Response)) (hl : LooksOnlyAt (· = c!"a") h) :
    (demo h).serve () ⟨[(padded qa 1000000).bytes], .eof⟩ = (demo h).serve () ⟨[qa.bytes], .eof⟩ := by
  refine (C149_header (· = c!"a") (by decide) [.add h] (by simp [FairL, Fair]) (by simp [logOfL, logOf]) (demo h) rfl ?_ qa
    qa_good 1000000 _ _ (bytes_one _) (bytes_one _) (fun _ _ => rfl) (by decide) ()).2
  intro e he
  simp only [logOfL, logOf, List.append_nil, List.mem_cons, List.not_mem_nil, or_false] at he
  subst he
  exact hl

/-- a body of a million bytes -/
example : ∃ req, Reads .default (fun _ => true)
    ⟨[{ qa with headers := qa.headers ++ [(c!"Content-Length", c!"1000000")], body := List.replicate 1000000 65 }.bytes],
      .eof⟩ req ∧ req.body = List.replicate 1000000 65 :=
  C149_body .default (fun _ => true) qa qa_good (by decide +kernel) (List.replicate 1000000 65) c!"1000000"
    (by rw [List.length_replicate]; exact ⟨by decide, by decide, by decide, by decide⟩) _ (bytes_one _)
    (fun _ _ => rfl) (by rw [List.length_replicate]; decide)

/-- and a segment of as many characters -/
example : ∃ req, Reads .default (fun _ => true)
    ⟨[{ qa with pieces := qa.pieces ++ [List.replicate 1000000 'x'] }.bytes], .eof⟩ req ∧
    req.requestLine.path = [c!"a", List.replicate 1000000 'x'] :=
  C149_target .default (fun _ => true) qa qa_good 1000000 (by decide) _ (bytes_one _) (fun _ _ => rfl) (by decide)

/-- the hypotheses of `C149_limit_partial`, by a client that closes -/
example : ∀ a, empty.serve () ⟨[utf8 c!"GET / HTTP/1.1\r\nContent-Length: 9223372036854775808\r\n\r\n"], .eof⟩ ≠ .ok a := by
  obtain ⟨head, text, line, hdrs, hs, h1, h2, h3, h4, h5, h6⟩ := declares empty.feat.faithful
    (Sock.bytes ⟨[utf8 c!"GET / HTTP/1.1\r\nContent-Length: 9223372036854775808\r\n\r\n"], .eof⟩)
    c!"9223372036854775808" 9223372036854775808
    ⟨c!"9223372036854775808", .inl rfl, by decide, by decide, by decide, by decide⟩ (by decide +kernel)
  exact C149_limit_partial empty () _ _ head [] text line hdrs hs h1 h2 h3 h4 h5 h6 (by decide) (by decide +kernel)

end LargeExample

open LargeExample StrictExample in
/-- C149 is false of the code: for every limit there is a request above it, for which a server on which nothing is
registered says 404, as for any other. -/
theorem C149_counterexample : ¬ C149_statement := by
  rintro ⟨limit, h⟩
  have hg := padded_good qa_good (limit + 1)
  have hlen : limit < (padded qa (limit + 1)).bytes.length := by
    have := headers_le_bytes (padded qa (limit + 1)) (c!"X", List.replicate (limit + 1) 'x') (by simp [padded])
    simp only [List.length_replicate] at this
    omega
  have hb : (⟨[(padded qa (limit + 1)).bytes], .eof⟩ : Sock).bytes = (padded qa (limit + 1)).bytes := bytes_one _
  obtain ⟨code, reason, hcode, bytes', v', g1, g2, g3, -, -, g6⟩ := h empty (padded qa (limit + 1)) _ hg hlen hb
    (fun _ => rfl) (show qa.body.length ≤ i64Max by decide) (by simp [empty])
  obtain ⟨bytes, v, h1, h2, h3, -⟩ := C69_unmatched (W := Unit) empty [] (by simp [FairL]) (by decide) rfl
    (padded qa (limit + 1)) hg _ hb (fun _ _ => rfl) (show qa.body.length ≤ i64Max by decide) .get
    (show (qa.method, RequestMethod.get) ∈ methodTable by decide)
    (fun _ => ⟨(c!"Host", c!"b"), by simp [padded, qa], by decide +kernel⟩) (by simp [logOfL]) () (by simp [empty])
  rw [h1] at g1
  simp only [Io.ok.injEq, Prod.mk.injEq, true_and] at g1
  subst g1
  rw [g6 v h2, g3] at h3
  subst h3
  exact absurd hcode (by decide)

end Octane
