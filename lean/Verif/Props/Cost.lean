import Verif.Proof.Infix
import Verif.Proof.CostHeaders
import Verif.Proof.CostRoute
import Verif.Props.Server
/-
C92 (memory), C93 (time to read the head), C94 (time to parse the headers), C95 (time to find the handlers).

The counted functions of `Model/Cost.lean` return the plain result and a count; `C93_same`, `C94_same` and
`C95_same` say that the result is that of the function the server runs.
-/
namespace Octane
open Spec

/-! ### C92 -/

section
variable {W : Type u}

/-- The full claim of C92: if memory can be had for what the client sent and one more buffer of 512 bytes,
the process is not aborted for want of memory. -/
def C92_statement : Prop :=
  ∀ (sv : Server Unit) (s : Sock), (∀ k ≤ s.bytes.length + 512, sv.allocOk k = true) → sv.serve () s ≠ .abort

theorem fromRaw_abort {feat : Features} {allocOk : Nat → Bool} {H : Headers} {rl : RequestLine} {rem : Bytes}
    {reader : Sock} (h : Request.fromRaw feat allocOk H rl rem reader = .abort) :
    ∃ k, 0 < k ∧ k ≤ contentLength H ∧ allocOk k = false := by
  unfold Request.fromRaw at h
  simp only at h
  by_cases h0 : contentLength H > 0
  · rw [if_pos h0] at h
    by_cases h1 : rem.length < contentLength H
    · rw [if_pos h1] at h
      split at h
      · simp at h
      · split at h
        · rename_i ha
          exact ⟨contentLength H - rem.length, by omega, Nat.sub_le _ _, by simpa using ha⟩
        · have hre := (readExactLoop_spec (reader.bytes.length + 2) (contentLength H - rem.length) reader (by omega))
          have hcases : readExact (contentLength H - rem.length) reader = .pending ∨
              ∃ o, readExact (contentLength H - rem.length) reader = .ok o := by
            unfold readExact
            rcases Nat.lt_or_ge reader.bytes.length (contentLength H - rem.length) with hlt | hge
            · rw [hre.2 hlt]
              cases reader.fin <;> simp
            · obtain ⟨s', e, -⟩ := hre.1 hge
              exact .inr ⟨_, e⟩
          rcases hcases with e | ⟨o, e⟩
          · rw [e] at h; simp at h
          · rw [e] at h
            cases o with
            | none => simp at h
            | some t =>
              simp only [Io.bind_ok] at h
              split at h
              · simp at h
              · split at h
                · rename_i ha
                  exact ⟨_, h0, Nat.le_refl _, by simpa using ha⟩
                · simp only [Io.bind_ok] at h
                  cases hp : Request.parse feat rl H (rem ++ t.1) <;> rw [hp] at h <;> simp at h
    · rw [if_neg h1] at h
      simp only [Io.bind_ok] at h
      cases hp : Request.parse feat rl H rem <;> rw [hp] at h <;> simp at h
  · rw [if_neg h0] at h
    simp only [Io.bind_ok] at h
    cases hp : Request.parse feat rl H [] <;> rw [hp] at h <;> simp at h

/-- The process is aborted only over the length the client declares: there is a complete head declaring `n`
bytes, and some amount up to `n` that the allocator refuses. -/
theorem C92_abort_only (sv : Server W) (w : W) (s : Sock) (h : sv.serve w s = .abort) :
    ∃ n k, AsksBody sv.feat.faithful s.bytes n ∧ 0 < k ∧ k ≤ n ∧ sv.allocOk k = false := by
  rcases Classical.em (Occurs s.bytes blankLine) with ho | ho
  · obtain ⟨head, rest, hsplit⟩ := FirstSplit.exists ho
    rcases Classical.em (∃ text line hdrs, head = utf8 text ∧ FirstSplit text crlf line hdrs) with hg | hg
    · obtain ⟨text, line, hdrs, e1, e2⟩ := hg
      obtain ⟨rem, reader, r1, -, -⟩ := ((C25_head_from_bytes s).2 _ _ hsplit).1 line hdrs ⟨text, e1, e2⟩
      unfold Server.serve at h
      rw [r1, Io.bind_ok] at h
      simp only at h
      rcases Headers.parse_cases sv.feat.faithful hdrs with ⟨H, hH⟩ | hH
      · obtain ⟨b1, b2, b3⟩ := Headers.parse_some hH
        rw [hH] at h
        simp only [Res.bind_ok', Res.unwrap_some, Io.ofRes_ok, Io.bind_ok] at h
        cases hp : RequestLine.parse sv.feat.faithful line with
        | panic => rw [hp] at h; simp at h
        | ok o =>
          cases o with
          | none => rw [hp] at h; simp [Res.unwrap] at h
          | some rl =>
            rw [hp] at h
            simp only [Res.bind_ok', Res.unwrap_some, Io.ofRes_ok, Io.bind_ok] at h
            have hlok := (RequestLine.parse_some_iff _ _).1 ⟨rl, hp⟩
            cases hf : Request.fromRaw sv.feat sv.allocOk H rl rem reader with
            | panic => rw [hf] at h; simp at h
            | pending => rw [hf] at h; simp at h
            | abort =>
              obtain ⟨k, k1, k2, k3⟩ := fromRaw_abort hf
              refine ⟨contentLength H, k, ⟨head, rest, text, line, hdrs, H.raw.map hpair, hsplit, e1, e2, b1,
                hlok, ?_⟩, k1, k2, k3⟩
              rw [← funext b3]
              exact contentLength_declared H
            | ok o =>
              rw [hf] at h
              cases o with
              | none => cases hd : sv.declareError w .badRequest <;> simp [hd] at h
              | some req => cases hd : sv.handle w req <;> simp [hd] at h
      · rw [hH] at h; simp [Res.unwrap] at h
    · have hb : ∀ text, head = utf8 text → ¬ Occurs text crlf := by
        intro text ht ho
        obtain ⟨a, b, hab⟩ := FirstSplit.exists ho
        exact hg ⟨text, a, b, ht, hab⟩
      have e1 := ((C25_head_from_bytes s).2 _ _ hsplit).2 hb
      unfold Server.serve at h
      rw [e1, Io.bind_ok] at h
      cases hd : sv.declareError w .badRequest <;> simp [hd] at h
  · have e1 := (C25_head_from_bytes s).1 ho
    unfold Server.serve at h
    rw [e1] at h
    cases hfin : s.fin <;> rw [hfin] at h
    · simp only [Io.bind_ok] at h
      cases hd : sv.declareError w .badRequest <;> simp [hd] at h
    · simp at h
    · simp at h

/-- The part of C92 that holds: when the client declares no more than it sends, memory for what it sends is
enough. -/
theorem C92_partial (sv : Server W) (w : W) (s : Sock)
    (hd : ∀ n, AsksBody sv.feat.faithful s.bytes n → n ≤ s.bytes.length)
    (ha : ∀ k ≤ s.bytes.length, sv.allocOk k = true) : sv.serve w s ≠ .abort := by
  intro h
  obtain ⟨n, k, h1, -, h3, h4⟩ := C92_abort_only sv w s h
  rw [ha k (Nat.le_trans h3 (hd n h1))] at h4
  simp at h4

/-- The memory is asked for before a byte of the body has come: after any complete head declaring `n` bytes
(not 0 and at most `i64::MAX`), the process is aborted unless `n` bytes can be had, and holds them as long as
the client stays silent. -/
theorem C92_held_for_nothing (sv : Server W) (w : W) (s : Sock) (n : Nat) (head : Bytes) (text line hdrs : Str)
    (hs : List (Str × Str)) (h1 : FirstSplit s.bytes blankLine head []) (h2 : head = utf8 text)
    (h3 : FirstSplit text crlf line hdrs) (h4 : BlockOk sv.feat.faithful hdrs hs)
    (h5 : LineOk sv.feat.faithful line) (h6 : DeclaredLength (joined hs) n) (h0 : 0 < n)
    (hn : n ≤ i64Max) (hfin : s.fin = .silent) :
    sv.serve w s = if sv.allocOk n then .pending else .abort := by
  obtain ⟨rem, reader, r1, r2, r3⟩ := ((C25_head_from_bytes s).2 _ _ h1).1 line hdrs ⟨text, h2, h3⟩
  obtain ⟨rfl, hr⟩ := List.append_eq_nil_iff.1 r2
  obtain ⟨H, e1, -, e3⟩ := Headers.parse_block h4
  obtain ⟨rl, e4⟩ := (RequestLine.parse_some_iff _ _).2 h5
  have hc : contentLength H = n := DeclaredLength.unique (contentLength_declared H) (by rw [funext e3]; exact h6)
  have hre := (readExactLoop_spec (reader.bytes.length + 2) n reader (by omega)).2 (by rw [hr]; exact h0)
  rw [r3, hfin] at hre
  have hf : Request.fromRaw sv.feat sv.allocOk H rl [] reader = if sv.allocOk n then .pending else .abort := by
    unfold Request.fromRaw
    simp only [hc, List.length_nil, Nat.sub_zero]
    rw [if_pos h0, if_pos h0, if_neg (by omega)]
    cases sv.allocOk n with
    | false => rfl
    | true => simp only [Bool.not_true, Bool.false_eq_true, if_false, readExact, hre]; rfl
  unfold Server.serve
  rw [r1, Io.bind_ok]
  simp only [e1, e4, Res.bind_ok', Res.unwrap_some, Io.ofRes_ok, Io.bind_ok, hf]
  cases sv.allocOk n <;> rfl

/-- The bound, in figures: a length above 9223372036854775807 panics the task, whatever the memory; any other
that is not 0 aborts the process or makes it wait. -/
theorem C92_limit (sv : Server W) (w : W) (s : Sock) (n : Nat) (head : Bytes) (text line hdrs : Str)
    (hs : List (Str × Str)) (h1 : FirstSplit s.bytes blankLine head []) (h2 : head = utf8 text)
    (h3 : FirstSplit text crlf line hdrs) (h4 : BlockOk sv.feat.faithful hdrs hs)
    (h5 : LineOk sv.feat.faithful line) (h6 : DeclaredLength (joined hs) n) (h0 : 0 < n) (hfin : s.fin = .silent) :
    (9223372036854775807 < n → sv.serve w s = .panic) ∧
    (n ≤ 9223372036854775807 → sv.serve w s = if sv.allocOk n then .pending else .abort) := by
  refine ⟨fun hn => ?_, fun hn => C92_held_for_nothing sv w s n head text line hdrs hs h1 h2 h3 h4 h5 h6 h0
    (by simp only [i64Max]; omega) hfin⟩
  obtain ⟨rem, reader, r1, r2, r3⟩ := ((C25_head_from_bytes s).2 _ _ h1).1 line hdrs ⟨text, h2, h3⟩
  obtain ⟨rfl, hr⟩ := List.append_eq_nil_iff.1 r2
  obtain ⟨H, e1, -, e3⟩ := Headers.parse_block h4
  obtain ⟨rl, e4⟩ := (RequestLine.parse_some_iff _ _).2 h5
  have hc : contentLength H = n := DeclaredLength.unique (contentLength_declared H) (by rw [funext e3]; exact h6)
  have hf : Request.fromRaw sv.feat sv.allocOk H rl [] reader = .panic := by
    unfold Request.fromRaw
    simp only [hc, List.length_nil, Nat.sub_zero]
    rw [if_pos h0, if_pos h0, if_pos (by simp only [i64Max]; omega)]
    rfl
  unfold Server.serve
  rw [r1, Io.bind_ok]
  simp only [e1, e4, Res.bind_ok', Res.unwrap_some, Io.ofRes_ok, Io.bind_ok, hf]
  rfl

/-- a request that declares the length `v` and ends there -/
theorem declares (faithful : Bool) (bytes : Bytes) (v : Str) (n : Nat) (hv : IsU64 v n)
    (hb : bytes = utf8 (c!"GET / HTTP/1.1\r\nContent-Length: " ++ v ++ c!"\r\n\r\n")) :
    ∃ head text line hdrs hs, FirstSplit bytes blankLine head [] ∧ head = utf8 text ∧ FirstSplit text crlf line hdrs ∧
      BlockOk faithful hdrs hs ∧ LineOk faithful line ∧ DeclaredLength (joined hs) n := by
  have hdig : ∀ c ∈ v, c = '+' ∨ (48 ≤ c.toNat ∧ c.toNat ≤ 57) := by
    obtain ⟨ds, h1, -, h3, -⟩ := hv
    have h3' : ∀ c ∈ ds, 48 ≤ c.toNat ∧ c.toNat ≤ 57 := fun c hc => h3 c hc
    intro c hc
    rcases h1 with rfl | rfl
    · exact .inr (h3' c hc)
    · rcases List.mem_cons.1 hc with rfl | hc
      · exact .inl rfl
      · exact .inr (h3' c hc)
  have hcr : '\r' ∉ v := by
    intro h
    rcases hdig _ h with h | h
    · simp at h
    · exact absurd h (by decide)
  have hctl : ∀ c ∈ v, ¬ isRefusedControl c := by
    intro c hc h
    rcases hdig c hc with rfl | h'
    · revert h; decide
    · unfold isRefusedControl isControl at h; omega
  have hblank : ∀ c ∈ v, ¬ isBlank c := by
    intro c hc h
    rcases hdig c hc with rfl | h'
    · revert h; decide
    · rcases h with rfl | rfl
      · exact absurd h' (by decide)
      · exact absurd h' (by decide)
  let line : Str := c!"GET / HTTP/1.1"
  let hd : Str := c!"Content-Length: " ++ v
  have hl1 : '\r' ∉ line := by decide
  have hl2 : '\r' ∉ hd := by
    simp only [hd, List.mem_append]
    rintro (h | h)
    · revert h; decide
    · exact hcr h
  have hlines : ∀ x ∈ line :: [hd], '\r' ∉ x ∧ x ≠ [] := by
    intro x hx
    simp only [List.mem_cons, List.not_mem_nil, or_false] at hx
    rcases hx with rfl | rfl
    · exact ⟨hl1, by simp [line]⟩
    · exact ⟨hl2, by simp [hd]⟩
  have hsplit := firstSplit_lines line [hd] hlines []
  have e : crlf.intercalate [line, hd] = line ++ crlf ++ hd := by simp [List.intercalate]
  have hb' : bytes = utf8 (crlf.intercalate [line, hd]) ++ blankLine ++ [] := by
    have hx : c!"GET / HTTP/1.1\r\nContent-Length: " ++ v ++ c!"\r\n\r\n" =
        crlf.intercalate [line, hd] ++ (crlf ++ crlf) := by
      rw [e]; simp [line, hd, crlf]
    rw [hb, hx, utf8_append, utf8_blank, List.append_nil]
  rw [← hb'] at hsplit
  have hj : joined [(c!"Content-Length", v)] c!"content-length" = some v := by
    have hl : lowered c!"Content-Length" = c!"content-length" := by decide
    unfold joined
    rw [List.filter_cons_of_pos (by simp [hl])]
    simp [List.intercalate]
  refine ⟨_, _, line, hd, [(c!"Content-Length", v)], hsplit, rfl, ?_, ?_, ?_, .inl ⟨v, hj, hv⟩⟩
  · rw [e]; exact firstSplit_of_not_mem hl1
  · refine ⟨[hd], by simp, by simp [List.intercalate], ?_, rfl, ?_⟩
    · intro l hl
      rw [List.mem_singleton.1 hl]
      rintro ⟨j, a, b, h, -⟩
      exact hl2 (by rw [h]; simp [crlf])
    · intro i l nm val h1 h2
      cases i with
      | succ i => simp at h1
      | zero =>
        simp only [List.getElem?_cons_zero, Option.some.injEq, Prod.mk.injEq] at h1 h2
        obtain ⟨rfl, rfl⟩ := h2
        subst h1
        refine ⟨[' '], by simp [hd], by simp, by decide, by simp [isBlank], ?_, fun _ => ⟨by decide, hctl⟩⟩
        intro c hc
        exact hblank c (List.mem_of_head? hc)
  · have := (RequestLine.parse_some_iff faithful line).1
    apply this
    cases faithful
    · exact ⟨⟨.get, [], .http11⟩, by decide +kernel⟩
    · exact ⟨⟨.get, [], .http11⟩, by decide +kernel⟩

/-- Any amount, for a request of 36 bytes and the digits: `v` writes the number `n`. -/
theorem C92_amplifies (sv : Server W) (w : W) (s : Sock) (v : Str) (n : Nat) (hv : IsU64 v n) (h0 : 0 < n)
    (hn : n ≤ i64Max) (hb : s.bytes = utf8 (c!"GET / HTTP/1.1\r\nContent-Length: " ++ v ++ c!"\r\n\r\n"))
    (hfin : s.fin = .silent) :
    sv.serve w s = if sv.allocOk n then .pending else .abort := by
  obtain ⟨head, text, line, hdrs, hs, h1, h2, h3, h4, h5, h6⟩ := declares sv.feat.faithful s.bytes v n hv hb
  exact C92_held_for_nothing sv w s n head text line hdrs hs h1 h2 h3 h4 h5 h6 h0 hn hfin

/-- the hypotheses of `C92_limit` are met, with the longest length that a header can declare -/
example : empty.serve () ⟨[utf8 c!"GET / HTTP/1.1\r\nContent-Length: 18446744073709551615\r\n\r\n"], .silent⟩ = .panic := by
  obtain ⟨head, text, line, hdrs, hs, h1, h2, h3, h4, h5, h6⟩ := declares empty.feat.faithful
    (Sock.bytes ⟨[utf8 c!"GET / HTTP/1.1\r\nContent-Length: 18446744073709551615\r\n\r\n"], .silent⟩)
    c!"18446744073709551615" 18446744073709551615
    ⟨c!"18446744073709551615", .inl rfl, by decide, by decide, by decide, by decide⟩ (by decide +kernel)
  exact (C92_limit empty () _ _ head text line hdrs hs h1 h2 h3 h4 h5 h6 (by decide) rfl).1 (by decide)

/-- the hypotheses of `C92_partial` are met by a request with its body, and memory for what it has -/
example : { empty with allocOk := fun k => k ≤ 42 }.serve ()
    ⟨[utf8 c!"GET / HTTP/1.1\r\nContent-Length: 5\r\n\r\nhello"], .eof⟩ ≠ .abort := by
  have hlen : (Sock.bytes ⟨[utf8 c!"GET / HTTP/1.1\r\nContent-Length: 5\r\n\r\nhello"], .eof⟩).length = 42 := by
    decide +kernel
  refine C92_partial _ () _ ?_ (by rw [hlen]; simp)
  rintro n ⟨head, rest, text, line, hdrs, hs, h1, h2, h3, h4, h5, h6⟩
  obtain ⟨rem, reader, r1, r2, r3⟩ := ((C25_head_from_bytes _).2 _ _ h1).1 line hdrs ⟨text, h2, h3⟩
  have hr : readHead ⟨[utf8 c!"GET / HTTP/1.1\r\nContent-Length: 5\r\n\r\nhello"], .eof⟩ =
      .ok (.head c!"Content-Length: 5" c!"GET / HTTP/1.1" (utf8 c!"hello") ⟨[], .eof⟩) := by rfl
  rw [hr] at r1
  injection r1 with r1
  injection r1 with r1
  subst r1
  obtain ⟨H, e1, -, e3⟩ := Headers.parse_block h4
  have hp : Headers.parse empty.feat.faithful c!"Content-Length: 5" =
      .ok (some ⟨[(c!"content-length", c!"5")], [⟨c!"Content-Length", c!"5"⟩]⟩) := by decide +kernel
  have hH : H = ⟨[(c!"content-length", c!"5")], [⟨c!"Content-Length", c!"5"⟩]⟩ := by
    have := hp.symm.trans e1
    simpa using this.symm
  have hc : contentLength H = n := DeclaredLength.unique (contentLength_declared H) (by rw [funext e3]; exact h6)
  rw [← hc, hH, hlen]
  decide +kernel

/-- C92 is false: memory for more than six hundred times what was sent is not enough. -/
theorem C92_counterexample : ¬ C92_statement := by
  intro h
  have hb : { empty with allocOk := fun n => n < 40000 }.serve ()
      ⟨[utf8 c!"GET / HTTP/1.1\r\nContent-Length: 1000000000000\r\n\r\n"], .silent⟩ = .abort := by
    rw [C92_amplifies _ () _ c!"1000000000000" 1000000000000
      ⟨c!"1000000000000", .inl rfl, by decide, by decide, by decide, by decide⟩ (by decide) (by decide)
      (by decide +kernel) rfl]
    rfl
  refine h _ _ (fun k hk => ?_) hb
  have : (Sock.bytes ⟨[utf8 c!"GET / HTTP/1.1\r\nContent-Length: 1000000000000\r\n\r\n"], .silent⟩).length = 49 := by
    decide +kernel
  rw [this] at hk
  simp only [decide_eq_true_eq]
  omega

/-- Both outcomes of `C92_amplifies`. -/
example : empty.serve () ⟨[utf8 c!"GET / HTTP/1.1\r\nContent-Length: 5\r\n\r\n"], .silent⟩ = .pending := by
  decide +kernel
example : empty.serve () ⟨[utf8 c!"GET / HTTP/1.1\r\nContent-Length: 9223372036854775808\r\n\r\n"], .silent⟩ = .panic := by
  decide +kernel
example : { empty with allocOk := fun n => n < 5 }.serve ()
    ⟨[utf8 c!"GET / HTTP/1.1\r\nContent-Length: 5\r\n\r\n"], .silent⟩ = .abort := by
  decide +kernel

/-- The head itself is held in a buffer that never is longer than what was sent, nor than the head and what
one more `read` brings. -/
theorem C92_head (s : Sock) :
    (readHeadC s).2.held ≤ s.bytes.length ∧
    ∀ head rest, FirstSplit s.bytes blankLine head rest → (readHeadC s).2.held ≤ head.length + 515 := by
  refine ⟨?_, fun head rest h => ?_⟩
  · have := (readHeadLoopC_le (s.bytes.length + 1) [] s).2.2
    simpa [readHeadC] using this
  · exact readHeadLoopC_held _ [] s (by omega) not_occurs_nil_blank head rest (by simpa using h)

/-- There is no limit on the head: as long as no blank line comes, everything sent is held. -/
theorem C92_head_unlimited (s : Sock) (h : ¬ Occurs s.bytes blankLine) :
    (readHeadC s).2.held = s.bytes.length := by
  have := (readHeadLoopC_open (s.bytes.length + 1) [] s (by omega) (by simpa using h)).2
  simpa [readHeadC] using this

example : (readHeadC ⟨[utf8 c!"GET / HTTP/1.1\r\nHost: x\r\n\r\nabc", utf8 c!"def"], .eof⟩).2 = ⟨29, 1, 30⟩ := by
  decide +kernel
example : (readHeadC ⟨[utf8 c!"GET ", utf8 c!"/ HTTP/1.1\r\n"], .silent⟩).2.held = 16 := by decide +kernel

end

/-! ### C93 -/

/-- What is counted is what the server does. -/
theorem C93_same (s : Sock) : (readHeadC s).1 = readHead s := readHeadLoopC_fst _ _ _

/-- The full claim of C93: the comparisons made while looking for the end of the head are at most in
proportion to the bytes sent. -/
def C93_statement : Prop := ∃ c, ∀ s : Sock, (readHeadC s).2.compared ≤ c * (s.bytes.length + 1)

/-- They grow with the square: after `n` bytes without a blank line, however they arrive, at least
`n² / 1024 - 3 n` comparisons have been made. -/
theorem C93_quadratic (s : Sock) (h : ¬ Occurs s.bytes blankLine) :
    s.bytes.length * s.bytes.length ≤ 1024 * (readHeadC s).2.compared + 3072 * s.bytes.length := by
  have := (readHeadLoopC_open (s.bytes.length + 1) [] s (by omega) (by simpa using h)).1
  simpa [readHeadC] using this

/-- The same for a head of `n` bytes that does end. -/
theorem C93_quadratic_head (s : Sock) (head rest : Bytes) (h : FirstSplit s.bytes blankLine head rest) :
    head.length * head.length ≤ 1024 * (readHeadC s).2.compared + 3072 * (head.length + 4) := by
  have := readHeadLoopC_closed (s.bytes.length + 1) [] s (by omega) not_occurs_nil_blank head rest
    (by simpa using h)
  simpa [readHeadC] using this

theorem not_occurs_replicate (n : Nat) : ¬ Occurs (List.replicate n (97 : UInt8)) blankLine := by
  rintro ⟨j, a, b, h, -⟩
  have : (13 : UInt8) ∈ List.replicate n (97 : UInt8) := by rw [h]; simp [blankLine]
  exact absurd (List.eq_of_mem_replicate this) (by decide)

/-- C93 is false. -/
theorem C93_counterexample : ¬ C93_statement := by
  rintro ⟨c, h⟩
  let n := 1024 * c + 4096
  let s : Sock := ⟨[List.replicate n 97], .silent⟩
  have hb : s.bytes = List.replicate n 97 := by simp [s, Sock.bytes]
  have hl : s.bytes.length = n := by rw [hb, List.length_replicate]
  have h1 := C93_quadratic s (by rw [hb]; exact not_occurs_replicate n)
  have h2 := h s
  rw [hl] at h1 h2
  have h3 : n * n = 1024 * (c * n) + 4096 * n := by
    show (1024 * c + 4096) * n = _
    rw [Nat.add_mul, Nat.mul_assoc]
  have h4 : c * (n + 1) = c * n + c := by rw [Nat.mul_add, Nat.mul_one]
  omega

/-- The part of C93 that holds: four comparisons for every `read` and every byte sent; when the head comes in
one piece that is in proportion to the bytes. There are at most one more `read` than bytes. -/
theorem C93_partial (s : Sock) :
    (readHeadC s).2.compared ≤ 4 * ((readHeadC s).2.reads * s.bytes.length) ∧
    (readHeadC s).2.reads ≤ s.bytes.length + 1 := by
  have := readHeadLoopC_le (s.bytes.length + 1) [] s
  simp only [List.length_nil, Nat.zero_add] at this
  exact ⟨this.1, this.2.1⟩

private theorem reads_segs (fin : SockEnd) (segs : List Bytes) (hs : ∀ x ∈ segs, x ≠ [] ∧ x.length ≤ 512) (fuel : Nat)
    (data : Bytes) (hf : segs.flatten.length < fuel) :
    (∀ k, ¬ Occurs (data ++ (segs.take k).flatten) blankLine → Occurs (data ++ (segs.take (k + 1)).flatten) blankLine →
      (readHeadLoopC fuel data ⟨segs, fin⟩).2.reads = k + 1) ∧
    (¬ Occurs (data ++ segs.flatten) blankLine →
      (readHeadLoopC fuel data ⟨segs, fin⟩).2.reads = segs.length + if fin = .silent then 0 else 1) := by
  induction segs generalizing fuel data with
  | nil =>
    refine ⟨fun k h1 h2 => absurd h2 (by simpa using h1), fun _ => ?_⟩
    cases fuel with
    | zero => simp at hf
    | succ fuel => cases fin <;> rfl
  | cons x segs ih =>
    obtain ⟨hx, hx5⟩ := hs x List.mem_cons_self
    have hpos := List.length_pos_iff.2 hx
    rw [List.flatten_cons, List.length_append] at hf
    cases fuel with
    | zero => omega
    | succ fuel =>
      have hrd : Sock.read 512 ⟨x :: segs, fin⟩ = .data x ⟨segs, fin⟩ := by
        cases x with
        | nil => exact absurd rfl hx
        | cons b bs => rw [Sock.read, readSegs, if_pos hx5]
      have ih' := ih (fun y hy => hs y (List.mem_cons_of_mem _ hy)) fuel (data ++ x) (by omega)
      have grow : ∀ t, ¬ Occurs (data ++ (x ++ t)) blankLine → ¬ Occurs (data ++ x) blankLine := by
        rintro t h ⟨i, hi⟩
        exact h ⟨i, by rw [← List.append_assoc]; exact hi.append _⟩
      have more : ¬ Occurs (data ++ x) blankLine → (readHeadLoopC (fuel + 1) data ⟨x :: segs, fin⟩).2.reads =
          1 + (readHeadLoopC fuel (data ++ x) ⟨segs, fin⟩).2.reads := by
        intro hno
        rw [readHeadLoopC, hrd]
        simp only [if_neg hx, (headCheck_spec (data ++ x) _).1 hno]
      refine ⟨fun k h1 h2 => ?_, fun h => ?_⟩
      · cases k with
        | zero =>
          simp only [List.take_succ_cons, List.take_zero, List.flatten_cons, List.flatten_nil, List.append_nil] at h2
          obtain ⟨a, b, hab⟩ := FirstSplit.exists h2
          rw [readHeadLoopC, hrd]
          simp only [if_neg hx, (headCheck_spec (data ++ x) _).2 a b hab]
        | succ k =>
          simp only [List.take_succ_cons, List.flatten_cons] at h1 h2
          rw [more (grow _ h1), ih'.1 k (by simpa using h1) (by simpa using h2)]
          omega
      · rw [List.flatten_cons] at h
        rw [more (grow _ h), ih'.2 (by simpa using h), List.length_cons]
        omega

/-- How many reads that are: when the bytes come in pieces of at most 512, one for each piece up to the one that
completes the blank line; without a blank line one for each piece, and one more that finds the connection closed or
broken. -/
theorem C93_reads (segs : List Bytes) (fin : SockEnd) (hs : ∀ x ∈ segs, x ≠ [] ∧ x.length ≤ 512) :
    (∀ k, ¬ Occurs (segs.take k).flatten blankLine → Occurs (segs.take (k + 1)).flatten blankLine →
      (readHeadC ⟨segs, fin⟩).2.reads = k + 1) ∧
    (¬ Occurs segs.flatten blankLine →
      (readHeadC ⟨segs, fin⟩).2.reads = segs.length + if fin = .silent then 0 else 1) := by
  have := reads_segs fin segs hs (segs.flatten.length + 1) [] (by omega)
  simpa [readHeadC, Sock.bytes] using this

private theorem reads_buffers (fin : SockEnd) (fuel : Nat) : ∀ (segs : List Bytes) (data : Bytes),
    segs.flatten.length < fuel → ¬ Occurs (data ++ segs.flatten) blankLine →
    (readHeadLoopC fuel data ⟨segs, fin⟩).2.reads =
      (segs.map fun x => (x.length + 511) / 512).sum + if fin = .silent then 0 else 1 := by
  induction fuel with
  | zero => intro segs data h; omega
  | succ fuel ih =>
    intro segs
    induction segs with
    | nil => intro data _ _; cases fin <;> rfl
    | cons x segs ih' =>
      intro data hf hno
      have step : ∀ (b : Bytes) (segs' : List Bytes), b ≠ [] →
          Sock.read 512 ⟨x :: segs, fin⟩ = .data b ⟨segs', fin⟩ → x ++ segs.flatten = b ++ segs'.flatten →
          (readHeadLoopC (fuel + 1) data ⟨x :: segs, fin⟩).2.reads =
            1 + ((segs'.map fun x => (x.length + 511) / 512).sum + if fin = .silent then 0 else 1) := by
        intro b segs' hb hrd he
        rw [List.flatten_cons, he] at hno hf
        have hpos := List.length_pos_iff.2 hb
        rw [List.length_append] at hf
        have hno' : ¬ Occurs (data ++ b) blankLine := by
          rintro ⟨i, hi⟩
          exact hno ⟨i, by rw [← List.append_assoc]; exact hi.append _⟩
        rw [readHeadLoopC, hrd]
        simp only [if_neg hb, (headCheck_spec (data ++ b) _).1 hno']
        rw [ih segs' (data ++ b) (by omega) (by simpa using hno)]
      cases x with
      | nil =>
        have := ih' data (by simpa using hf) (by simpa using hno)
        rw [List.map_cons, List.sum_cons, show (([] : Bytes).length + 511) / 512 = 0 from rfl, Nat.zero_add, ← this]
        rfl
      | cons c cs =>
        by_cases h5 : (c :: cs).length ≤ 512
        · rw [step (c :: cs) segs (by simp) (by rw [Sock.read, readSegs, if_pos h5]) rfl]
          rw [List.map_cons, List.sum_cons]
          have : 0 < (c :: cs).length := by simp
          omega
        · rw [step ((c :: cs).take 512) ((c :: cs).drop 512 :: segs) (by simp)
            (by rw [Sock.read, readSegs, if_neg h5]) (by
              rw [List.flatten_cons, ← List.append_assoc, List.take_append_drop])]
          rw [List.map_cons, List.sum_cons, List.map_cons, List.sum_cons, List.length_drop]
          omega

/-- In pieces of any size, a head that does not end takes one read for every 512 bytes of a piece or part of them, and
one more that finds the connection closed or broken. -/
theorem C93_buffers (s : Sock) (h : ¬ Occurs s.bytes blankLine) :
    (readHeadC s).2.reads =
      (s.segs.map fun x => (x.length + 511) / 512).sum + if s.fin = .silent then 0 else 1 :=
  reads_buffers s.fin (s.bytes.length + 1) s.segs [] (Nat.lt_succ_self _) (by rw [List.nil_append]; exact h)

/-- 600 bytes in one piece are two reads, one more byte a third, and the end a fourth -/
example : (readHeadC ⟨[List.replicate 600 97, [97]], .eof⟩).2.reads = 4 := by
  refine (C93_buffers ⟨[List.replicate 600 97, [97]], .eof⟩ ?_).trans (by decide +kernel)
  intro h
  rw [occurs_iff_infix] at h
  revert h
  decide +kernel

/-- Two reads: the second searches the first bytes again. -/
example : (readHeadC ⟨[utf8 c!"abcdefgh", utf8 c!"ijklmnop"], .silent⟩).2 = ⟨18, 2, 16⟩ := by decide +kernel
/-- two pieces, the blank line completed by the second -/
example : (readHeadC ⟨[utf8 c!"GET / HTTP/1.1\r\n\r", utf8 c!"\nabc", utf8 c!"d"], .eof⟩).2.reads = 2 := by
  refine (C93_reads [utf8 c!"GET / HTTP/1.1\r\n\r", utf8 c!"\nabc", utf8 c!"d"] .eof (by decide +kernel)).1 1 ?_ ?_
  · intro h
    rw [occurs_iff_infix] at h
    revert h
    decide +kernel
  · rw [occurs_iff_infix]
    decide +kernel

/-! ### C94 -/

/-- What is counted is what the server does. -/
theorem C94_same (faithful : Bool) (text : Str) :
    (Headers.parseC faithful text).1 = Headers.parse faithful text := Headers.parseC_fst faithful text

/-- The full claim of C94: splitting the header block and collecting the values takes comparisons and written
bytes in proportion to the block. -/
def C94_statement : Prop :=
  ∃ c, ∀ (faithful : Bool) (text : Str),
    (Headers.parseC faithful text).2.compared + (Headers.parseC faithful text).2.written
      ≤ c * ((utf8 text).length + 1)

/-- Splitting does: at most two comparisons for every byte. -/
theorem C94_split (faithful : Bool) (text : Str) :
    (Headers.parseC faithful text).2.compared ≤ 2 * (utf8 text).length :=
  Headers.parseC_compared faithful text

/-- and at least half as many comparisons as there are bytes. -/
theorem C94_split_least (faithful : Bool) (text : Str) (hs : List (Str × Str)) (_ : BlockOk faithful text hs) :
    (utf8 text).length ≤ 2 * (Headers.parseC faithful text).2.compared + 1 := by
  have h := Spliterator.collectC_ge ((utf8 text).length + 2) (utf8 text) ([13, 10] : Bytes) rfl (by omega)
  unfold Headers.parseC
  simp only [Spliterator.new]
  split <;> exact h

/-- What is written for a block that is accepted: after every header, all the values its name has so far. -/
theorem C94_written (faithful : Bool) (text : Str) (hs : List (Str × Str)) (h : BlockOk faithful text hs) :
    (Headers.parseC faithful text).2.written = rewritten [] hs := by
  obtain ⟨H, e1, e2, -⟩ := Headers.parse_block h
  obtain ⟨lines, h1, rfl, h3, h4, h5⟩ := h
  obtain ⟨hs', tail, g1, g2, g3⟩ := Headers.parseC_lines faithful lines h1 h3
  rw [Headers.parse_lines faithful lines h1 h3, Res.ok.injEq] at e1
  obtain ⟨-, hs'', k1, k2⟩ := (parseLoop_spec faithful lines _ Headers.Ok.nil).1 H e1
  rw [g3]
  have : hs' = hs'' := by
    rcases g2 with rfl | g2
    · rw [k2, List.append_nil] at g1
      exact (List.map_inj_right (fun _ _ h => Option.some.inj h)).1 g1.symm
    · exfalso
      have hm : none ∈ lines.map (Header.parse faithful) := by
        rw [g1]
        exact List.mem_append_right _ (List.mem_of_head? g2)
      rw [k2] at hm
      simp at hm
  rw [← e2, k1, this]
  simp

/-- Whether accepted or not, no more than the whole block for every header. -/
theorem C94_bound (faithful : Bool) (lines : List Str) (hne : lines ≠ []) (hl : ∀ l ∈ lines, ¬ Occurs l crlf) :
    (Headers.parseC faithful (crlf.intercalate lines)).2.written
      ≤ lines.length * ((utf8 (crlf.intercalate lines)).length + 2) := by
  obtain ⟨hs, tail, g1, -, g3⟩ := Headers.parseC_lines faithful lines hne hl
  have h1 := rewritten_le [] (hs.map hpair)
  have h2 := weight_lines faithful lines hs tail g1
  have h3 : hs.length ≤ lines.length := by
    have := congrArg List.length g1
    simp at this; omega
  rw [utf8_intercalate_crlf lines hne] at h2
  rw [g3]
  refine Nat.le_trans h1 ?_
  rw [List.length_map, List.nil_append]
  exact Nat.mul_le_mul h3 h2

/-- The part of C94 that holds: when no two headers have the same name (up to case), exactly the values are
written, and altogether it takes at most three steps for every byte. -/
theorem C94_partial (faithful : Bool) (text : Str) (hs : List (Str × Str)) (h : BlockOk faithful text hs)
    (hd : hs.Pairwise fun a b => lowered a.1 ≠ lowered b.1) :
    (Headers.parseC faithful text).2.written = valueBytes hs ∧
    (Headers.parseC faithful text).2.compared + (Headers.parseC faithful text).2.written
      ≤ 3 * (utf8 text).length := by
  have h1 : (Headers.parseC faithful text).2.written = valueBytes hs := by
    rw [C94_written faithful text hs h, rewritten_distinct [] hs (by simpa using hd)]
  refine ⟨h1, ?_⟩
  have h2 := C94_split faithful text
  have h3 : valueBytes hs ≤ (utf8 text).length := by
    obtain ⟨H, e1, e2, -⟩ := Headers.parse_block h
    obtain ⟨lines, k1, rfl, k3, k4, k5⟩ := h
    rw [Headers.parse_lines faithful lines k1 k3, Res.ok.injEq] at e1
    obtain ⟨-, hs'', j1, j2⟩ := (parseLoop_spec faithful lines _ Headers.Ok.nil).1 H e1
    have := weight_lines faithful lines hs'' [] (by simpa using j2)
    rw [utf8_intercalate_crlf lines k1] at this
    simp only [List.nil_append] at j1
    rw [← j1, e2, valueBytes_weight] at this
    have : 0 < hs.length := by rw [k4]; exact List.length_pos_iff.2 k1
    omega
  omega

/-- The same header `n` times, with a value of `m` bytes: `m n (n + 1) / 2 + n (n - 1)` bytes are written. -/
theorem C94_repeated (faithful : Bool) (text : Str) (h : Str × Str) (n : Nat)
    (hb : BlockOk faithful text (List.replicate n h)) :
    2 * (Headers.parseC faithful text).2.written + 2 * n = n * (n + 1) * (utf8 h.2).length + 2 * n * n := by
  have := rewritten_replicate h 0 n
  rw [C94_written faithful text _ hb]
  simpa using this

theorem block_replicate (faithful : Bool) (n : Nat) (hn : 0 < n) :
    BlockOk faithful (crlf.intercalate (List.replicate n c!"a:")) (List.replicate n (c!"a", [])) := by
  refine ⟨List.replicate n c!"a:", by simp; omega, rfl, ?_, by simp, ?_⟩
  · intro l hl
    rw [List.eq_of_mem_replicate hl]
    rintro ⟨j, a, b, h, -⟩
    have : '\r' ∈ c!"a:" := by rw [h]; simp [crlf]
    revert this; decide
  · intro i line nm v h1 h2
    have h1' := List.eq_of_mem_replicate (List.mem_of_getElem? h1)
    have h2' := List.eq_of_mem_replicate (List.mem_of_getElem? h2)
    obtain ⟨rfl, rfl⟩ := Prod.mk.inj h2'
    subst h1'
    exact ⟨[], by simp, by simp, by decide, by simp, by simp, fun _ => ⟨by decide, by simp⟩⟩

/-- C94 is false: many headers `a:`. -/
theorem C94_counterexample : ¬ C94_statement := by
  rintro ⟨c, h⟩
  let n := 4 * c + 2
  let text := crlf.intercalate (List.replicate n c!"a:")
  have hb : BlockOk true text (List.replicate n (c!"a", [])) := block_replicate true n (by simp only [n]; omega)
  have h1 := C94_repeated true text (c!"a", []) n hb
  have h2 := h true text
  have h3 : (utf8 text).length + 2 = 4 * n := by
    rw [← utf8_intercalate_crlf _ (by simp [n]), List.map_replicate, List.sum_replicate_nat]
    have : (utf8 c!"a:").length + 2 = 4 := by decide
    rw [this, Nat.mul_comm]
  simp only [utf8_nil, List.length_nil, Nat.mul_zero, Nat.zero_add] at h1
  have h4 : c * ((utf8 text).length + 1) ≤ c * (4 * n) := Nat.mul_le_mul_left _ (by omega)
  have h5 : 2 * n * n = 2 * (c * (4 * n)) + 4 * n := by
    have : 2 * n * n = (8 * c + 4) * n := by congr 1; simp only [n]; omega
    rw [this, Nat.add_mul]
    have : c * (4 * n) = 4 * (c * n) := by rw [Nat.mul_left_comm]
    rw [this, Nat.mul_assoc]; omega
  omega

example : (Headers.parseC true c!"a: xy\r\nA: xy\r\nb: z\r\na: xy").2 = ⟨24, 19⟩ := by decide +kernel

/-! ### C95 -/

section
variable {S : Type u}

/-- What is counted is what the server does. -/
theorem C95_same (uv : Bool) (r : Router S) (req : Request) (s : S) :
    (Router.runC uv r req s).1 = Router.run uv r req s := Router.runC_fst uv r req s

/-- Which nodes of the trees are visited: as many as there are different beginnings of the patterns registered
for the method of the request (and for any method) that permit its path; none if there are no such patterns and
no tree either. -/
theorem C95_visits (calls : List (Call S)) (hf : FairL calls) (r : Router S) (hr : execL Router.new calls = .ok r)
    (uv : Bool) (req : Request) (hm : req.requestLine.method ≠ .all) (s : S) :
    ∃ a b, (Router.runC uv r req s).2.visited = a + b ∧
      (ReachedCount uv (patternsOf req.requestLine.method (logOfL calls)) req.requestLine.path a ∨
        a = 0 ∧ patternsOf req.requestLine.method (logOfL calls) = []) ∧
      (ReachedCount uv (patternsOfAny (logOfL calls)) req.requestLine.path b ∨
        b = 0 ∧ patternsOfAny (logOfL calls) = []) := by
  obtain ⟨r', h1, h2⟩ := Router.execL_inv calls hf Router.new [] Router.Inv.new
  rw [hr, Res.ok.injEq] at h1
  subst h1
  rw [List.nil_append] at h2
  refine ⟨Router.methodVisits uv r req.requestLine.method req.requestLine.path,
    Router.methodVisits uv r .all req.requestLine.path, ?_, ?_, ?_⟩
  · unfold Router.runC
    simp only
    split <;> rfl
  · have := Router.methodVisits_eq h2 uv req.requestLine.method req.requestLine.path
    rw [← Router.itemsFrom_patterns _ hm 0]
    simpa using this
  · have := Router.methodVisits_eq h2 uv .all req.requestLine.path
    rw [← Router.itemsFrom_any 0 _ h2.targets]
    simpa using this

/-- C95: with URL variables at most one node for every segment of the path and every pattern registered for
the method or for any, and two roots. -/
theorem C95_bound (calls : List (Call S)) (hf : FairL calls) (r : Router S) (hr : execL Router.new calls = .ok r)
    (uv : Bool) (req : Request) (hm : req.requestLine.method ≠ .all) (s : S) :
    (Router.runC uv r req s).2.visited ≤ 2 + ((patternsOf req.requestLine.method (logOfL calls)).length +
      (patternsOfAny (logOfL calls)).length) * req.requestLine.path.length := by
  obtain ⟨a, b, e, ha, hb⟩ := C95_visits calls hf r hr uv req hm s
  have h1 : a ≤ 1 + (patternsOf req.requestLine.method (logOfL calls)).length * req.requestLine.path.length := by
    rcases ha with h | ⟨h, -⟩
    · exact h.le
    · omega
  have h2 : b ≤ 1 + (patternsOfAny (logOfL calls)).length * req.requestLine.path.length := by
    rcases hb with h | ⟨h, -⟩
    · exact h.le
    · omega
  rw [e, Nat.add_mul]
  omega

/-- C95: without URL variables two nodes for every segment and two roots, however many patterns there are. -/
theorem C95_bound_literal (calls : List (Call S)) (hf : FairL calls) (r : Router S)
    (hr : execL Router.new calls = .ok r) (req : Request) (hm : req.requestLine.method ≠ .all) (s : S) :
    (Router.runC false r req s).2.visited ≤ 2 + 2 * req.requestLine.path.length := by
  obtain ⟨a, b, e, ha, hb⟩ := C95_visits calls hf r hr false req hm s
  have h1 : a ≤ 1 + req.requestLine.path.length := by
    rcases ha with h | ⟨h, -⟩
    · exact h.le_literal
    · omega
  have h2 : b ≤ 1 + req.requestLine.path.length := by
    rcases hb with h | ⟨h, -⟩
    · exact h.le_literal
    · omega
  omega

/-- C95: choosing the next handler looks at three lists at most, so at most three times the number of
registrations that apply. -/
theorem C95_scans (calls : List (Call S)) (hf : FairL calls) (r : Router S) (hr : execL Router.new calls = .ok r)
    (uv : Bool) (req : Request) (hm : req.requestLine.method ≠ .all) (s : S) :
    (Router.runC uv r req s).2.scanned
      ≤ 3 * applicableCount uv req.requestLine.method req.requestLine.path (logOfL calls) := by
  obtain ⟨r', h1, h2⟩ := Router.execL_inv calls hf Router.new [] Router.Inv.new
  rw [hr, Res.ok.injEq] at h1
  subst h1
  rw [List.nil_append] at h2
  exact Router.scanned_le h2 uv req hm s

/-- Of the patterns `/a/:x`, `/a/b`, `/:y/b`, `/c/d` the seven different beginnings but those with `c` permit
`/a/b`: six nodes; without variables three. -/
example : (buildTable [([c!"a", c!":x"], 1), ([c!"a", c!"b"], 2), ([c!":y", c!"b"], 3), ([c!"c", c!"d"], 4)]).bind
    (fun n => .ok ((PathNode.dfsC true n [c!"a", c!"b"]).2, (PathNode.dfsC false n [c!"a", c!"b"]).2))
      = .ok (6, 3) := by decide +kernel

/-- A program the theorems apply to, with its patterns. -/
def costCalls : List (Call Unit) :=
  [.route .get c!"/a/:x" (fun _ s => .ok (s, .next)), .route .get c!"/a/b" (fun _ s => .ok (s, .next)),
    .route .addRoute c!"/:y/b" (fun _ s => .ok (s, .next)), .add (fun _ s => .ok (s, .stop))]
example : FairL costCalls := by simp [costCalls, FairL, Fair]
example : patternsOf .get (logOfL costCalls) = [[c!"a", c!":x"], [c!"a", c!"b"]] ∧
    patternsOfAny (logOfL costCalls) = [[c!":y", c!"b"]] ∧
    applicableCount true .get [c!"a", c!"b"] (logOfL costCalls) = 4 := by
  have e1 : Path.parse c!"/a/:x" = some [c!"a", c!":x"] := by decide +kernel
  have e2 : Path.parse c!"/a/b" = some [c!"a", c!"b"] := by decide +kernel
  have e3 : Path.parse c!"/:y/b" = some [c!":y", c!"b"] := by decide +kernel
  simp only [costCalls, logOfL, logOf, Verb.target, Verb.method, e1, e2, e3]
  decide +kernel

end

namespace CostExample

def lines : List Str := [c!"GET / HTTP/1.1", c!"Host: x"]
def sock : Sock := ⟨[utf8 c!"GET / HTTP/1.1\r\nHo", utf8 c!"st: x\r\n\r\nabc"], .eof⟩

theorem split : FirstSplit sock.bytes blankLine (utf8 (crlf.intercalate lines)) (utf8 c!"abc") := by
  have := firstSplit_lines c!"GET / HTTP/1.1" [c!"Host: x"] (by decide) (utf8 c!"abc")
  rw [show sock.bytes = utf8 (crlf.intercalate (c!"GET / HTTP/1.1" :: [c!"Host: x"])) ++ blankLine ++ utf8 c!"abc" by
    decide +kernel]
  exact this

/-- the hypotheses of `C92_head` and `C93_quadratic_head` are met -/
example : (readHeadC sock).2.held ≤ (utf8 (crlf.intercalate lines)).length + 515 := (C92_head sock).2 _ _ split
example : (utf8 (crlf.intercalate lines)).length * (utf8 (crlf.intercalate lines)).length ≤
    1024 * (readHeadC sock).2.compared + 3072 * ((utf8 (crlf.intercalate lines)).length + 4) :=
  C93_quadratic_head sock _ _ split

/-- the hypotheses of `C94_bound` and `C94_partial` are met -/
example : (Headers.parseC true (crlf.intercalate [c!"a: xy", c!"A: xy", c!"b: z"])).2.written ≤ 3 * 22 :=
  Nat.le_trans (C94_bound true [c!"a: xy", c!"A: xy", c!"b: z"] (by simp) (by
    intro l hl
    rintro ⟨j, a, b, h, -⟩
    have hr : ∀ l ∈ [c!"a: xy", c!"A: xy", c!"b: z"], '\r' ∉ l := by decide
    exact hr l hl (by rw [h]; simp [crlf]))) (by decide +kernel)

example : (Headers.parseC true (crlf.intercalate [c!"a: xy", c!"b:z"])).2.written = 3 := by
  refine (C94_partial true (crlf.intercalate [c!"a: xy", c!"b:z"]) [(c!"a", c!"xy"), (c!"b", c!"z")]
    ⟨[c!"a: xy", c!"b:z"], by simp, rfl, ?_, rfl, ?_⟩ (by decide)).1
  · intro l hl
    rintro ⟨j, a, b, h, -⟩
    have hr : ∀ l ∈ [c!"a: xy", c!"b:z"], '\r' ∉ l := by decide
    exact hr l hl (by rw [h]; simp [crlf])
  · intro i line n v h1 h2
    match i, h1, h2 with
    | 0, h1, h2 =>
      cases h1; cases h2
      exact ⟨[' '], rfl, by decide, by decide, by simp [isBlank], by simp [isBlank], by decide⟩
    | 1, h1, h2 =>
      cases h1; cases h2
      exact ⟨[], rfl, by decide, by decide, by simp, by simp [isBlank], by decide⟩
    | i + 2, h1, h2 => simp at h1

/-- the hypotheses of `C95_bound` and `C95_bound_literal` are met: two patterns for GET, one for any method, two
segments -/
example (r : Router Unit) (hr : execL Router.new costCalls = .ok r) :
    (Router.runC true r ⟨⟨.get, [c!"a", c!"b"], .http11⟩, ⟨[], []⟩, [], []⟩ ()).2.visited ≤ 8 ∧
    (Router.runC false r ⟨⟨.get, [c!"a", c!"b"], .http11⟩, ⟨[], []⟩, [], []⟩ ()).2.visited ≤ 6 := by
  have hf : FairL costCalls := by simp [costCalls, FairL, Fair]
  refine ⟨?_, C95_bound_literal costCalls hf r hr ⟨⟨.get, [c!"a", c!"b"], .http11⟩, ⟨[], []⟩, [], []⟩ (by decide) ()⟩
  have := C95_bound costCalls hf r hr true ⟨⟨.get, [c!"a", c!"b"], .http11⟩, ⟨[], []⟩, [], []⟩ (by decide) ()
  have e1 : Path.parse c!"/a/:x" = some [c!"a", c!":x"] := by decide +kernel
  have e2 : Path.parse c!"/a/b" = some [c!"a", c!"b"] := by decide +kernel
  have e3 : Path.parse c!"/:y/b" = some [c!":y", c!"b"] := by decide +kernel
  have hc : (patternsOf .get (logOfL costCalls)).length + (patternsOfAny (logOfL costCalls)).length = 3 := by
    simp only [costCalls, logOfL, logOf, Verb.target, Verb.method, e1, e2, e3]
    decide +kernel
  rw [hc] at this
  exact this

end CostExample

end Octane
