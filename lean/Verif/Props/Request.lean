import Verif.Spec.RequestLine
import Verif.Proof.Request
/-
Properties C25 to C29 and C31: reading and parsing a request.
-/
namespace Octane
open Spec

/-! ## C25 -/

/-- C25, exact: what becomes of the head is decided by the bytes of the stream alone. Without a
blank line the outcome is 400 at end of stream (a panic on an I/O error, waiting if the peer
stays silent). With one, the bytes before the first blank line decide: they must be UTF-8 text with
at least one CRLF, which separates the request line from the header block; anything else is 400.
The bytes after the blank line are never lost: those read already and those still to come are
together exactly what follows it. -/
theorem C25_head_from_bytes (s : Sock) :
    (¬ Occurs s.bytes blankLine →
      readHead s = match s.fin with
        | .eof => .ok .badRequest
        | .error => .panic
        | .silent => .pending) ∧
    (∀ head rest, FirstSplit s.bytes blankLine head rest →
      (∀ line hdrs, (∃ text, head = utf8 text ∧ FirstSplit text crlf line hdrs) →
        ∃ rem reader, readHead s = .ok (.head hdrs line rem reader) ∧
          rem ++ reader.bytes = rest ∧ reader.fin = s.fin) ∧
      ((∀ text, head = utf8 text → ¬ Occurs text crlf) → readHead s = .ok .badRequest)) := by
  obtain ⟨h1, h2⟩ := readHead_spec s
  constructor
  · intro h
    rw [h1 h]
    cases s.fin <;> rfl
  · intro head rest hf
    obtain ⟨rem, reader, e1, e2, e3⟩ := h2 head rest hf
    constructor
    · rintro line hdrs ⟨text, rfl, ht⟩
      refine ⟨rem, reader, ?_, e2, e3⟩
      rw [e1]
      unfold headOutcome
      rw [fromUtf8_utf8]
      rcases parseWithoutBody_spec text with ⟨-, hn⟩ | ⟨l, hd, hl, hp⟩
      · exact absurd ht.occurs hn
      · obtain ⟨rfl, rfl⟩ := ht.unique hl
        simp [hp]
    · intro hno
      rw [e1]
      unfold headOutcome
      cases hu : fromUtf8 head with
      | none => rfl
      | some text =>
        rcases parseWithoutBody_spec text with ⟨hp, -⟩ | ⟨l, hd, hl, -⟩
        · simp [hp]
        · exact absurd hl.occurs (hno text (utf8_of_fromUtf8 hu).symm)

/-- C25: two deliveries of the same bytes with the same end give the same outcome: both heads are
accepted with the same request line and header block, and the same bytes left for the body; or
both are answered 400; or both panic; or both wait. -/
theorem C25_segmentation (s s' : Sock) (hb : s.bytes = s'.bytes) (hfin : s.fin = s'.fin) :
    (∃ hdrs line rem reader rem' reader',
      readHead s = .ok (.head hdrs line rem reader) ∧ readHead s' = .ok (.head hdrs line rem' reader') ∧
      rem ++ reader.bytes = rem' ++ reader'.bytes ∧ reader.fin = reader'.fin) ∨
    (readHead s = .ok .badRequest ∧ readHead s' = .ok .badRequest) ∨
    (readHead s = .panic ∧ readHead s' = .panic) ∨
    (readHead s = .pending ∧ readHead s' = .pending) := by
  obtain ⟨h1, h2⟩ := readHead_spec s
  obtain ⟨h1', h2'⟩ := readHead_spec s'
  rw [← hb, ← hfin] at h1' h2'
  by_cases ho : Occurs s.bytes blankLine
  · obtain ⟨a, b, hf⟩ := FirstSplit.exists ho
    obtain ⟨rem, reader, e1, e2, e3⟩ := h2 a b hf
    obtain ⟨rem', reader', e1', e2', e3'⟩ := h2' a b hf
    rw [e1, e1']
    unfold headOutcome
    cases hu : fromUtf8 a with
    | none => right; left; exact ⟨rfl, rfl⟩
    | some text =>
      rcases parseWithoutBody_spec text with ⟨hp, -⟩ | ⟨l, hd, -, hp⟩
      · right; left; simp [hp]
      · left
        exact ⟨hd, l, rem, reader, rem', reader', by simp [hp], by simp [hp], by rw [e2, e2'],
          by rw [e3, e3']⟩
  · rw [h1 ho, h1' ho]
    cases s.fin <;> simp [noHead]

/-- the same head in one piece and cut inside the blank line -/
example : readHead ⟨[utf8 c!"G / H\r\nA: b\r\n\r\nxy"], .eof⟩
    = .ok (.head c!"A: b" c!"G / H" (utf8 c!"xy") ⟨[], .eof⟩) := by rfl
example : readHead ⟨[utf8 c!"G / H\r\nA: b\r\n\r", utf8 c!"\nx", utf8 c!"y"], .eof⟩
    = .ok (.head c!"A: b" c!"G / H" (utf8 c!"x") ⟨[utf8 c!"y"], .eof⟩) := by rfl
example : FirstSplit (utf8 c!"G / H\r\nA: b\r\n\r\nxy") blankLine (utf8 c!"G / H\r\nA: b") (utf8 c!"xy") :=
  ⟨by decide, by simp only [occursAt_iff_prefix]; decide⟩

/-! ## C26 -/

theorem contentLength_declared (headers : Headers) :
    DeclaredLength headers.get (contentLength headers) := by
  unfold contentLength DeclaredLength
  cases hg : headers.get c!"content-length" with
  | none => right; simp
  | some v =>
    cases hp : parseU64 v with
    | none =>
      right
      simp only [Option.bind_some, hp, Option.getD_none, true_and]
      rintro v' m hv hm
      rw [← Option.some.inj hv, ← parseU64_iff, hp] at hm
      simp at hm
    | some n => left; exact ⟨v, rfl, by simp [hp, parseU64_iff v n |>.1 hp]⟩

theorem DeclaredLength.unique {get : Str → Option Str} {n m : Nat} (h : DeclaredLength get n)
    (h' : DeclaredLength get m) : n = m := by
  rcases h with ⟨v, h1, h2⟩ | ⟨h1, h2⟩ <;> rcases h' with ⟨v', h1', h2'⟩ | ⟨h1', h2'⟩
  · rw [h1] at h1'; rw [← Option.some.inj h1'] at h2'; exact IsU64.unique h2 h2'
  · exact absurd h2 (h2' v n h1)
  · exact absurd h2' (h2 v' m h1')
  · rw [h1, h1']

/-- C26, the part that holds: `rest` is what follows the blank line in the stream, `n` the
declared length. If no more than `n` bytes arrived together with the head (`rem`), an accepted
request's body is exactly the first `n` bytes of `rest`, all of which were sent.
Missing from the full claim: the hypothesis `rem.length ≤ n` (see `C26_counterexample`). -/
theorem C26_body_partial (feat : Features) (allocOk : Nat → Bool) (s : Sock) (head rest : Bytes)
    (hdrs line : Str) (rem : Bytes) (reader : Sock) (headers : Headers) (rl : RequestLine)
    (r : Request) (n : Nat)
    (hs : FirstSplit s.bytes blankLine head rest) (hh : readHead s = .ok (.head hdrs line rem reader))
    (hr : Request.fromRaw feat allocOk headers rl rem reader = .ok (some r))
    (hn : DeclaredLength headers.get n) (hrem : rem.length ≤ n) :
    r.body = rest.take n ∧ n ≤ rest.length := by
  have hn' : contentLength headers = n := DeclaredLength.unique (contentLength_declared headers) hn
  obtain ⟨rem', reader', e1, e2, -⟩ := (readHead_spec s).2 head rest hs
  have hrest : rem ++ reader.bytes = rest := by
    rw [hh] at e1
    unfold headOutcome at e1
    cases hu : fromUtf8 head with
    | none => simp [hu] at e1
    | some text =>
      rcases parseWithoutBody_spec text with ⟨hp, -⟩ | ⟨l, hd, -, hp⟩
      · simp [hu, hp] at e1
      · simp only [hu, hp, Io.ok.injEq, HeadOut.head.injEq] at e1
        rw [e1.2.2.1, e1.2.2.2, e2]
  have key : ∀ body, Io.ofRes (Request.parse feat rl headers body) = .ok (some r) → r.body = body := by
    intro body h
    unfold Request.parse at h
    generalize (if feat.cookies = true then match headers.get c!"cookie" with
      | some v => Cookie.parse v
      | none => Res.ok [] else Res.ok []) = x at h
    cases x with
    | panic => simp at h
    | ok cs => simp at h; rw [← h]
  unfold Request.fromRaw at hr
  simp only [hn'] at hr
  by_cases h0 : n > 0
  · rw [if_pos h0] at hr
    by_cases hlt : rem.length < n
    · rw [if_pos hlt] at hr
      split at hr
      · simp at hr
      · split at hr
        · simp at hr
        · obtain ⟨r1, r2⟩ := readExact_spec (n - rem.length) reader
          by_cases hle : n - rem.length ≤ reader.bytes.length
          · obtain ⟨s', q1, -, -⟩ := r1 hle
            rw [q1] at hr
            simp only [Io.bind_ok] at hr
            split at hr
            · simp at hr
            · split at hr
              · simp at hr
              · rw [Io.bind_ok] at hr
                rw [key _ hr, ← hrest, List.take_append, List.take_of_length_le (by omega : rem.length ≤ n)]
                exact ⟨rfl, by simp; omega⟩
          · rw [r2 (by omega)] at hr
            cases hfin : reader.fin <;> rw [hfin] at hr <;> simp only [Io.bind] at hr <;> cases hr
    · rw [if_neg hlt] at hr
      have : n = rem.length := by omega
      rw [key _ hr, ← hrest, this]
      simp
  · rw [if_neg h0] at hr
    have : n = 0 := by omega
    rw [key _ hr, this]
    simp

/-- C26 for clients that send nothing after the body: whatever the segmentation, the body of an
accepted request is exactly the declared bytes. -/
theorem C26_body_no_trailing_partial (feat : Features) (allocOk : Nat → Bool) (s : Sock)
    (head rest : Bytes) (hdrs line : Str) (rem : Bytes) (reader : Sock) (headers : Headers)
    (rl : RequestLine) (r : Request) (n : Nat)
    (hs : FirstSplit s.bytes blankLine head rest) (hh : readHead s = .ok (.head hdrs line rem reader))
    (hr : Request.fromRaw feat allocOk headers rl rem reader = .ok (some r))
    (hn : DeclaredLength headers.get n) (hrest : rest.length ≤ n) : r.body = rest := by
  have hrem : rem.length ≤ n := by
    obtain ⟨rem', reader', e1, e2, -⟩ := (readHead_spec s).2 head rest hs
    rw [hh] at e1
    unfold headOutcome at e1
    cases hu : fromUtf8 head with
    | none => simp [hu] at e1
    | some text =>
      rcases parseWithoutBody_spec text with ⟨hp, -⟩ | ⟨l, hd, -, hp⟩
      · simp [hu, hp] at e1
      · simp only [hu, hp, Io.ok.injEq, HeadOut.head.injEq] at e1
        rw [e1.2.2.1]
        have := congrArg List.length e2
        simp at this; omega
  rw [(C26_body_partial feat allocOk s head rest hdrs line rem reader headers rl r n hs hh hr hn hrem).1,
    List.take_of_length_le hrest]

/-- C26, the other half: if all declared bytes are sent, the length is below `isize::MAX` and
memory suffices, reading the body does not fail. -/
theorem C26_body_read (feat : Features) (allocOk : Nat → Bool) (headers : Headers)
    (rl : RequestLine) (rem : Bytes) (reader : Sock) (n : Nat)
    (hn : DeclaredLength headers.get n) (hmax : n ≤ i64Max) (halloc : ∀ k ≤ n, allocOk k = true)
    (hrem : rem.length ≤ n) (hsent : n ≤ (rem ++ reader.bytes).length) :
    Request.fromRaw feat allocOk headers rl rem reader =
      .ofRes (Request.parse feat rl headers ((rem ++ reader.bytes).take n)) := by
  have hn' : contentLength headers = n := DeclaredLength.unique (contentLength_declared headers) hn
  unfold Request.fromRaw
  simp only [hn']
  by_cases h0 : n > 0
  · rw [if_pos h0]
    by_cases hlt : rem.length < n
    · rw [if_pos hlt, if_neg (by omega), halloc _ (by omega)]
      rw [List.length_append] at hsent
      obtain ⟨s', q1, -, -⟩ := (readExact_spec (n - rem.length) reader).1 (by omega)
      rw [q1, List.take_append, List.take_of_length_le (by omega : rem.length ≤ n), Io.bind_ok,
        halloc n (Nat.le_refl n)]
      simp [Nat.not_lt.2 hmax]
    · rw [if_neg hlt]
      have : n = rem.length := by omega
      subst this
      simp
  · have : n = 0 := by omega
    subst this
    simp

def C26_headers : Headers :=
  { parsed := [(c!"content-length", c!"1")], raw := [⟨c!"Content-Length", c!"1"⟩] }

/-- C26 is false of the code: for the same bytes, `Content-Length: 1` and then `ab`, the body is
`ab` or `a` depending on whether the last byte arrives together with the head. -/
theorem C26_counterexample :
    let headText := c!"P / HTTP/1.1\r\nContent-Length: 1\r\n\r\na"
    let rl : RequestLine := ⟨.post, [], .http11⟩
    let s1 : Sock := ⟨[utf8 (headText ++ c!"b")], .eof⟩
    let s2 : Sock := ⟨[utf8 headText, utf8 c!"b"], .eof⟩
    s1.bytes = s2.bytes ∧
    readHead s1 = .ok (.head c!"Content-Length: 1" c!"P / HTTP/1.1" (utf8 c!"ab") ⟨[], .eof⟩) ∧
    readHead s2 = .ok (.head c!"Content-Length: 1" c!"P / HTTP/1.1" (utf8 c!"a") ⟨[utf8 c!"b"], .eof⟩) ∧
    Headers.parse true c!"Content-Length: 1" = .ok (some C26_headers) ∧
    Request.fromRaw .default (fun _ => true) C26_headers rl (utf8 c!"ab") ⟨[], .eof⟩ =
      .ok (some ⟨rl, C26_headers, utf8 c!"ab", []⟩) ∧
    Request.fromRaw .default (fun _ => true) C26_headers rl (utf8 c!"a") ⟨[utf8 c!"b"], .eof⟩ =
      .ok (some ⟨rl, C26_headers, utf8 c!"a", []⟩) := by
  refine ⟨by decide +kernel, by rfl, by rfl, by decide +kernel, by decide +kernel, by decide +kernel⟩

/-- C26, what the code does otherwise: with a positive declared length and more than that many
bytes read together with the head, the body is everything read so far. -/
theorem C26_body_overrun (feat : Features) (allocOk : Nat → Bool) (headers : Headers)
    (rl : RequestLine) (rem : Bytes) (reader : Sock) (n : Nat)
    (hn : DeclaredLength headers.get n) (h0 : 0 < n) (hrem : n ≤ rem.length) :
    Request.fromRaw feat allocOk headers rl rem reader =
      .ofRes (Request.parse feat rl headers rem) := by
  have hn' : contentLength headers = n := DeclaredLength.unique (contentLength_declared headers) hn
  unfold Request.fromRaw
  simp only [hn']
  rw [if_pos h0, if_neg (by omega)]
  rfl

example : DeclaredLength C26_headers.get 1 := Or.inl ⟨c!"1", by decide, (parseU64_iff _ _).1 (by decide)⟩

/-! ## C27 -/

/-- every header text is a list of CRLF-free lines joined by CRLF, so the next theorems cover
every header block -/
theorem C27_every_text_is_lines (text : Str) :
    ∃ lines : List Str, lines ≠ [] ∧ text = crlf.intercalate lines ∧ ∀ l ∈ lines, ¬ Occurs l crlf :=
  exists_lines text

/-- C27: an accepted header block. The raw list has one entry per line, in order, with the name and
value of that line as written; looking up a key gives the `", "`-joined values of the headers
whose lower-cased name is the key, in order, and nothing if there is none. -/
theorem C27_header_map (faithful : Bool) (lines : List Str) (hne : lines ≠ [])
    (hl : ∀ l ∈ lines, ¬ Occurs l crlf) (h : Headers)
    (hp : Headers.parse faithful (crlf.intercalate lines) = .ok (some h)) :
    h.raw.length = lines.length ∧
    (∀ (i : Nat) line hd, lines[i]? = some line → h.raw[i]? = some hd →
      HeaderLine faithful line hd.name hd.value) ∧
    (∀ k, h.get k = joined (h.raw.map fun hd => (hd.name, hd.value)) k) ∧
    (h.parsed.map (·.1)).Nodup := by
  rw [Headers.parse_lines faithful lines hne hl, Res.ok.injEq] at hp
  obtain ⟨⟨h1, h2⟩, hs, h3, h4⟩ := (parseLoop_spec faithful lines _ Headers.Ok.nil).1 h hp
  simp only [List.nil_append] at h3
  subst h3
  refine ⟨?_, ?_, h2, h1⟩
  · have := congrArg List.length h4
    simpa using this.symm
  · intro i line hd e1 e2
    have := congrArg (fun z => z[i]?) h4
    simp only [List.getElem?_map, e1, e2, Option.map_some, Option.some.injEq] at this
    exact (Header.parse_iff _ _ _).1 this

/-- C27, acceptance: a header block all of whose lines are header lines is accepted, and keeps
exactly those names and values. -/
theorem C27_accepts (faithful : Bool) (lines : List Str) (hne : lines ≠ [])
    (hl : ∀ l ∈ lines, ¬ Occurs l crlf) (hs : List Header) (hlen : hs.length = lines.length)
    (h : ∀ (i : Nat) line hd, lines[i]? = some line → hs[i]? = some hd →
      HeaderLine faithful line hd.name hd.value) :
    ∃ H, Headers.parse faithful (crlf.intercalate lines) = .ok (some H) ∧ H.raw = hs := by
  have hm : lines.map (Header.parse faithful) = hs.map some := by
    apply List.ext_getElem?
    intro i
    simp only [List.getElem?_map]
    cases e1 : lines[i]? with
    | none =>
      have : hs[i]? = none := by rw [List.getElem?_eq_none_iff] at e1 ⊢; omega
      simp [this]
    | some line =>
      cases e2 : hs[i]? with
      | none =>
        rw [List.getElem?_eq_none_iff] at e2
        rw [List.getElem?_eq_some_iff] at e1
        obtain ⟨hlt, -⟩ := e1; omega
      | some hd =>
        simp only [Option.map_some, Option.some.injEq]
        exact (Header.parse_iff _ _ _).2 (h i line hd e1 e2)
  obtain ⟨H, h1, h2⟩ := (parseLoop_spec faithful lines _ Headers.Ok.nil).2 hs hm
  exact ⟨H, by rw [Headers.parse_lines faithful lines hne hl, h1], by simpa using h2⟩

/-- C27, refusal: one line that is not a header line makes the whole block be refused. -/
theorem C27_refuses (faithful : Bool) (lines : List Str) (hl : ∀ l ∈ lines, ¬ Occurs l crlf)
    (line : Str) (hm : line ∈ lines) (hno : ∀ n v, ¬ HeaderLine faithful line n v) :
    Headers.parse faithful (crlf.intercalate lines) = .ok none := by
  have hne : lines ≠ [] := by rintro rfl; simp at hm
  rw [Headers.parse_lines faithful lines hne hl]
  cases hp : Headers.parseLoop faithful (lines.map utf8) ⟨[], []⟩ with
  | none => rfl
  | some h =>
    exfalso
    obtain ⟨-, hs, -, h4⟩ := (parseLoop_spec faithful lines _ Headers.Ok.nil).1 h hp
    have : Header.parse faithful line ∈ hs.map some := h4 ▸ List.mem_map_of_mem hm
    rw [List.mem_map] at this
    obtain ⟨hd, -, h5⟩ := this
    exact hno hd.name hd.value ((Header.parse_iff _ _ _).1 h5.symm)

example : Headers.parse true c!"Host: x\r\naccept:\t a\r\nAccept: b" = .ok (some
    { parsed := [(c!"host", c!"x"), (c!"accept", c!"a, b")],
      raw := [⟨c!"Host", c!"x"⟩, ⟨c!"accept", c!"a"⟩, ⟨c!"Accept", c!"b"⟩] }) := by decide +kernel
example : joined [(c!"Host", c!"x"), (c!"accept", c!"a"), (c!"Accept", c!"b")] c!"accept"
    = some c!"a, b" := by decide
example : HeaderLine true c!"accept:\t a" c!"accept" c!"a" :=
  (Header.parse_iff true _ ⟨c!"accept", c!"a"⟩).1 (by decide +kernel)

/-! ## C28 -/

/-- C28, the part that holds: in faithful mode every accepted header name is a non-empty token, and
no accepted value contains a control character other than U+001F.
Missing from the full claim: U+001F (see `C28_counterexample`). -/
theorem C28_wellformed_partial (line : Str) (h : Header) (hp : Header.parse true line = some h) :
    h.name ≠ [] ∧ (∀ c ∈ h.name, isTchar c) ∧
    ∀ c ∈ h.value, isControl c → c.toNat = 0x1F := by
  obtain ⟨ws, -, h1, -, -, -, h2⟩ := (Header.parse_iff _ _ _).1 hp
  refine ⟨h1, (h2 rfl).1, fun c hc hctl => ?_⟩
  have := (h2 rfl).2 c hc
  unfold isRefusedControl at this
  by_cases h3 : c.toNat = 0x1F
  · exact h3
  · exact absurd ⟨hctl, h3⟩ this

/-- C28, in particular: neither names nor values contain CR, LF or NUL. -/
theorem C28_no_crlf_nul (line : Str) (h : Header) (hp : Header.parse true line = some h) :
    ∀ c ∈ h.name ++ h.value, c ≠ '\r' ∧ c ≠ '\n' ∧ c.toNat ≠ 0 := by
  obtain ⟨-, h1, h2⟩ := C28_wellformed_partial line h hp
  intro c hc
  rw [List.mem_append] at hc
  rcases hc with hc | hc
  · have h3 := h1 c hc
    refine ⟨?_, ?_, ?_⟩
    · rintro rfl; revert h3; decide
    · rintro rfl; revert h3; decide
    · intro h0
      have : c = Char.ofNat 0 := by rw [← h0, Char.ofNat_toNat]
      subst this; revert h3; decide
  · have := h2 c hc
    refine ⟨?_, ?_, ?_⟩
    · rintro rfl; exact absurd (this (by decide)) (by decide)
    · rintro rfl; exact absurd (this (by decide)) (by decide)
    · intro h0
      have h3 := this (Or.inl (by omega))
      omega

/-- The full claim of C28. -/
def C28_statement : Prop :=
  ∀ (line : Str) (h : Header), Header.parse true line = some h →
    h.name ≠ [] ∧ (∀ c ∈ h.name, isTchar c) ∧ ∀ c ∈ h.value, ¬ isControl c

/-- C28 is false of the code: a value consisting of the control character U+001F is accepted. -/
theorem C28_counterexample : ¬ C28_statement ∧
    Header.parse true (c!"A: " ++ [Char.ofNat 0x1F]) = some ⟨c!"A", [Char.ofNat 0x1F]⟩ ∧
      isControl (Char.ofNat 0x1F) := by
  have h : Header.parse true (c!"A: " ++ [Char.ofNat 0x1F]) = some ⟨c!"A", [Char.ofNat 0x1F]⟩ ∧
      isControl (Char.ofNat 0x1F) := by decide +kernel
  exact ⟨fun hs => (hs _ _ h.1).2.2 _ (List.mem_singleton.2 rfl) h.2, h⟩

example : Header.parse true c!"A: b c" = some ⟨c!"A", c!"b c"⟩ := by decide +kernel
example : Header.parse true (c!"A: " ++ [Char.ofNat 0x1E]) = none := by decide +kernel

/-! ## C29 -/

theorem methodOf_spec (m : Str) :
    (∀ x, (m, x) ∈ methodTable → methodOf m = x) ∧
    ((∀ x, (m, x) ∉ methodTable) → methodOf m = .none) := by
  constructor
  · intro x hx
    have : ∀ p ∈ methodTable, methodOf p.1 = p.2 := by decide +kernel
    exact this _ hx
  · intro hx
    unfold methodOf
    have hn : ∀ t x, (t, x) ∈ methodTable → m ≠ t := fun t x h he => hx x (he ▸ h)
    rw [if_neg (hn _ .post (by decide)), if_neg (hn _ .get (by decide)),
      if_neg (hn _ .delete (by decide)), if_neg (hn _ .put (by decide)),
      if_neg (hn _ .options (by decide)), if_neg (hn _ .head (by decide)),
      if_neg (hn _ .trace (by decide)), if_neg (hn _ .connect (by decide)),
      if_neg (hn _ .patch (by decide))]

theorem versionOf_spec (v : Str) :
    (∀ x, (v, x) ∈ versionTable → versionOf v = x) ∧
    ((∀ x, (v, x) ∉ versionTable) → versionOf v = .httpInvalid) := by
  constructor
  · intro x hx
    have : ∀ p ∈ versionTable, versionOf p.1 = p.2 := by decide +kernel
    exact this _ hx
  · intro hx
    unfold versionOf
    have hn : ∀ t x, (t, x) ∈ versionTable → v ≠ t := fun t x h he => hx x (he ▸ h)
    rw [if_neg (hn _ .http11 (by decide)), if_neg (hn _ .http10 (by decide)),
      if_neg (hn _ .http02 (by decide)), if_neg (hn _ .http09 (by decide))]

theorem splitAt5_http (v : Str) : splitAtByte 5 (c!"HTTP/" ++ v) = .ok (c!"HTTP/", v) := by
  have := splitAtByte_append c!"HTTP/" v
  have hl : (utf8 c!"HTTP/").length = 5 := by decide
  rwa [hl] at this

/-- C29: the line `METHOD PATH HTTP/VERSION` is parsed to that method (the "unknown" value if the
token is not one of the nine), the path with its `..` resolved as in C02, and that version (the
"invalid" value if it is none of the four). -/
theorem C29_roundtrip (faithful : Bool) (m v : Str) (pieces : List Str)
    (hm : ' ' ∉ m) (hv : ' ' ∉ v) (hne : pieces ≠ []) (hp : ∀ x ∈ pieces, ' ' ∉ x ∧ '/' ∉ x)
    (hc : ¬ Climbs pieces) :
    ∃ rl, RequestLine.parse faithful
        (m ++ c!" " ++ ['/'].intercalate pieces ++ c!" HTTP/" ++ v) = .ok (some rl) ∧
      (∀ x, (m, x) ∈ methodTable → rl.method = x) ∧
      ((∀ x, (m, x) ∉ methodTable) → rl.method = .none) ∧
      rl.path = resolve pieces ∧
      (∀ x, (v, x) ∈ versionTable → rl.version = x) ∧
      ((∀ x, (v, x) ∉ versionTable) → rl.version = .httpInvalid) := by
  have hpath : Path.parse (['/'].intercalate pieces) = some (resolve pieces) := by
    rw [Path.parse_join hne fun x hx => (hp x hx).2]
    cases hq : Path.parseLoop [] pieces with
    | none => exact absurd (by rw [Path.parseLoop_none] at hq; simpa [Climbs] using hq) hc
    | some q => rw [Path.parseLoop_resolve hq (by simp) fun x hx => (hp x hx).2]; simp
  have hsp : ' ' ∉ ['/'].intercalate pieces := by
    clear hpath hc hne
    induction pieces with
    | nil => simp [List.intercalate]
    | cons x xs ih =>
      have ih := ih fun y hy => hp y (by simp [hy])
      have hx := (hp x (by simp)).1
      cases xs with
      | nil => simpa [List.intercalate] using hx
      | cons y ys =>
        simp only [List.intercalate, List.intersperse_cons_cons, List.flatten_cons] at ih ⊢
        simp only [List.mem_append, not_or]
        exact ⟨hx, by simp, ih⟩
  have hv' : ' ' ∉ c!"HTTP/" ++ v := by
    rw [List.mem_append, not_or]; exact ⟨by decide, hv⟩
  have hsplit : splitChar ' ' (m ++ c!" " ++ ['/'].intercalate pieces ++ c!" HTTP/" ++ v)
      = [m, ['/'].intercalate pieces, c!"HTTP/" ++ v] := by
    have e : m ++ c!" " ++ ['/'].intercalate pieces ++ c!" HTTP/" ++ v
        = m ++ ' ' :: (['/'].intercalate pieces ++ ' ' :: (c!"HTTP/" ++ v)) := by simp
    rw [e, splitChar_append_of_not_mem hm, splitChar_append_of_not_mem hsp, splitChar_of_not_mem hv']
  refine ⟨⟨methodOf m, resolve pieces, versionOf v⟩, ?_, (methodOf_spec m).1, (methodOf_spec m).2, rfl,
    (versionOf_spec v).1, (versionOf_spec v).2⟩
  unfold RequestLine.parse
  rw [hsplit]
  simp only [hpath, splitAt5_http, Res.bind_ok']
  simp

/-- every line is a join of space-free tokens, so the next theorem covers every line -/
theorem C29_every_line_is_tokens (line : Str) :
    ∃ toks : List Str, toks ≠ [] ∧ (∀ t ∈ toks, ' ' ∉ t) ∧ [' '].intercalate toks = line :=
  ⟨splitChar ' ' line, splitChar_ne_nil _ _, splitChar_not_mem _ _, splitChar_intercalate _ _⟩

/-- C29, refusals in faithful mode: among the lines the parser returns from at all, those with fewer
than three tokens, with more than three, or whose third token does not start with `HTTP/` are
refused. (It does not return, but panics, exactly when the path climbs above the root or the third
token cannot be cut after five bytes: see `C29_panics`.) -/
theorem C29_refuses (toks : List Str) (hne : toks ≠ []) (hs : ∀ t ∈ toks, ' ' ∉ t)
    (hbad : toks.length ≠ 3 ∨ ∀ v, toks[2]? ≠ some (c!"HTTP/" ++ v)) :
    RequestLine.parse true ([' '].intercalate toks) = .ok none ∨
    RequestLine.parse true ([' '].intercalate toks) = .panic := by
  unfold RequestLine.parse
  rw [splitChar_join hne hs]
  match toks with
  | [] => exact Or.inl rfl
  | [_] => exact Or.inl rfl
  | [m, p] =>
    simp only
    cases Path.parse p with
    | none => exact Or.inr rfl
    | some q => exact Or.inl rfl
  | m :: p :: version :: rest =>
    simp only
    cases Path.parse p with
    | none => exact Or.inr rfl
    | some q =>
      simp only
      cases h5 : splitAtByte 5 version with
      | panic => exact Or.inr rfl
      | ok x =>
        obtain ⟨first, ver⟩ := x
        left
        simp only [Res.bind_ok']
        rw [if_pos]
        refine ⟨trivial, ?_⟩
        rcases hbad with hb | hb
        · right; rintro rfl; simp at hb
        · left; rintro rfl
          apply hb ver
          have := (splitAtByte_ok h5).1
          simpa using this

/-- C29: exactly when the parser panics instead of answering: the second token is a path that climbs
above the root, or there is a third token that has no character boundary after five bytes. -/
theorem C29_panics (faithful : Bool) (toks : List Str) (hne : toks ≠ []) (hs : ∀ t ∈ toks, ' ' ∉ t) :
    RequestLine.parse faithful ([' '].intercalate toks) = .panic ↔
      (∃ p, toks[1]? = some p ∧
        ((∃ pieces : List Str, pieces ≠ [] ∧ (∀ x ∈ pieces, '/' ∉ x) ∧ p = ['/'].intercalate pieces ∧
            Climbs pieces) ∨
         ∃ v, toks[2]? = some v ∧ ¬ ∃ a b, v = a ++ b ∧ (utf8 a).length = 5)) := by
  have hclimb : ∀ p : Str, Path.parse p = none ↔
      ∃ pieces : List Str, pieces ≠ [] ∧ (∀ x ∈ pieces, '/' ∉ x) ∧ p = ['/'].intercalate pieces ∧
        Climbs pieces := by
    intro p
    constructor
    · intro hp
      refine ⟨splitChar '/' p, splitChar_ne_nil _ _, splitChar_not_mem _ _,
        (splitChar_intercalate _ _).symm, ?_⟩
      unfold Path.parse at hp
      rw [Path.parseLoop_none] at hp
      simpa [Climbs] using hp
    · rintro ⟨pieces, h1, h2, rfl, h4⟩
      rw [Path.parse_join h1 h2, Path.parseLoop_none]
      simpa [Climbs] using h4
  have h5 : ∀ v : Str, splitAtByte 5 v = .panic ↔ ¬ ∃ a b, v = a ++ b ∧ (utf8 a).length = 5 := by
    intro v
    constructor
    · rintro hp ⟨a, b, rfl, hl⟩
      have := splitAtByte_append a b
      rw [hl, hp] at this; simp at this
    · intro hno
      cases h : splitAtByte 5 v with
      | panic => rfl
      | ok x => exact absurd ⟨x.1, x.2, splitAtByte_ok h⟩ hno
  unfold RequestLine.parse
  rw [splitChar_join hne hs]
  match toks with
  | [] => simp
  | [_] => simp
  | [m, p] =>
    simp only [List.getElem?_cons_succ, List.getElem?_cons_zero, Option.some.injEq, exists_eq_left',
      List.getElem?_nil, reduceCtorEq, false_and, exists_false, or_false]
    rw [← hclimb]
    cases Path.parse p <;> simp
  | m :: p :: version :: rest =>
    simp only [List.getElem?_cons_succ, List.getElem?_cons_zero, Option.some.injEq, exists_eq_left']
    rw [← hclimb, ← h5]
    cases Path.parse p with
    | none => simp
    | some q =>
      simp only [reduceCtorEq, false_or]
      cases h : splitAtByte 5 version with
      | panic => simp
      | ok x =>
        simp only [Res.bind_ok', reduceCtorEq, iff_false]
        split <;> simp

example : RequestLine.parse true c!"GET /a/../b HTTP/1.1" = .ok (some ⟨.get, [c!"b"], .http11⟩) := by
  decide +kernel
example : RequestLine.parse true c!"BREW /pot HTTP/7" = .ok (some ⟨.none, [c!"pot"], .httpInvalid⟩) := by
  decide +kernel
example : RequestLine.parse true c!"GET / HTTP/1.1 x" = .ok none := by decide +kernel
example : RequestLine.parse true c!"GET / FTTP/1.1" = .ok none := by decide +kernel
example : RequestLine.parse true c!"GET /.. HTTP/1.1" = .panic := by decide +kernel
example : RequestLine.parse true c!"GET / abc" = .panic := by decide +kernel

/-! ## C31 -/

/-- C31: parsing never fails; each of the two parameters is the value of the last entry of the
comma-separated list that is well-formed for it, and absent if there is none. All other entries
are without effect. -/
theorem C31_keep_alive (entries : List Str) (hne : entries ≠ []) (hc : ∀ e ∈ entries, ',' ∉ e) :
    ∃ k, KeepAlive.parse ([','].intercalate entries) = .ok k ∧
      (∀ n, k.timeout = some n ↔ LastParam entries c!"timeout" n) ∧
      (∀ n, k.max = some n ↔ LastParam entries c!"max" n) := by
  unfold KeepAlive.parse
  rw [splitChar_join hne hc]
  obtain ⟨r, h1, h2, h3⟩ := KeepAlive.loop_spec entries ⟨none, none⟩
  have key : ∀ (key : Str) (r : Option Nat), LastOr entries key none r →
      ∀ n, r = some n ↔ LastParam entries key n := by
    intro key r h n
    refine ⟨fun hr => ?_, h.1 n⟩
    by_cases hex : ∃ m, LastParam entries key m
    · obtain ⟨m, hm⟩ := hex
      have := h.1 m hm
      rw [hr] at this
      rwa [Option.some.inj this]
    · exfalso
      have hnone : ∀ e ∈ entries, ∀ n, ¬ IsParam e key n := by
        clear h hne hc h1 h2 h3
        induction entries with
        | nil => simp
        | cons e es ih =>
          have hes : ∀ x ∈ es, ∀ n, ¬ IsParam x key n := by
            apply ih
            rintro ⟨m, pre, x, post, e1, e2, e3⟩
            exact hex ⟨m, e :: pre, x, post, by simp [e1], e2, e3⟩
          intro x hx m hm
          rcases List.mem_cons.1 hx with rfl | hx
          · exact hex ⟨m, [], x, es, rfl, hm, hes⟩
          · exact hes x hx m hm
      rw [h.2 hnone] at hr
      simp at hr
  exact ⟨r, h1, key _ _ h2, key _ _ h3⟩

example : KeepAlive.parse c!"timeout=5, max=x, foo=1,max=10 , timeout = 7" = .ok ⟨some 5, some 10⟩ := by
  decide +kernel
example : LastParam [c!"timeout=5", c!" max=1"] c!"max" 1 :=
  ⟨[c!"timeout=5"], c!" max=1", [], rfl, ⟨c!"1", (trimmed_iff _ _).2 (by decide), (parseU64_iff _ _).1 (by decide)⟩, by simp⟩

example := C28_no_crlf_nul c!"A: b c" ⟨c!"A", c!"b c"⟩ (by decide +kernel)
/-- two tokens too many, and another protocol -/
example := C29_refuses [c!"GET", c!"/", c!"a", c!"b", c!"HTTP/1.1"] (by decide) (by decide) (.inl (by decide))
example := C29_refuses [c!"GET", c!"/", c!"FTTP/1.1"] (by decide) (by decide)
  (.inr (by intro v h; simp at h))

end Octane
