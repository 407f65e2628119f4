import Verif.Proof.Held
import Verif.Props.Work
import Verif.Props.Large
/-
C152: what a request occupies while its handlers run.
-/
namespace Octane
open Spec
universe u
variable {W : Type u} {S : Type u}

theorem Server.held_facts {sv : Server W} {s : Sock} {n : Nat} (h : sv.held s = some n) :
    ∃ hdrs line rem reader H rl req c, readHead s = .ok (.head hdrs line rem reader) ∧
      Headers.parse sv.feat.faithful hdrs = .ok (some H) ∧
      RequestLine.parse sv.feat.faithful line = .ok (some rl) ∧
      Request.fromRaw sv.feat sv.allocOk H rl rem reader = .ok (some req) ∧
      Http.validate req = .ok c ∧ c.isMalformed = false ∧ req.requestLine.method.isSome = true ∧
      n = (readHeadC s).2.held + H.size + Request.bodyCopy H rem + 3 * req.size := by
  unfold Server.held at h
  simp only [C93_same] at h
  split at h
  · rename_i hdrs line rem reader hr
    split at h
    · rename_i H rl hH hL
      split at h
      · rename_i req hreq
        split at h
        · rename_i c hc
          split at h
          · cases h
          · rename_i hmal
            split at h
            · rename_i hm
              refine ⟨hdrs, line, rem, reader, H, rl, req, c, hr, ?_, ?_, hreq, hc, by simpa using hmal, hm, ?_⟩
              · cases hp : Headers.parse sv.feat.faithful hdrs with
                | panic => rw [hp] at hH; simp [Res.bind] at hH
                | ok o =>
                  rw [hp] at hH
                  cases o with
                  | none => simp [Res.bind, Res.unwrap] at hH
                  | some x => simp [Res.bind, Res.unwrap] at hH; rw [hH]
              · cases hp : RequestLine.parse sv.feat.faithful line with
                | panic => rw [hp] at hL; simp [Res.bind] at hL
                | ok o =>
                  rw [hp] at hL
                  cases o with
                  | none => simp [Res.bind, Res.unwrap] at hL
                  | some x => simp [Res.bind, Res.unwrap] at hL; rw [hL]
              · injection h with h; exact h.symm
            · cases h
        · cases h
      · cases h
    · cases h
  · cases h

theorem Server.held_of {sv : Server W} {s : Sock} {req : Request} {c : Http} (h : Reads sv.feat sv.allocOk s req)
    (hv : Http.validate req = .ok c) (hc : c.isMalformed = false) (hm : req.requestLine.method.isSome = true) :
    ∃ rem, sv.held s = some ((readHeadC s).2.held + 4 * req.headers.size + 3 * req.requestLine.size +
      Request.bodyCopy req.headers rem) := by
  obtain ⟨hdrs, line, rem, reader, H, rl, h1, h2, h3, h4⟩ := h
  obtain ⟨e1, e2⟩ := fromRaw_fields h4
  refine ⟨rem, ?_⟩
  unfold Server.held
  simp only [C93_same, h1, h2, h3, Res.bind_ok', Res.unwrap_some, h4, hv, hc, hm, Bool.false_eq_true, if_false, if_true,
    Option.some.injEq]
  rw [Request.size, e1, e2]
  omega

theorem readHead_parts {s : Sock} {head rest : Bytes} {hdrs line : Str} {rem : Bytes} {reader : Sock}
    (hs : FirstSplit s.bytes blankLine head rest) (h : readHead s = .ok (.head hdrs line rem reader)) :
    head = utf8 (line ++ crlf ++ hdrs) ∧ rem ++ reader.bytes = rest := by
  rcases Classical.em (∃ line hdrs, ∃ text, head = utf8 text ∧ FirstSplit text crlf line hdrs) with hg | hg
  · obtain ⟨line', hdrs', text, g1, g2⟩ := hg
    obtain ⟨rem', reader', r1', r2, -⟩ := ((C25_head_from_bytes s).2 _ _ hs).1 line' hdrs' ⟨text, g1, g2⟩
    rw [h] at r1'
    simp only [Io.ok.injEq, HeadOut.head.injEq] at r1'
    obtain ⟨rfl, rfl, rfl, rfl⟩ := r1'
    exact ⟨by rw [g1, g2.1], r2⟩
  · have hbad := ((C25_head_from_bytes s).2 _ _ hs).2 (by
      intro text ht hocc
      obtain ⟨a, b, hx⟩ := FirstSplit.exists hocc
      exact hg ⟨a, b, text, ht, hx⟩)
    rw [h] at hbad
    cases hbad

/-! ### C152 -/

/-- The number is there exactly when a handler can be called: a request has been read, its checks are passed and its
method is known. -/
theorem C152_when (sv : Server W) (s : Sock) :
    (∃ n, sv.held s = some n) ↔ ∃ req c, Reads sv.feat sv.allocOk s req ∧ Http.validate req = .ok c ∧
      c.isMalformed = false ∧ req.requestLine.method.isSome = true := by
  constructor
  · rintro ⟨n, h⟩
    obtain ⟨hdrs, line, rem, reader, H, rl, req, c, h1, h2, h3, h4, h5, h6, h7, -⟩ := Server.held_facts h
    exact ⟨req, c, ⟨hdrs, line, rem, reader, H, rl, h1, h2, h3, h4⟩, h5, h6, h7⟩
  · rintro ⟨req, c, h1, h2, h3, h4⟩
    obtain ⟨rem, h⟩ := Server.held_of h1 h2 h3 h4
    exact ⟨_, h⟩

/-- Nine times the head and twice what follows it is the most that is kept, however many fields there are and however
many handlers. -/
theorem C152_bound (sv : Server W) (s : Sock) (head rest : Bytes) (hs : FirstSplit s.bytes blankLine head rest) (n : Nat)
    (h : sv.held s = some n) : n ≤ 9 * head.length + 2 * rest.length + 4 := by
  obtain ⟨hdrs, line, rem, reader, H, rl, req, c, h1, h2, h3, h4, -, -, -, rfl⟩ := Server.held_facts h
  obtain ⟨e1, e2⟩ := fromRaw_fields h4
  have a1 := readHeadC_taken s _ _ _ _ h1
  have a2 := Headers.parse_size _ _ _ h2
  have a3 := RequestLine.parse_size _ _ _ h3
  have a4 := fromRaw_some_length h4
  have a5 : Request.bodyCopy H rem ≤ contentLength H := by unfold Request.bodyCopy; split <;> omega
  have a6 : s.bytes.length = head.length + 4 + rest.length := by rw [hs.1]; simp [blankLine]; omega
  obtain ⟨a7, a9⟩ := readHead_parts hs h1
  rw [a7] at a6 ⊢
  rw [← a9] at a6 ⊢
  simp only [utf8_append, List.length_append, show (utf8 crlf).length = 2 from rfl] at a6 ⊢
  have a8 : req.size = rl.size + H.size := by rw [Request.size, e1, e2]
  omega

/-- Of what follows the head no more is kept than was sent, or than the body twice over but for one byte: a body that
came in full with the head is not copied. -/
theorem C152_body (sv : Server W) (s : Sock) (head rest : Bytes) (hs : FirstSplit s.bytes blankLine head rest) (n : Nat)
    (h : sv.held s = some n) (req : Request) (hr : Reads sv.feat sv.allocOk s req) (len : Nat)
    (hd : DeclaredLength req.headers.get len) : n ≤ 9 * head.length + 4 + max rest.length (2 * len - 1) := by
  obtain ⟨hdrs, line, rem, reader, H, rl, req', c, h1, h2, h3, h4, -, -, -, rfl⟩ := Server.held_facts h
  have hu := Reads.unique hr ⟨hdrs, line, rem, reader, H, rl, h1, h2, h3, h4⟩
  subst hu
  obtain ⟨e1, e2⟩ := fromRaw_fields h4
  rw [e2] at hd
  have hl : contentLength H = len := DeclaredLength.unique (contentLength_declared H) hd
  have a1 := readHeadC_taken s _ _ _ _ h1
  have a2 := Headers.parse_size _ _ _ h2
  have a3 := RequestLine.parse_size _ _ _ h3
  have a4 := fromRaw_some_length h4
  have a5 : rem.length + Request.bodyCopy H rem ≤ max (rem.length + reader.bytes.length) (2 * len - 1) := by
    unfold Request.bodyCopy; split <;> omega
  have a6 : s.bytes.length = head.length + 4 + rest.length := by rw [hs.1]; simp [blankLine]; omega
  obtain ⟨a7, a9⟩ := readHead_parts hs h1
  rw [a7] at a6 ⊢
  rw [← a9] at a6 ⊢
  simp only [utf8_append, List.length_append, show (utf8 crlf).length = 2 from rfl] at a6 ⊢
  have a8 : req.size = rl.size + H.size := by rw [Request.size, e1, e2]
  omega

/-- The body is kept at most once beside what came with the last read of the head. -/
theorem C152_once (sv : Server W) (s : Sock) (head rest : Bytes) (hs : FirstSplit s.bytes blankLine head rest) (n : Nat)
    (h : sv.held s = some n) (req : Request) (hr : Reads sv.feat sv.allocOk s req) (len : Nat)
    (hd : DeclaredLength req.headers.get len) : n ≤ 9 * head.length + len + 515 := by
  obtain ⟨hdrs, line, rem, reader, H, rl, req', c, h1, h2, h3, h4, -, -, -, rfl⟩ := Server.held_facts h
  have hu := Reads.unique hr ⟨hdrs, line, rem, reader, H, rl, h1, h2, h3, h4⟩
  subst hu
  obtain ⟨e1, e2⟩ := fromRaw_fields h4
  rw [e2] at hd
  have hl : contentLength H = len := DeclaredLength.unique (contentLength_declared H) hd
  have a1 := (C92_head s).2 _ _ hs
  have a2 := Headers.parse_size _ _ _ h2
  have a3 := RequestLine.parse_size _ _ _ h3
  have a5 : Request.bodyCopy H rem ≤ len := by unfold Request.bodyCopy; split <;> omega
  obtain ⟨a7, -⟩ := readHead_parts hs h1
  rw [a7] at a1 ⊢
  simp only [utf8_append, List.length_append, show (utf8 crlf).length = 2 from rfl] at a1 ⊢
  have a8 : req.size = rl.size + H.size := by rw [Request.size, e1, e2]
  omega

/-- Nothing is left out: the head with its blank line, the body that the handlers get, the headers four times and the
path three times. -/
theorem C152_at_least (sv : Server W) (s : Sock) (head rest : Bytes) (hs : FirstSplit s.bytes blankLine head rest)
    (n : Nat) (h : sv.held s = some n) (req : Request) (hr : Reads sv.feat sv.allocOk s req) :
    head.length + 4 + req.body.length + 4 * req.headers.size + 3 * req.requestLine.size ≤ n := by
  obtain ⟨hdrs, line, rem, reader, H, rl, req', c, h1, h2, h3, h4, -, -, -, rfl⟩ := Server.held_facts h
  have hu := Reads.unique hr ⟨hdrs, line, rem, reader, H, rl, h1, h2, h3, h4⟩
  subst hu
  obtain ⟨e1, e2⟩ := fromRaw_fields h4
  have a1 := readHeadC_taken s _ _ _ _ h1
  have a4 := fromRaw_body_le h4
  have a6 : s.bytes.length = head.length + 4 + rest.length := by rw [hs.1]; simp [blankLine]; omega
  obtain ⟨-, a9⟩ := readHead_parts hs h1
  rw [← a9, List.length_append] at a6
  have a8 : req.size = req.requestLine.size + req.headers.size := rfl
  rw [← e2] at a4 ⊢
  omega

/-- Exactly: the head with its blank line, what came after it with the last read of the head, the whole body again if it
had not come in full by then, the headers four times and the path three times. -/
theorem C152_exact (sv : Server W) (s : Sock) (head rest : Bytes) (hs : FirstSplit s.bytes blankLine head rest)
    (n : Nat) (h : sv.held s = some n) (req : Request) (hr : Reads sv.feat sv.allocOk s req) (len : Nat)
    (hd : DeclaredLength req.headers.get len) :
    ∃ hdrs line rem reader, readHead s = .ok (.head hdrs line rem reader) ∧ rem ++ reader.bytes = rest ∧
      rem.length ≤ 511 ∧
      n = head.length + 4 + rem.length + (if rem.length < len then len else 0) + 4 * req.headers.size +
        3 * req.requestLine.size := by
  obtain ⟨hdrs, line, rem, reader, H, rl, req', c, h1, h2, h3, h4, -, -, -, rfl⟩ := Server.held_facts h
  have hu := Reads.unique hr ⟨hdrs, line, rem, reader, H, rl, h1, h2, h3, h4⟩
  subst hu
  obtain ⟨e1, e2⟩ := fromRaw_fields h4
  rw [e2] at hd
  have hl : contentLength H = len := DeclaredLength.unique (contentLength_declared H) hd
  have a1 := readHeadC_taken s _ _ _ _ h1
  have a0 := (C92_head s).2 _ _ hs
  have a6 : s.bytes.length = head.length + 4 + rest.length := by rw [hs.1]; simp [blankLine]; omega
  obtain ⟨-, a9⟩ := readHead_parts hs h1
  have a7 := congrArg List.length a9
  rw [List.length_append] at a7
  have a8 : req.size = req.requestLine.size + req.headers.size := rfl
  refine ⟨hdrs, line, rem, reader, h1, a9, by omega, ?_⟩
  unfold Request.bodyCopy
  rw [hl, ← e2]
  omega

/-- In all at most nine times the bytes that the client has sent. -/
theorem C152_total (sv : Server W) (s : Sock) (n : Nat) (h : sv.held s = some n) : n ≤ 9 * s.bytes.length := by
  have hocc : Occurs s.bytes blankLine := by
    obtain ⟨hdrs, line, rem, reader, H, rl, req, c, h1, -⟩ := Server.held_facts h
    apply Classical.byContradiction
    intro hno
    have := (C25_head_from_bytes s).1 hno
    rw [h1] at this
    cases hfin : s.fin <;> simp [hfin] at this
  obtain ⟨head, rest, hs⟩ := FirstSplit.exists hocc
  have h1 := C152_bound sv s head rest hs n h
  have h2 : s.bytes.length = head.length + 4 + rest.length := by rw [hs.1]; simp [blankLine]; omega
  omega

/-- The maps of variables hold references: for every handler that applies one pair for each of its variables, so never
more than the path has segments. -/
theorem C152_pairs (calls : List (Call S)) (hf : FairL calls) (r : Router S) (hr : execL Router.new calls = .ok r)
    (uv : Bool) (rl : RequestLine) (hm : rl.method ≠ .all) :
    Router.pairs uv r rl = (((logOfL calls).filter fun e => e.target.applies uv rl.method rl.path).map
      fun e => (e.target.vars uv rl.path).length).sum ∧
    Router.pairs uv r rl ≤ applicableCount uv rl.method rl.path (logOfL calls) * rl.path.length := by
  obtain ⟨r', h1, h2⟩ := Router.execL_inv calls hf Router.new [] Router.Inv.new
  rw [hr, Res.ok.injEq] at h1
  subst h1
  rw [List.nil_append] at h2
  have e := Router.pairs_eq h2 uv rl hm
  refine ⟨e, ?_⟩
  rw [e, applicableCount]
  induction (logOfL calls).filter fun e => e.target.applies uv rl.method rl.path with
  | nil => simp
  | cons a l ih =>
    have := Spec.Target.vars_length uv a.target rl.path
    simp only [List.map_cons, List.sum_cons, List.length_cons, Nat.add_mul, Nat.one_mul]
    omega

theorem Http.validate_hosted {req : Request} (hv : req.requestLine.version = .http11)
    (hh : (req.headers.get c!"host").isSome = true) : ∃ c, Http.validate req = .ok c ∧ c.isMalformed = false := by
  refine ⟨_, by unfold Http.validate; rw [hv], ?_⟩
  unfold Http.http11Check
  have : ¬ (req.headers.get c!"host").isNone = true := by
    cases h : req.headers.get c!"host" with
    | none => rw [h] at hh; cases hh
    | some v => simp
  simp only [if_neg this]
  split
  · split
    · rfl
    · split <;> rfl
  · rfl

theorem Headers.size_ge {H : Headers} {hs : List (Str × Str)} (h1 : H.raw.map hpair = hs) (h : Str × Str) (hm : h ∈ hs)
    (k v : Str) (h2 : H.get k = some v) :
    (utf8 h.1).length + (utf8 h.2).length + (utf8 k).length + (utf8 v).length ≤ H.size := by
  have key : ∀ {α : Type} (f : α → Nat) (l : List α) (a : α), a ∈ l → f a ≤ (l.map f).sum := by
    intro α f l a ha
    induction l with
    | nil => cases ha
    | cons b l ih =>
      rw [List.map_cons, List.sum_cons]
      rcases List.mem_cons.1 ha with rfl | ha
      · omega
      · have := ih ha; omega
  subst h1
  obtain ⟨x, hx, rfl⟩ := List.mem_map.1 hm
  have a1 := key (fun h : Header => (utf8 h.name).length + (utf8 h.value).length) H.raw x hx
  have a2 := key (fun e : Str × Str => (utf8 e.1).length + (utf8 e.2).length) H.parsed (k, v) (HMap.mem_of_get h2)
  unfold Headers.size
  simp only [hpair] at a1 a2 ⊢
  omega

theorem utf8_xs (n : Nat) : (utf8 (List.replicate n 'x')).length = n := by
  induction n with
  | zero => rfl
  | succ n ih =>
    rw [List.replicate_succ, utf8_cons, List.length_append, ih]
    have : (String.utf8EncodeChar 'x').length = 1 := by decide +kernel
    omega

/-- the text of `GET /a` with a header of `n` characters -/
theorem padded_text (n : Nat) : (padded StrictExample.qa n).bytes =
    utf8 c!"GET /a HTTP/1.1\r\nHost: b\r\nX: " ++ utf8 (List.replicate n 'x') ++ blankLine := by
  simp only [padded, StrictExample.qa, WireReq.bytes, WireReq.line, wireHeader, List.cons_append, List.nil_append,
    List.map_cons, List.map_nil, List.append_nil, ← utf8_append]
  congr 2
  simp [intercalate_cons_cons, List.intercalate, crlf]

/-- Nine is reached: no bound of eight times the bytes holds, for any server. -/
theorem C152_nine (sv : Server W) : ¬ ∃ c, ∀ s n, sv.held s = some n → n ≤ 8 * s.bytes.length + c := by
  rintro ⟨c, h⟩
  let q := StrictExample.qa
  obtain ⟨k, hk⟩ : ∃ k, k = 500 + c := ⟨_, rfl⟩
  let s : Sock := ⟨[(padded q k).bytes], .eof⟩
  have hb : s.bytes = (padded q k).bytes := by simp [s, Sock.bytes]
  have hbl : s.bytes.length = 33 + k := by
    rw [hb, padded_text, List.length_append, List.length_append, utf8_xs]
    have : (utf8 c!"GET /a HTTP/1.1\r\nHost: b\r\nX: ").length = 29 := by decide +kernel
    have : blankLine.length = 4 := rfl
    omega
  obtain ⟨req, hr, hm, -, hv, -, hraw, -⟩ := reads_bodyless sv.feat sv.allocOk (padded q k) s []
    (padded_good StrictExample.qa_good k) rfl (by rw [hb, List.append_nil])
  have hget := hr.facts.1.2
  rw [hraw] at hget
  have e1 : req.requestLine.method = .get := hm _ (show (c!"GET", _) ∈ methodTable by decide)
  have e2 : req.requestLine.version = .http11 := hv _ (show (c!"1.1", _) ∈ versionTable by decide)
  have e3 : req.headers.get c!"host" = some c!"b" := by
    rw [hget, padded_values q k c!"host" (by decide)]
    decide +kernel
  have e4 : req.headers.get c!"x" = some (List.replicate k 'x') := by
    rw [hget]
    have a1 : lowered c!"Host" = c!"host" := by decide +kernel
    have a2 : lowered c!"X" = c!"x" := by decide +kernel
    simp [joined, padded, q, StrictExample.qa, a1, a2]
  obtain ⟨x, hx, hmal⟩ := Http.validate_hosted e2 (by rw [e3]; rfl)
  obtain ⟨rem, hheld⟩ := Server.held_of hr hx hmal (by rw [e1]; rfl)
  have h1 := h s _ hheld
  have h2 := Headers.size_ge hraw (c!"X", List.replicate k 'x') (by simp [padded]) _ _ e4
  have h3 := utf8_xs k
  have h5 : (readHeadC s).2.held = s.bytes.length := by
    obtain ⟨hdrs, line, rem', reader, H, rl, r1, -⟩ := hr
    have a := readHeadC_taken s _ _ _ _ r1
    have hsp : FirstSplit s.bytes blankLine (utf8 (crlf.intercalate ((padded q k).line :: (padded q k).headers.map wireHeader))) [] := by
      have := firstSplit_lines (padded q k).line ((padded q k).headers.map wireHeader) (by
        intro x hx
        simp only [padded, q, StrictExample.qa, List.cons_append, List.nil_append, List.map_cons, List.map_nil,
          List.mem_cons, List.not_mem_nil, or_false] at hx
        rcases hx with rfl | rfl | rfl
        · exact show '\r' ∉ StrictExample.qa.line ∧ StrictExample.qa.line ≠ [] by decide
        · decide
        · simp [wireHeader]) []
      rw [hb]
      exact this
    have e := (readHead_parts hsp r1).2
    have : reader.bytes = [] := (List.append_eq_nil_iff.1 e).2
    rw [this] at a
    simpa using a
  rw [h5, hbl] at h1
  simp only [h3] at h2
  omega

namespace HeldExample
open FeaturesExample WorkExample

/-- the same request with its body in one piece with the head -/
def whole : Sock := ⟨[sock.bytes], .eof⟩

/-- a request with a body of 6 bytes and 3 bytes after it, in all 119 bytes: what is kept when half of the body comes
after the head (6 bytes in `body_vec`), and when all comes together (the last 6 bytes in `data` instead) -/
example : sock.bytes.length = 119 ∧ (server one).held sock = some 722 ∧ (server one).held whole = some 722 ∧
    (server one).held stingy = none := by decide +kernel

/-- the hypotheses of the bounds are met -/
example : 722 ≤ 9 * 106 + 2 * 9 + 4 ∧ 722 ≤ 9 * 119 := by
  have h : (server one).held sock = some 722 := by decide +kernel
  have e : (utf8 (crlf.intercalate (c!"GET /a HTTP/1.0" :: lines))).length = 106 := by decide +kernel
  have e' : (utf8 c!"abcdefGET").length = 9 := by decide +kernel
  have e'' : sock.bytes.length = 119 := by decide +kernel
  have h1 := C152_bound _ _ _ _ split _ h
  have h2 := C152_total _ _ _ h
  rw [e, e'] at h1
  rw [e''] at h2
  exact ⟨h1, h2⟩

/-- the length is declared, so the sharper bound is there as well -/
example : ∃ req len, Reads (server one).feat (server one).allocOk sock req ∧ DeclaredLength req.headers.get len ∧
    722 ≤ 9 * 106 + 4 + max 9 (2 * len - 1) := by
  have h : (server one).held sock = some 722 := by decide +kernel
  have e : (utf8 (crlf.intercalate (c!"GET /a HTTP/1.0" :: lines))).length = 106 := by decide +kernel
  have e' : (utf8 c!"abcdefGET").length = 9 := by decide +kernel
  obtain ⟨req, c, hr, -⟩ := (C152_when _ _).1 ⟨_, h⟩
  have h1 := C152_body _ _ _ _ split _ h req hr _ (contentLength_declared _)
  rw [e, e'] at h1
  exact ⟨req, _, hr, contentLength_declared _, h1⟩

/-- from both sides -/
example : ∃ (req : Request) (len : Nat), DeclaredLength req.headers.get len ∧ 722 ≤ 9 * 106 + len + 515 ∧
    106 + 4 + req.body.length + 4 * req.headers.size + 3 * req.requestLine.size ≤ 722 := by
  have h : (server one).held sock = some 722 := by decide +kernel
  have e : (utf8 (crlf.intercalate (c!"GET /a HTTP/1.0" :: lines))).length = 106 := by decide +kernel
  obtain ⟨req, c, hr, -⟩ := (C152_when _ _).1 ⟨_, h⟩
  have h1 := C152_once _ _ _ _ split _ h req hr _ (contentLength_declared _)
  have h2 := C152_at_least _ _ _ _ split _ h req hr
  rw [e] at h1 h2
  exact ⟨req, _, contentLength_declared _, h1, h2⟩

/-- the hypotheses of the exact number are met -/
example : ∃ (req : Request) (rem : Bytes) (len : Nat), DeclaredLength req.headers.get len ∧ rem.length ≤ 511 ∧
    722 = 106 + 4 + rem.length + (if rem.length < len then len else 0) + 4 * req.headers.size +
      3 * req.requestLine.size := by
  have h : (server one).held sock = some 722 := by decide +kernel
  have e : (utf8 (crlf.intercalate (c!"GET /a HTTP/1.0" :: lines))).length = 106 := by decide +kernel
  obtain ⟨req, c, hr, -⟩ := (C152_when _ _).1 ⟨_, h⟩
  obtain ⟨_, _, rem, _, -, -, h1, h2⟩ := C152_exact _ _ _ _ split _ h req hr _ (contentLength_declared _)
  rw [e] at h2
  exact ⟨req, rem, _, contentLength_declared _, h1, h2⟩

theorem cost_fair : FairL costCalls := by simp [costCalls, FairL, Fair]

/-- of the four handlers for `GET /a/b` two have a variable -/
example : ∃ r, execL Router.new costCalls = .ok r ∧ Router.pairs true r ⟨.get, [c!"a", c!"b"], .http11⟩ = 2 ∧
    2 ≤ applicableCount true .get [c!"a", c!"b"] (logOfL costCalls) * 2 := by
  obtain ⟨r, hr, -⟩ := Router.execL_inv costCalls cost_fair Router.new [] Router.Inv.new
  have h := C152_pairs costCalls cost_fair r hr true ⟨.get, [c!"a", c!"b"], .http11⟩ nofun
  have e : Router.pairs true r ⟨.get, [c!"a", c!"b"], .http11⟩ = 2 := by
    rw [h.1]
    have e1 : Path.parse c!"/a/:x" = some [c!"a", c!":x"] := by decide +kernel
    have e2 : Path.parse c!"/a/b" = some [c!"a", c!"b"] := by decide +kernel
    have e3 : Path.parse c!"/:y/b" = some [c!":y", c!"b"] := by decide +kernel
    simp only [costCalls, logOfL, logOf, Verb.target, Verb.method, e1, e2, e3]
    decide +kernel
  exact ⟨r, hr, e, by have h2 := h.2; rw [e] at h2; exact h2⟩

end HeldExample
end Octane
