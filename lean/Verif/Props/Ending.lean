import Verif.Props.Waiting
import Verif.Props.Whole
/-
C133: once the request is complete, what comes after it and how the stream ends do not matter.
-/
namespace Octane
open Spec
variable {W : Type u}

/-- what the reader made of a stream, when more follows the stream -/
def HeadOut.followed (f : SockEnd) (more : List Bytes) : HeadOut → HeadOut
  | .head hdrs line rem reader => .head hdrs line rem ⟨reader.segs ++ more, f⟩
  | .badRequest => .badRequest

theorem readSegs_more (cap : Nat) (fin f : SockEnd) (more : List Bytes) :
    ∀ (segs : List Bytes) (b : Bytes) (s' : Sock), readSegs cap fin segs = .data b s' → b ≠ [] →
      readSegs cap f (segs ++ more) = .data b ⟨s'.segs ++ more, f⟩ := by
  intro segs
  induction segs with
  | nil => intro b s' h hb; cases fin <;> simp [readSegs] at h; exact absurd h.1 hb
  | cons seg segs ih =>
    intro b s' h hb
    cases seg with
    | nil => exact ih b s' h hb
    | cons x xs =>
      unfold readSegs at h
      rw [List.cons_append]
      unfold readSegs
      split at h
      · rename_i hl
        rw [if_pos hl]
        cases h; rfl
      · rename_i hl
        rw [if_neg hl]
        cases h; rfl

theorem headCheck_more (data : Bytes) (reader : Sock) (f : SockEnd) (more : List Bytes) :
    headCheck data ⟨reader.segs ++ more, f⟩ =
      (headCheck data reader).bind fun o => .ok (o.map (HeadOut.followed f more)) := by
  rcases Classical.em (Occurs data blankLine) with ho | ho
  · obtain ⟨a, b, hs⟩ := FirstSplit.exists ho
    rw [(headCheck_spec data _).2 a b hs, (headCheck_spec data reader).2 a b hs]
    simp only [Res.bind_ok', Option.map_some]
    congr 2
    unfold headOutcome
    split
    · rfl
    · split <;> rfl
  · rw [(headCheck_spec data _).1 ho, (headCheck_spec data reader).1 ho]
    rfl

theorem readHeadLoop_more (f : SockEnd) (more : List Bytes) :
    ∀ (fuel : Nat) (data : Bytes) (s : Sock), ¬ Occurs data blankLine →
      Occurs (data ++ s.bytes) blankLine → s.bytes.length < fuel → ∀ out, readHeadLoop fuel data s = .ok out →
      ∀ fuel', s.bytes.length < fuel' →
        readHeadLoop fuel' data ⟨s.segs ++ more, f⟩ = .ok (out.followed f more) := by
  intro fuel
  induction fuel with
  | zero => intro data s _ _ hf; omega
  | succ fuel ih =>
    intro data s hno ho hf out h fuel' hf'
    cases fuel' with
    | zero => omega
    | succ fuel' =>
      have hr := read_spec 512 (by omega) s
      unfold readHeadLoop at h ⊢
      cases hrd : s.read 512 with
      | error => rw [hrd] at hr; rw [hr.1, List.append_nil] at ho; exact absurd ho hno
      | pending => rw [hrd] at hr; rw [hr.1, List.append_nil] at ho; exact absurd ho hno
      | data b s' =>
        rw [hrd] at hr h
        simp only at hr h
        by_cases hb : b = []
        · rw [(hr.1 hb).1, List.append_nil] at ho; exact absurd ho hno
        · obtain ⟨hbytes, hfin, -⟩ := hr.2 hb
          have hm : Sock.read 512 ⟨s.segs ++ more, f⟩ = .data b ⟨s'.segs ++ more, f⟩ :=
            readSegs_more 512 s.fin f more s.segs b s' hrd hb
          rw [hm]
          simp only
          rw [if_neg hb] at h ⊢
          rw [headCheck_more]
          have hlen : s.bytes.length = b.length + s'.bytes.length := by rw [hbytes]; simp
          have := List.length_pos_iff.2 hb
          cases hc : headCheck (data ++ b) s' with
          | panic => rw [hc] at h; simp at h
          | ok o =>
            rw [hc] at h
            cases o with
            | some o =>
              simp only [Io.ok.injEq] at h
              subst h
              rfl
            | none =>
              simp only at h
              refine ih (data ++ b) s' ?_ (by rw [hbytes, ← List.append_assoc] at ho; exact ho) (by omega) out h
                fuel' (by omega)
              intro hocc
              obtain ⟨x, y, hxy⟩ := FirstSplit.exists hocc
              rw [(headCheck_spec (data ++ b) s').2 x y hxy] at hc
              simp at hc

/-- the reader, with more behind a stream that has a blank line -/
theorem readHead_more (f : SockEnd) (more : List Bytes) (s : Sock) (ho : Occurs s.bytes blankLine) (out : HeadOut)
    (h : readHead s = .ok out) : readHead ⟨s.segs ++ more, f⟩ = .ok (out.followed f more) := by
  refine readHeadLoop_more f more _ [] s not_occurs_nil_blank (by simpa using ho) (Nat.lt_succ_self _) out h _ ?_
  simp only [Sock.bytes, List.flatten_append, List.length_append]
  omega

theorem fromRaw_more (feat : Features) (allocOk : Nat → Bool) (H : Headers) (rl : RequestLine) (rem : Bytes)
    (reader : Sock) (f : SockEnd) (more : List Bytes) (h : contentLength H ≤ (rem ++ reader.bytes).length) :
    Request.fromRaw feat allocOk H rl rem ⟨reader.segs ++ more, f⟩ =
      Request.fromRaw feat allocOk H rl rem reader := by
  unfold Request.fromRaw
  simp only
  congr 1
  split
  · split
    · split
      · rfl
      · split
        · rfl
        · rw [List.length_append] at h
          have hb : Sock.bytes ⟨reader.segs ++ more, f⟩ = reader.bytes ++ more.flatten := by simp [Sock.bytes]
          obtain ⟨s1, e1, -⟩ := (readExact_spec (contentLength H - rem.length) reader).1 (by omega)
          obtain ⟨s2, e2, -⟩ := (readExact_spec (contentLength H - rem.length) ⟨reader.segs ++ more, f⟩).1
            (by rw [hb, List.length_append]; omega)
          rw [e1, e2, hb, List.take_append_of_le_length (by omega)]
          rfl
    · rfl
  · rfl

/-- C133: once the request is complete, nothing that is delivered afterwards matters, nor how the stream ends: the
outcome is the same, down to the bytes of the answer and the state the handlers leave. -/
theorem C133_complete (sv : Server W) (w : W) (s : Sock) (h : ¬ Incomplete sv.feat.faithful s.bytes)
    (more : List Bytes) (f : SockEnd) : sv.serve w ⟨s.segs ++ more, f⟩ = sv.serve w s := by
  have ho : Occurs s.bytes blankLine := Classical.byContradiction fun ho => h (.inl ho)
  obtain ⟨head, rest, hsplit⟩ := FirstSplit.exists ho
  rcases Classical.em (∃ text line hdrs, head = utf8 text ∧ FirstSplit text crlf line hdrs) with hg | hg
  · obtain ⟨text, line, hdrs, e1, e2⟩ := hg
    obtain ⟨rem, reader, r1, r2, r3⟩ := ((C25_head_from_bytes s).2 _ _ hsplit).1 line hdrs ⟨text, e1, e2⟩
    unfold Server.serve
    rw [readHead_more f more s ho _ r1, r1]
    simp only [Io.bind_ok, HeadOut.followed]
    rcases Headers.parse_cases sv.feat.faithful hdrs with ⟨H, hH⟩ | hH
    · rw [hH]
      simp only [Res.bind_ok', Res.unwrap_some, Io.ofRes_ok, Io.bind_ok]
      cases hrl : RequestLine.parse sv.feat.faithful line with
      | panic => rfl
      | ok o =>
        cases o with
        | none => rfl
        | some rl =>
          simp only [Res.bind_ok', Res.unwrap_some, Io.ofRes_ok, Io.bind_ok]
          rw [fromRaw_more]
          rw [r2]
          refine Nat.le_of_not_lt fun hlt => h (.inr ?_)
          obtain ⟨b1, b2, b3⟩ := Headers.parse_some hH
          refine ⟨text, line, hdrs, _, rest, contentLength H, e1 ▸ hsplit, e2, b1,
            (RequestLine.parse_some_iff _ _).1 ⟨rl, hrl⟩, ?_, hlt⟩
          rw [← funext b3]
          exact contentLength_declared H
    · rw [hH]; rfl
  · have := ((C25_head_from_bytes s).2 _ _ hsplit).2 (fun text ht ho' => by
      obtain ⟨a, b, hab⟩ := FirstSplit.exists ho'
      exact hg ⟨text, a, b, ht, hab⟩)
    unfold Server.serve
    rw [readHead_more f more s ho _ this, this]
    rfl

/-- So the server does not wait for the client to close: a complete request is treated alike whether the client then
closes, breaks the connection or stays silent. -/
theorem C133_not_waited_for (sv : Server W) (w : W) (s : Sock) (h : ¬ Incomplete sv.feat.faithful s.bytes)
    (f : SockEnd) : sv.serve w ⟨s.segs, f⟩ = sv.serve w s ∧ sv.serve w ⟨s.segs, f⟩ ≠ .pending := by
  have e := C133_complete sv w s h [] f
  rw [List.append_nil] at e
  exact ⟨e, fun hp => h (C68_waits_only_partial sv w _ hp).2⟩

/-- Before the head is complete, the end of the stream decides: the 400 page if the client closes, a panic if the
connection breaks, and otherwise waiting. -/
theorem C133_no_head (sv : Server W) (w : W) (s : Sock) (h : ¬ Occurs s.bytes blankLine) (hc : 0 ≤ sv.clock w) :
    (s.fin = .eof → Page sv w s w c!"400" c!"BAD REQUEST") ∧
    (s.fin = .error → sv.serve w s = .panic) ∧ (s.fin = .silent → sv.serve w s = .pending) := by
  refine ⟨fun hf => ?_, fun hf => ?_, fun hf => C68_waits_head sv w s hf h⟩
  · refine page_of (w' := w) 21 hc ?_ (by decide +kernel) (by decide +kernel)
    unfold Server.serve
    rw [(C25_head_from_bytes s).1 h, hf]
    rfl
  · unfold Server.serve
    rw [(C25_head_from_bytes s).1 h, hf]
    rfl

/-- Before the body is complete too: waiting if the client stays silent, and otherwise a panic, also if the client
closes. -/
theorem C133_no_body (sv : Server W) (w : W) (s : Sock) (halloc : ∀ k, sv.allocOk k = true)
    (text line hdrs : Str) (hs : List (Str × Str)) (rest : Bytes)
    (n : Nat) (h1 : FirstSplit s.bytes blankLine (utf8 text) rest) (h2 : FirstSplit text crlf line hdrs)
    (h3 : BlockOk sv.feat.faithful hdrs hs) (h4 : LineOk sv.feat.faithful line)
    (h5 : DeclaredLength (joined hs) n) (h6 : rest.length < n) :
    (s.fin ≠ .silent → sv.serve w s = .panic) ∧
    (s.fin = .silent → n ≤ i64Max → sv.serve w s = .pending) := by
  refine ⟨fun hfin => ?_, fun hfin hmax =>
    C68_waits_body sv w s hfin halloc text line hdrs hs rest n h1 h2 h3 h4 h5 h6 hmax⟩
  obtain ⟨rem, reader, r1, r2, r3⟩ := ((C25_head_from_bytes s).2 _ _ h1).1 line hdrs ⟨text, rfl, h2⟩
  obtain ⟨H, e3, e4, e5⟩ := Headers.parse_block h3
  obtain ⟨rl, e6⟩ := (RequestLine.parse_some_iff _ _).2 h4
  have hn : contentLength H = n := by
    have := contentLength_declared H
    rw [funext e5] at this
    exact DeclaredLength.unique this h5
  rw [← r2, List.length_append] at h6
  have hr : Request.fromRaw sv.feat sv.allocOk H rl rem reader = .panic := by
    unfold Request.fromRaw
    simp only [hn]
    rw [if_pos (by omega), if_pos (by omega)]
    split
    · rfl
    · rw [if_neg (by simp [halloc])]
      rw [(readExact_spec (n - rem.length) reader).2 (by omega), r3]
      cases hf : s.fin with
      | silent => exact absurd hf hfin
      | eof => rfl
      | error => rfl
  unfold Server.serve
  simp only [r1, e3, e6, Io.bind_ok, Res.bind_ok', Res.unwrap_some, Io.ofRes_ok, hr]
  rfl

namespace EndingExample

/-- a request with a body, in two segments -/
def sock : Sock := ⟨[utf8 c!"POST /a HTTP/1.0\r\nContent-Le", utf8 c!"ngth: 2\r\n\r\nhi"], .silent⟩

theorem complete : ¬ Incomplete true sock.bytes := by
  have key : empty.serve () ⟨sock.segs, .eof⟩ ≠ .panic := by decide +kernel
  have hb : Sock.bytes ⟨sock.segs, .eof⟩ = sock.bytes := rfl
  rintro (h | ⟨text, line, hdrs, hs, rest, n, h1, h2, h3, h4, h5, h6⟩)
  · have hp := (C133_no_head empty () sock h (by decide)).2.2 rfl
    have : empty.serve () sock ≠ .pending := by decide +kernel
    exact this hp
  · exact key ((C133_no_body empty () ⟨sock.segs, .eof⟩ (fun _ => rfl) text line hdrs hs rest n h1 h2 h3 h4 h5 h6).1
      (by simp))

/-- what follows does not matter: here half a request, and then a broken connection -/
example : empty.serve () ⟨sock.segs ++ [utf8 c!"GET /b HT"], .error⟩ = empty.serve () sock :=
  C133_complete empty () sock complete [utf8 c!"GET /b HT"] .error

example : empty.serve () ⟨sock.segs, .eof⟩ = empty.serve () sock ∧ empty.serve () ⟨sock.segs, .eof⟩ ≠ .pending :=
  C133_not_waited_for empty () sock complete .eof

/-- and the answer is there -/
example : ∃ out, empty.serve () sock = .ok ((), out) := by
  cases h : empty.serve () sock with
  | ok x => exact ⟨x.2, rfl⟩
  | panic => exact absurd h (by decide +kernel)
  | pending => exact absurd h (by decide +kernel)
  | abort => exact absurd h (by decide +kernel)

/-- half a head -/
example : empty.serve () ⟨[utf8 c!"GET / HT"], .error⟩ = .panic :=
  (C133_no_head empty () ⟨[utf8 c!"GET / HT"], .error⟩ (by
    obtain ⟨r, h1, h2, h3⟩ := findInSlice_ok (utf8 c!"GET / HT") blankLine
    have : findInSlice (utf8 c!"GET / HT") blankLine = .ok none := by decide +kernel
    rw [this] at h1
    cases h1
    simpa [Sock.bytes] using h3 rfl) (by decide)).2.1 rfl

/-- half a body -/
def half (f : SockEnd) : Sock := ⟨[utf8 c!"POST / HTTP/1.0\r\nContent-Length: 10\r\n\r\nhi"], f⟩

/-- it meets the hypotheses of `C133_no_body` (and of `C68_waits_body`), so breaking the connection is a panic and
silence is waited for -/
example : empty.serve () (half .error) = .panic ∧ empty.serve () (half .silent) = .pending := by
  have hw : empty.serve () (half .silent) = .pending := by decide +kernel
  have he : empty.serve () (half .eof) = .panic := by decide +kernel
  rcases (C68_waits_only_partial empty () _ hw).2 with h | ⟨text, line, hdrs, hs, rest, n, h1, h2, h3, h4, h5, h6⟩
  · obtain ⟨_, _, h, -⟩ := (C133_no_head empty () (half .eof) h (by decide)).1 rfl
    rw [he] at h; cases h
  · exact ⟨(C133_no_body empty () (half .error) (fun _ => rfl) text line hdrs hs rest n h1 h2 h3 h4 h5 h6).1 (by decide),
      hw⟩

end EndingExample

end Octane
