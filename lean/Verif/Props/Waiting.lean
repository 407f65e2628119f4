import Verif.Props.Listen
/-
C68: how long, and for what, a connection is waited for.
-/
namespace Octane
open Spec
variable {W : Type u}

/-- The request is not complete: there is no blank line yet, or the head is understood and declares more
bytes than have arrived. -/
def Spec.Incomplete (faithful : Bool) (bytes : Bytes) : Prop :=
  ¬ Occurs bytes blankLine ∨
  ∃ text line hdrs hs rest n, FirstSplit bytes blankLine (utf8 text) rest ∧
    FirstSplit text crlf line hdrs ∧ BlockOk faithful hdrs hs ∧ LineOk faithful line ∧
    DeclaredLength (joined hs) n ∧ rest.length < n

/-- The full claim of C68: every connection is answered or given up, whatever the peer does. -/
def C68_statement : Prop :=
  ∀ (W : Type) (sv : Server W) (w : W) (s : Sock), sv.serve w s ≠ .pending

theorem fromRaw_pending {feat : Features} {allocOk : Nat → Bool} {H : Headers} {rl : RequestLine}
    {rem : Bytes} {reader : Sock} (h : Request.fromRaw feat allocOk H rl rem reader = .pending) :
    reader.fin = .silent ∧ (rem ++ reader.bytes).length < contentLength H := by
  have hp : ∀ body, Io.ofRes (Request.parse feat rl H body) ≠ .pending := by
    intro body; cases Request.parse feat rl H body <;> simp [Io.ofRes]
  unfold Request.fromRaw at h
  simp only at h
  split at h
  · split at h
    · split at h
      · simp at h
      · split at h
        · simp at h
        · rename_i h1 h2 h3 h4
          have hs := readExact_spec (contentLength H - rem.length) reader
          rcases Nat.lt_or_ge reader.bytes.length (contentLength H - rem.length) with hlt | hge
          · refine ⟨?_, by simp only [List.length_append]; omega⟩
            have := hs.2 hlt
            cases hf : reader.fin with
            | silent => rfl
            | eof => rw [this, hf] at h; simp at h
            | error => rw [this, hf] at h; simp at h
          · obtain ⟨s', e, -⟩ := hs.1 hge
            rw [e] at h
            simp only [Io.bind_ok] at h
            repeat' split at h
            all_goals first | (simp at h; done) | exact absurd h (hp _)
    · exact absurd h (hp _)
  · exact absurd h (hp _)

/-- What holds of C68: a connection is waited for only while the peer neither sends nor closes, and only
if its request is incomplete. Missing: a limit on the time (and on the memory, see
`C68_unbounded_head`). -/
theorem C68_waits_only_partial (sv : Server W) (w : W) (s : Sock) (h : sv.serve w s = .pending) :
    s.fin = .silent ∧ Incomplete sv.feat.faithful s.bytes := by
  have hofRes : ∀ x : Res (W × Bytes), Io.ofRes x ≠ .pending := by
    intro x; cases x <;> simp [Io.ofRes]
  rcases Classical.em (Occurs s.bytes blankLine) with ho | ho
  · obtain ⟨head, rest, hsplit⟩ := FirstSplit.exists ho
    rcases Classical.em (∃ text line hdrs, head = utf8 text ∧ FirstSplit text crlf line hdrs) with hg | hg
    · obtain ⟨text, line, hdrs, e1, e2⟩ := hg
      obtain ⟨rem, reader, r1, r2, r3⟩ := ((C25_head_from_bytes s).2 _ _ hsplit).1 line hdrs ⟨text, e1, e2⟩
      unfold Server.serve at h
      rw [r1] at h
      simp only [Io.bind_ok] at h
      rcases Headers.parse_cases sv.feat.faithful hdrs with ⟨H, hH⟩ | hH
      · rw [hH] at h
        simp only [Res.bind_ok', Res.unwrap_some, Io.ofRes_ok, Io.bind_ok] at h
        cases hrl : RequestLine.parse sv.feat.faithful line with
        | panic => rw [hrl] at h; simp [Io.ofRes] at h
        | ok o =>
          rw [hrl] at h
          cases o with
          | none => simp [Res.unwrap, Io.ofRes] at h
          | some rl =>
            simp only [Res.bind_ok', Res.unwrap_some, Io.ofRes_ok, Io.bind_ok] at h
            cases hr : Request.fromRaw sv.feat sv.allocOk H rl rem reader with
            | panic => rw [hr] at h; simp at h
            | abort => rw [hr] at h; simp at h
            | ok o =>
              rw [hr] at h
              simp only [Io.bind_ok] at h
              cases o <;> exact absurd h (hofRes _)
            | pending =>
              obtain ⟨f1, f2⟩ := fromRaw_pending hr
              obtain ⟨b1, b2, b3⟩ := Headers.parse_some hH
              refine ⟨by rw [← r3, f1], .inr ⟨text, line, hdrs, _, rest, contentLength H, e1 ▸ hsplit, e2, b1,
                (RequestLine.parse_some_iff _ _).1 ⟨rl, hrl⟩, ?_, by rwa [r2] at f2⟩⟩
              rw [← funext b3]
              exact contentLength_declared H
      · rw [hH] at h; simp [Res.unwrap, Io.ofRes] at h
    · have := ((C25_head_from_bytes s).2 _ _ hsplit).2 (fun text ht ho' => by
        obtain ⟨a, b, hab⟩ := FirstSplit.exists ho'
        exact hg ⟨text, a, b, ht, hab⟩)
      unfold Server.serve at h
      rw [this] at h
      exact absurd h (hofRes _)
  · refine ⟨?_, .inl ho⟩
    have := (C25_head_from_bytes s).1 ho
    unfold Server.serve at h
    rw [this] at h
    cases hf : s.fin with
    | silent => rfl
    | eof => rw [hf] at h; exact absurd h (hofRes _)
    | error => rw [hf] at h; simp at h

/-- Conversely, a head that has not ended is waited for, for ever, from a peer that stays silent. -/
theorem C68_waits_head (sv : Server W) (w : W) (s : Sock) (hfin : s.fin = .silent)
    (h : ¬ Occurs s.bytes blankLine) : sv.serve w s = .pending := by
  unfold Server.serve
  rw [(C25_head_from_bytes s).1 h, hfin]
  rfl

/-- And so is a body that is shorter than declared (if memory for it can be had). -/
theorem C68_waits_body (sv : Server W) (w : W) (s : Sock) (hfin : s.fin = .silent)
    (halloc : ∀ k, sv.allocOk k = true) (text line hdrs : Str) (hs : List (Str × Str)) (rest : Bytes)
    (n : Nat) (h1 : FirstSplit s.bytes blankLine (utf8 text) rest) (h2 : FirstSplit text crlf line hdrs)
    (h3 : BlockOk sv.feat.faithful hdrs hs) (h4 : LineOk sv.feat.faithful line)
    (h5 : DeclaredLength (joined hs) n) (h6 : rest.length < n) (hmax : n ≤ i64Max) :
    sv.serve w s = .pending := by
  obtain ⟨rem, reader, r1, r2, r3⟩ := ((C25_head_from_bytes s).2 _ _ h1).1 line hdrs ⟨text, rfl, h2⟩
  obtain ⟨H, e3, e4, e5⟩ := Headers.parse_block h3
  obtain ⟨rl, e6⟩ := (RequestLine.parse_some_iff _ _).2 h4
  have hn : contentLength H = n := by
    have := contentLength_declared H
    rw [funext e5] at this
    exact DeclaredLength.unique this h5
  rw [← r2, List.length_append] at h6
  have hr : Request.fromRaw sv.feat sv.allocOk H rl rem reader = .pending := by
    unfold Request.fromRaw
    simp only [hn]
    rw [if_pos (by omega), if_pos (by omega), if_neg (by omega), if_neg (by simp [halloc])]
    rw [(readExact_spec (n - rem.length) reader).2 (by omega), r3, hfin]
    rfl
  unfold Server.serve
  simp only [r1, e3, e6, Io.bind_ok, Res.bind_ok', Res.unwrap_some, Io.ofRes_ok, hr]
  rfl

/-- for example a request that declares ten bytes and sends two -/
example : empty.serve () ⟨[utf8 c!"POST / HTTP/1.0\r\nContent-Length: 10\r\n\r\nhi"], .silent⟩ = .pending := by
  decide +kernel

theorem C68_counterexample : ¬ C68_statement := by
  intro h
  exact h Unit empty () ⟨[], .silent⟩ (by decide +kernel)

theorem not_blank_replicate (k : Nat) (a : UInt8) (ha : a ≠ 13) :
    ¬ Occurs (List.replicate k a) blankLine := by
  rintro ⟨i, x, y, h, -⟩
  have : (13 : UInt8) ∈ List.replicate k a := by rw [h]; simp [blankLine]
  exact ha (List.eq_of_mem_replicate this).symm

/-- There is no limit to the memory one connection takes for a head that never ends: for every bound
there is a peer whose task holds more than that, still waiting for the head. -/
theorem C68_unbounded_head (sv : Server W) (w : W) (N : Nat) :
    ∃ (s : Sock) (evs : List (Event W)) (c : Conn) (data : Bytes),
      ((Sys.start w false false true).run sv (.connect false s :: evs)).conns = [c] ∧
      c.task = .head data ∧ N ≤ data.length := by
  have key : ∀ m k, (Sys.run sv ⟨w, .listening, .off,
      [⟨false, .head (List.replicate k 97), ⟨List.replicate m [97], .silent⟩⟩], false⟩
        (List.replicate m (.poll 0))).conns =
      [⟨false, .head (List.replicate (k + m) 97), ⟨[], .silent⟩⟩] := by
    intro m
    induction m with
    | zero => intro k; rfl
    | succ m ih =>
      intro k
      rw [List.replicate_succ (a := Event.poll 0), run_cons]
      have hp : sv.poll w (.head (List.replicate k 97)) ⟨[97] :: List.replicate m [97], .silent⟩ =
          some (w, .head (List.replicate (k + 1) 97), ⟨List.replicate m [97], .silent⟩) := by
        have hd : List.replicate k (97 : UInt8) ++ [97] = List.replicate (k + 1) 97 := by
          rw [List.replicate_succ']
        have hh := (headCheck_spec (List.replicate (k + 1) 97) ⟨List.replicate m [97], .silent⟩).1
          (not_blank_replicate _ _ (by decide))
        simp only [Server.poll, Sock.read, readSegs]
        rw [if_pos (by simp)]
        simp only [hd, hh]
        simp
      have hs : Sys.step sv ⟨w, .listening, .off,
          [⟨false, .head (List.replicate k 97), ⟨List.replicate (m + 1) [97], .silent⟩⟩], false⟩ (.poll 0) =
          ⟨w, .listening, .off,
            [⟨false, .head (List.replicate (k + 1) 97), ⟨List.replicate m [97], .silent⟩⟩], false⟩ := by
        simp only [Sys.step, List.getElem?_cons_zero, List.replicate_succ (n := m), hp]
        simp
      rw [hs, ih (k + 1)]
      congr 4; omega
  refine ⟨⟨List.replicate N [97], .silent⟩, List.replicate N (.poll 0),
    ⟨false, .head (List.replicate (0 + N) 97), ⟨[], .silent⟩⟩, List.replicate (0 + N) 97, ?_, rfl, by simp⟩
  rw [run_cons]
  exact key N 0

/-- half a head -/
example := C68_waits_head empty () ⟨[utf8 c!"GET / HT"], .silent⟩ rfl (by
  obtain ⟨r, h1, h2, h3⟩ := findInSlice_ok (utf8 c!"GET / HT") blankLine
  have : findInSlice (utf8 c!"GET / HT") blankLine = .ok none := by decide +kernel
  rw [this] at h1
  cases h1
  simpa [Sock.bytes] using h3 rfl)

end Octane
