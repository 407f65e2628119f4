import Verif.Spec.Process
import Verif.Proof.Listen
import Verif.Proof.Whole
import Verif.Proof.Server
import Verif.Proof.Delivery
/-
The reading of a request, read by read, against reading it as a whole.
-/
namespace Octane
open Spec

section
variable (feat : Features) (allocOk : Nat → Bool)

/-- the rest of reading after the head -/
def headRest : HeadOut → Io (Option Request)
  | .badRequest => .ok none
  | .head rawHeaders rawLine rem reader =>
    match (Headers.parse feat.faithful rawHeaders).bind Res.unwrap with
    | .panic => .panic
    | .ok headers =>
      match (RequestLine.parse feat.faithful rawLine).bind Res.unwrap with
      | .panic => .panic
      | .ok line => Request.fromRaw feat allocOk headers line rem reader

/-- the rest of reading after reading a body that did not come with the head -/
def bodyRest (headers : Headers) (line : RequestLine) (body : Bytes) : Io (Option Request) :=
  if body.length > i64Max then .panic
  else if !allocOk body.length then .abort
  else Io.ofRes (Request.parse feat line headers body)

/-- what comes of reading from a state of the task -/
def readRest (s : Sock) : Reading → Io (Option Request)
  | .head data => (readHeadLoop (s.bytes.length + 1) data s).bind (headRest feat allocOk)
  | .body headers line got need =>
    (readExact need s).bind fun
      | none => .panic
      | some (temp, _) => bodyRest feat allocOk headers line (got ++ temp)

def Reading.Ok : Reading → Prop
  | .head _ => True
  | .body _ _ _ need => 0 < need

/-- how one turn refines reading as a whole -/
def TurnSpec (r : Reading) (s : Sock) : Turn → Prop
  | .waits r' s' => r'.Ok ∧ readRest feat allocOk s' r' = readRest feat allocOk s r ∧
      (s'.bytes.length < s.bytes.length ∨ r' = r ∧ s' = s ∧ readRest feat allocOk s r = .pending)
  | .request req _ => readRest feat allocOk s r = .ok (some req)
  | .bad _ => readRest feat allocOk s r = .ok none
  | .panicked _ => readRest feat allocOk s r = .panic
  | .abort => readRest feat allocOk s r = .abort

theorem withBody_turn (r : Reading) (s s' : Sock) (headers : Headers) (line : RequestLine) (body : Bytes)
    (h : readRest feat allocOk s r = Io.ofRes (Request.parse feat line headers body)) :
    TurnSpec feat allocOk r s (Reading.withBody feat headers line body s') := by
  unfold Reading.withBody
  rcases hp : Request.parse feat line headers body with (_ | _) | _ <;> rw [hp] at h <;> exact h

theorem withHead_turn (r : Reading) (s s' : Sock) (rh rl : Str) (rem : Bytes)
    (hr : readRest feat allocOk s r = headRest feat allocOk (.head rh rl rem s'))
    (hl : s'.bytes.length < s.bytes.length) :
    TurnSpec feat allocOk r s (Reading.withHead feat allocOk rh rl rem s') := by
  unfold headRest at hr
  unfold Reading.withHead
  simp only at hr ⊢
  cases h1 : (Headers.parse feat.faithful rh).bind Res.unwrap with
  | panic => simp only [h1] at hr ⊢; exact hr
  | ok headers =>
    simp only [h1] at hr ⊢
    cases h2 : (RequestLine.parse feat.faithful rl).bind Res.unwrap with
    | panic => simp only [h2] at hr ⊢; exact hr
    | ok line =>
      simp only [h2] at hr ⊢
      unfold Request.fromRaw at hr
      simp only at hr
      split
      · rename_i c1
        simp only [c1, if_true] at hr
        split
        · rename_i c2
          simp only [c2, if_true] at hr
          split
          · rename_i c3; simp only [c3, if_true] at hr; exact hr
          · rename_i c3
            simp only [c3, if_false] at hr
            split
            · rename_i c4; simp only [c4, if_true] at hr; exact hr
            · rename_i c4
              rw [if_neg c4] at hr
              refine ⟨Nat.sub_pos_of_lt c2, ?_, .inl hl⟩
              rw [hr]
              simp only [readRest]
              cases hx : readExact (contentLength headers - rem.length) s' with
              | ok o =>
                cases o with
                | none => rfl
                | some p =>
                  have hlen : (rem ++ p.1).length = contentLength headers := by
                    rw [List.length_append, readExact_length hx]; omega
                  simp only [Io.bind_ok, bodyRest, hlen]
                  split
                  · rfl
                  · split <;> rfl
              | _ => rfl
        · rename_i c2
          simp only [c2, if_false] at hr
          exact withBody_turn feat allocOk _ _ _ _ _ _ hr
      · rename_i c1
        simp only [c1, if_false] at hr
        exact withBody_turn feat allocOk _ _ _ _ _ _ hr

theorem headCheck_reader {data : Bytes} {s' r : Sock} {rh rl : Str} {rem : Bytes}
    (hc : headCheck data s' = .ok (some (.head rh rl rem r))) : r = s' := by
  by_cases ho : Occurs data blankLine
  · obtain ⟨x, y, hxy⟩ := Spec.FirstSplit.exists ho
    rw [(headCheck_spec data s').2 x y hxy] at hc
    simp only [headOutcome, Res.ok.injEq, Option.some.injEq] at hc
    split at hc
    · cases hc
    · split at hc
      · injection hc with _ _ _ h; exact h.symm
      · cases hc
  · rw [(headCheck_spec data s').1 ho] at hc; cases hc

/-- Every turn refines reading as a whole. -/
theorem turn_spec (r : Reading) (s : Sock) (hr : r.Ok) :
    TurnSpec feat allocOk r s (r.turn feat allocOk s) := by
  cases r with
  | head data =>
    have hrd := read_spec 512 (by omega) s
    have hu : readRest feat allocOk s (.head data) =
        (readHeadLoop (s.bytes.length + 1) data s).bind (headRest feat allocOk) := rfl
    rw [readHeadLoop.eq_def] at hu
    unfold Reading.turn
    simp only at hu ⊢
    cases hx : s.read 512 with
    | error => simp only [hx] at hu ⊢; exact hu
    | pending => simp only [hx] at hu ⊢; exact ⟨trivial, rfl, .inr ⟨rfl, rfl, hu⟩⟩
    | data b s' =>
      rw [hx] at hrd
      simp only [hx] at hu hrd ⊢
      by_cases hb : b = []
      · simp only [hb, if_true] at hu ⊢; exact hu
      · obtain ⟨hbytes, -, -⟩ := hrd.2 hb
        have hpos := List.length_pos_iff.2 hb
        have hl : s.bytes.length = b.length + s'.bytes.length := by rw [hbytes]; simp
        simp only [hb, if_false] at hu ⊢
        cases hc : headCheck (data ++ b) s' with
        | panic => simp only [hc] at hu ⊢; exact hu
        | ok o =>
          cases o with
          | none =>
            simp only [hc] at hu ⊢
            refine ⟨trivial, ?_, .inl (by omega)⟩
            rw [hu]
            simp only [readRest]
            rw [readHeadLoop_fuel (s'.bytes.length + 1) _ (data ++ b) s' (by omega)
              (show s'.bytes.length < s.bytes.length by omega)]
          | some out =>
            cases out with
            | badRequest => simp only [hc] at hu ⊢; exact hu
            | head rh rl rem r =>
              simp only [hc] at hu ⊢
              exact withHead_turn feat allocOk _ s r rh rl rem hu (by rw [headCheck_reader hc]; omega)
  | body headers line got need =>
    have hn : 0 < need := hr
    have hrd := read_spec need hn s
    have hu : readRest feat allocOk s (.body headers line got need) = (readExact need s).bind fun
      | none => .panic
      | some (temp, _) => bodyRest feat allocOk headers line (got ++ temp) := rfl
    rw [readExact, readExactLoop.eq_def] at hu
    unfold Reading.turn
    simp only [Nat.ne_of_gt hn, if_false] at hu ⊢
    cases hx : s.read need with
    | error => simp only [hx] at hu ⊢; exact hu
    | pending => simp only [hx] at hu ⊢; exact ⟨hr, rfl, .inr ⟨rfl, rfl, hu⟩⟩
    | data b s' =>
      rw [hx] at hrd
      simp only [hx] at hu hrd ⊢
      by_cases hb : b = []
      · simp only [hb, if_true] at hu ⊢; exact hu
      · obtain ⟨hbytes, -, hcap⟩ := hrd.2 hb
        have hpos := List.length_pos_iff.2 hb
        have hl : s.bytes.length = b.length + s'.bytes.length := by rw [hbytes]; simp
        simp only [hb, if_false] at hu ⊢
        by_cases hle : need ≤ b.length
        · have h0 : need - b.length = 0 := by omega
          rw [h0, readExactLoop.eq_def] at hu
          simp only [if_true, Io.bind_ok, List.append_nil, bodyRest] at hu
          rw [if_pos hle]
          split
          · rename_i c; rw [if_pos c] at hu; exact hu
          · rename_i c
            rw [if_neg c] at hu
            split
            · rename_i c'; rw [if_pos c'] at hu; exact hu
            · rename_i c'; rw [if_neg c'] at hu; exact withBody_turn feat allocOk _ _ _ _ _ _ hu
        · rw [if_neg hle]
          refine ⟨Nat.sub_pos_of_lt (by omega), ?_, .inl (by omega)⟩
          rw [hu]
          simp only [readRest]
          rw [readExact, readExactLoop_fuel _ (s.bytes.length + 1) _ _ (by omega) (by omega)]
          cases readExactLoop (s.bytes.length + 1) (need - b.length) s' with
          | ok o =>
            cases o with
            | none => rfl
            | some p => simp [Io.bind_ok, List.append_assoc]
          | _ => rfl

end

/-! ### the request in the bytes -/

/-- the ways the head can come out -/
theorem head_cases (s : Sock) :
    (¬ Occurs s.bytes blankLine ∧ readHead s = match s.fin with
        | .eof => .ok .badRequest
        | .error => .panic
        | .silent => .pending) ∨
    (∃ text line hdrs rest rem reader, FirstSplit s.bytes blankLine (utf8 text) rest ∧
      FirstSplit text crlf line hdrs ∧ readHead s = .ok (.head hdrs line rem reader) ∧
      rem ++ reader.bytes = rest ∧ reader.fin = s.fin) ∨
    (∃ head rest, FirstSplit s.bytes blankLine head rest ∧ (∀ text, head = utf8 text → ¬ Occurs text crlf) ∧
      readHead s = .ok .badRequest) := by
  by_cases ho : Occurs s.bytes blankLine
  · obtain ⟨head, rest, hsplit⟩ := FirstSplit.exists ho
    rcases Classical.em (∃ text line hdrs, head = utf8 text ∧ FirstSplit text crlf line hdrs) with hg | hg
    · obtain ⟨text, line, hdrs, rfl, e2⟩ := hg
      obtain ⟨rem, reader, r1, r2, r3⟩ := ((C25_head_from_bytes s).2 _ _ hsplit).1 line hdrs ⟨text, rfl, e2⟩
      exact .inr (.inl ⟨text, line, hdrs, rest, rem, reader, hsplit, e2, r1, r2, r3⟩)
    · have hno : ∀ text, head = utf8 text → ¬ Occurs text crlf := by
        intro text e o
        obtain ⟨a, b, h⟩ := FirstSplit.exists o
        exact hg ⟨text, a, b, e, h⟩
      exact .inr (.inr ⟨head, rest, hsplit, hno, ((C25_head_from_bytes s).2 _ _ hsplit).2 hno⟩)
  · exact .inl ⟨ho, (C25_head_from_bytes s).1 ho⟩

theorem Request.parse_some (feat : Features) (rl : RequestLine) (H : Headers) (body : Bytes) {o : Option Request}
    (h : Request.parse feat rl H body = .ok o) :
    ∃ cs, o = some ⟨rl, H, body, cs⟩ ∧
      (feat.cookies = true → ∀ v, H.get c!"cookie" = some v → CookieText v) ∧
      (feat.cookies = false ∨ H.get c!"cookie" = none → cs = []) ∧
      (feat.cookies = true → ∀ v, H.get c!"cookie" = some v → CookiesRead v cs) := by
  have hct : feat.cookies = true → ∀ v, H.get c!"cookie" = some v → CookieText v := by
    intro hf v hv
    unfold Request.parse at h
    simp only [hf, if_true, hv] at h
    cases hp : Cookie.parse v with
    | ok cs => exact (Cookie.parse_ok v).1 ⟨cs, hp⟩
    | panic => rw [hp] at h; cases h
  obtain ⟨cs, c1, c2, c3⟩ := Request.parse_cookies feat rl H body hct
  rw [c1] at h
  injection h with h
  exact ⟨cs, h.symm, hct, c2, c3⟩

/-- reading the body has succeeded: the declared bytes were there -/
theorem fromRaw_ok {feat : Features} {allocOk : Nat → Bool} {H : Headers} {rl : RequestLine} {rem : Bytes}
    {reader : Sock} {o : Option Request} (h : Request.fromRaw feat allocOk H rl rem reader = .ok o) :
    contentLength H ≤ (rem ++ reader.bytes).length ∧
    ∃ body, ((contentLength H = 0 ∧ body = []) ∨
        (0 < contentLength H ∧ ∃ k, contentLength H ≤ k ∧ body = (rem ++ reader.bytes).take k)) ∧
      Request.parse feat rl H body = .ok o := by
  have hp : ∀ body, Io.ofRes (Request.parse feat rl H body) = .ok o → Request.parse feat rl H body = .ok o := by
    intro body hb
    cases hx : Request.parse feat rl H body <;> rw [hx] at hb <;> cases hb
    rfl
  unfold Request.fromRaw at h
  simp only at h
  split at h
  · rename_i c1
    split at h
    · rename_i c2
      split at h
      · cases h
      · split at h
        · cases h
        · obtain ⟨r1, r2⟩ := readExact_spec (contentLength H - rem.length) reader
          by_cases hl : contentLength H - rem.length ≤ reader.bytes.length
          · obtain ⟨s', e, -, -⟩ := r1 hl
            rw [e] at h
            simp only [Io.bind_ok] at h
            have hb : rem ++ reader.bytes.take (contentLength H - rem.length) =
                (rem ++ reader.bytes).take (contentLength H) := by
              rw [List.take_append, List.take_of_length_le (l := rem) (by omega)]
            split at h
            · cases h
            · split at h
              · cases h
              · refine ⟨by simp only [List.length_append]; omega, _, .inr ⟨c1, _, Nat.le_refl _, hb⟩, hp _ h⟩
          · rw [r2 (by omega)] at h
            cases hf : reader.fin <;> rw [hf] at h <;> cases h
    · rename_i c2
      refine ⟨by simp only [List.length_append]; omega, rem, .inr ⟨c1, rem.length, by omega, by simp⟩, hp _ h⟩
  · rename_i c1
    exact ⟨by omega, [], .inl ⟨by omega, rfl⟩, hp _ h⟩

theorem wasOf (q : Asked) (cookies : Bool) (n : Nat) (req : Request)
    (h1 : req.requestLine = ⟨methodOf q.method, resolve q.pieces, versionOf q.version⟩)
    (h2 : req.headers.raw.map hpair = q.headers) (h3 : ∀ k, req.headers.get k = joined q.headers k)
    (h4 : (n = 0 ∧ req.body = []) ∨ (0 < n ∧ ∃ k, n ≤ k ∧ req.body = q.after.take k))
    (h5 : cookies = false ∨ joined q.headers c!"cookie" = none → req.cookies = [])
    (h6 : cookies = true → ∀ v, joined q.headers c!"cookie" = some v → CookiesRead v req.cookies) :
    q.Was cookies n req := by
  refine ⟨?_, by rw [h1], ?_, h2, h3, h4, h5, h6⟩
  · rw [h1]
    by_cases hm : ∃ m, (q.method, m) ∈ methodTable
    · obtain ⟨m, hm⟩ := hm
      left; simp only; rw [(methodOf_spec _).1 m hm]; exact hm
    · right; exact ⟨fun m h => hm ⟨m, h⟩, (methodOf_spec _).2 fun m h => hm ⟨m, h⟩⟩
  · rw [h1]
    by_cases hm : ∃ m, (q.version, m) ∈ versionTable
    · obtain ⟨m, hm⟩ := hm
      left; simp only; rw [(versionOf_spec _).1 m hm]; exact hm
    · right; exact ⟨fun m h => hm ⟨m, h⟩, (versionOf_spec _).2 fun m h => hm ⟨m, h⟩⟩

theorem unwrap_ok {α : Type} {x : Res (Option α)} {a : α} (h : x.bind Res.unwrap = .ok a) : x = .ok (some a) := by
  rcases x with (_ | b) | _ <;> cases h
  rfl

/-- What has been read is the request in the bytes. -/
theorem readRest_received {feat : Features} {allocOk : Nat → Bool} {s : Sock} {req : Request}
    (h : readRest feat allocOk s (.head []) = .ok (some req)) : Received feat.faithful feat.cookies s req := by
  have h' : (readHead s).bind (headRest feat allocOk) = .ok (some req) := h
  rcases head_cases s with ⟨-, e⟩ | ⟨text, line, hdrs, rest, rem, reader, f1, f2, e, f3, f4⟩ | ⟨_, _, -, -, e⟩
  · rw [e] at h'
    cases hf : s.fin <;> rw [hf] at h' <;> cases h'
  · rw [e, Io.bind_ok] at h'
    simp only [headRest] at h'
    split at h'
    · cases h'
    · rename_i H hH
      split at h'
      · cases h'
      · rename_i rl hrl
        have hH' := unwrap_ok hH
        have hrl' := unwrap_ok hrl
        obtain ⟨b1, b2, b3⟩ := Headers.parse_some hH'
        obtain ⟨m, pieces, ver, hl⟩ := (lineOk_iff _ _).1 ((RequestLine.parse_some_iff _ _).1 ⟨rl, hrl'⟩)
        have hp := parse_lineParts hl
        rw [hrl'] at hp
        simp only [Res.ok.injEq, Option.some.injEq] at hp
        obtain ⟨k1, body, k2, k3⟩ := fromRaw_ok h'
        obtain ⟨cs, p1, p2, p3, p4⟩ := Request.parse_some feat rl H body k3
        simp only [Option.some.injEq] at p1
        have hg : H.get = joined (H.raw.map hpair) := funext b3
        rw [hg] at p2 p3 p4
        rw [f3] at k1 k2
        have hd := contentLength_declared H
        rw [hg] at hd
        refine ⟨⟨m, pieces, ver, H.raw.map hpair, rest⟩, contentLength H,
          ⟨text, line, hdrs, f1, f2, hl, b1, hd, k1, p2⟩, ?_, ?_⟩
        · subst p1
          exact wasOf _ _ _ _ hp rfl b3 k2 p3 p4
        · refine reads_body (feat := feat) (allocOk := allocOk) ⟨hdrs, line, rem, reader, H, rl, e, hH', hrl', h'⟩
            ⟨text, line, hdrs, f1, f2, hl, b1, hd, k1, p2⟩ ?_
          rw [p1]
          exact b3
  · rw [e] at h'; cases h'

/-- No head has been found: there is none. -/
theorem readRest_noHead {feat : Features} {allocOk : Nat → Bool} {s : Sock}
    (h : readRest feat allocOk s (.head []) = .ok none) : NoHead s.bytes := by
  have h' : (readHead s).bind (headRest feat allocOk) = .ok none := h
  rcases head_cases s with ⟨e, -⟩ | ⟨text, line, hdrs, rest, rem, reader, f1, f2, e, f3, f4⟩ | ⟨_, _, g1, g2, e⟩
  · exact .inl e
  · rw [e, Io.bind_ok] at h'
    simp only [headRest] at h'
    split at h'
    · cases h'
    · split at h'
      · cases h'
      · obtain ⟨-, body, -, k3⟩ := fromRaw_ok h'
        obtain ⟨cs, p1, -⟩ := Request.parse_some feat _ _ body k3
        cases p1
  · exact .inr ⟨_, _, g1, g2⟩

theorem fromRaw_alloc (feat : Features) (allocOk : Nat → Bool) (H : Headers) (rl : RequestLine) (rem : Bytes)
    (reader : Sock) : Request.fromRaw feat allocOk H rl rem reader = .abort ∨
      Request.fromRaw feat allocOk H rl rem reader = Request.fromRaw feat (fun _ => true) H rl rem reader := by
  unfold Request.fromRaw
  simp only [Bool.not_true, Bool.false_eq_true, if_false]
  split
  · split
    · split
      · exact .inr rfl
      · split
        · exact .inl rfl
        · cases readExact (contentLength H - rem.length) reader with
          | ok o =>
            cases o with
            | none => exact .inr rfl
            | some p =>
              simp only [Io.bind_ok]
              split
              · exact .inr rfl
              · split
                · exact .inl rfl
                · exact .inr rfl
          | _ => exact .inr rfl
    · exact .inr rfl
  · exact .inr rfl

/-- A request in the bytes is read, or memory runs out. -/
theorem readRest_asked {feat : Features} {allocOk : Nat → Bool} {s : Sock} {q : Asked} {n : Nat}
    (hq : q.In feat.faithful feat.cookies s.bytes n) (hn : n ≤ i64Max) :
    readRest feat allocOk s (.head []) = .abort ∨ ∃ req, readRest feat allocOk s (.head []) = .ok (some req) := by
  obtain ⟨req, ⟨hdrs, line, rem, reader, H, rl, h1, h2, h3, h4⟩, -⟩ :=
    reads_asked feat (fun _ => true) s q n hq (fun _ _ => rfl) hn
  have h' : ∀ a, readRest feat a s (.head []) = (readHead s).bind (headRest feat a) := fun _ => rfl
  rw [h', h1, Io.bind_ok]
  simp only [headRest, h2, h3, Res.bind_ok', Res.unwrap_some]
  rcases fromRaw_alloc feat allocOk H rl rem reader with e | e
  · exact .inl e
  · exact .inr ⟨req, e.trans h4⟩

theorem readRest_panic {feat : Features} {allocOk : Nat → Bool} {s : Sock}
    (h : readRest feat allocOk s (.head []) = .panic) (q : Asked) (n : Nat)
    (hq : q.In feat.faithful feat.cookies s.bytes n) : 9223372036854775807 < n := by
  rcases Nat.lt_or_ge 9223372036854775807 n with hl | hl
  · exact hl
  · rcases readRest_asked (allocOk := allocOk) hq (by simp only [i64Max]; omega) with e | ⟨req, e⟩ <;> rw [e] at h <;>
      cases h

/-- Reading comes to an end when the client closes. -/
theorem readRest_closed {feat : Features} {allocOk : Nat → Bool} {s : Sock} (hf : s.fin ≠ .silent) :
    readRest feat allocOk s (.head []) ≠ .pending := by
  have h' : readRest feat allocOk s (.head []) = (readHead s).bind (headRest feat allocOk) := rfl
  rw [h']
  rcases head_cases s with ⟨-, e⟩ | ⟨text, line, hdrs, rest, rem, reader, f1, f2, e, f3, f4⟩ | ⟨_, _, -, -, e⟩
  · rw [e]; cases hs : s.fin <;> simp_all [headRest, Io.bind]
  · rw [e, Io.bind_ok]
    simp only [headRest]
    split
    · simp
    · rename_i H hH
      split
      · simp
      · rename_i rl hrl
        have hof : ∀ body, Io.ofRes (Request.parse feat rl H body) ≠ .pending := by
          intro body; cases Request.parse feat rl H body <;> simp [Io.ofRes]
        unfold Request.fromRaw
        simp only
        split
        · split
          · split
            · simp [Io.bind]
            · split
              · simp [Io.bind]
              · obtain ⟨r1, r2⟩ := readExact_spec (contentLength H - rem.length) reader
                by_cases hl : contentLength H - rem.length ≤ reader.bytes.length
                · obtain ⟨s', e', -, -⟩ := r1 hl
                  rw [e']
                  simp only [Io.bind_ok]
                  split
                  · simp [Io.bind]
                  · split
                    · simp [Io.bind]
                    · exact hof _
                · rw [r2 (by omega), f4]
                  cases hs : s.fin <;> simp_all [Io.bind]
          · exact hof _
        · exact hof _
  · rw [e]; simp [headRest]

theorem readRest_abort {feat : Features} {allocOk : Nat → Bool} {s : Sock} (ha : ∀ k, allocOk k = true) :
    readRest feat allocOk s (.head []) ≠ .abort := by
  have hao : allocOk = fun _ => true := funext ha
  subst hao
  have h' : readRest feat (fun _ => true) s (.head []) = (readHead s).bind (headRest feat fun _ => true) := rfl
  rw [h']
  rcases head_cases s with ⟨-, e⟩ | ⟨text, line, hdrs, rest, rem, reader, f1, f2, e, f3, f4⟩ | ⟨_, _, -, -, e⟩
  · rw [e]; cases hs : s.fin <;> simp_all [headRest, Io.bind]
  · rw [e, Io.bind_ok]
    simp only [headRest]
    split
    · simp
    · rename_i H hH
      split
      · simp
      · rename_i rl hrl
        have hof : ∀ body, Io.ofRes (Request.parse feat rl H body) ≠ .abort := by
          intro body; cases Request.parse feat rl H body <;> simp [Io.ofRes]
        unfold Request.fromRaw
        simp only [Bool.not_true, Bool.false_eq_true, if_false]
        split
        · split
          · split
            · simp [Io.bind]
            · obtain ⟨r1, r2⟩ := readExact_spec (contentLength H - rem.length) reader
              by_cases hl : contentLength H - rem.length ≤ reader.bytes.length
              · obtain ⟨s', e', -, -⟩ := r1 hl
                rw [e']
                simp only [Io.bind_ok]
                split
                · simp [Io.bind]
                · exact hof _
              · rw [r2 (by omega), f4]
                cases hs : s.fin <;> simp_all [Io.bind]
          · exact hof _
        · exact hof _
  · rw [e]; simp [headRest]

end Octane
