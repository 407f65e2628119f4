import Verif.Spec.Delivery
import Verif.Props.Request
import Verif.Proof.Whole
import Verif.Proof.Server
import Verif.Proof.Wire

/-! # Lemmas for C156 -/

namespace Octane

open Spec

theorem readEnd_cons {seg : Bytes} {segs : List Bytes} {b : Nat} :
    ReadEnd (seg :: segs) b ↔ (0 < b ∧ b ≤ seg.length ∧ (b = seg.length ∨ 512 ∣ b)) ∨
      ∃ b', ReadEnd segs b' ∧ b = seg.length + b' := by
  constructor
  · rintro ⟨pre, x, post, m, h1, h2, h3, h4, h5⟩
    cases pre with
    | nil =>
      simp only [List.nil_append, List.cons.injEq] at h1
      obtain ⟨rfl, rfl⟩ := h1
      left
      simp only [List.flatten_nil, List.length_nil, Nat.zero_add] at h2
      subst h2
      exact ⟨h3, h4, h5⟩
    | cons y pre =>
      simp only [List.cons_append, List.cons.injEq] at h1
      obtain ⟨rfl, rfl⟩ := h1
      right
      refine ⟨pre.flatten.length + m, ⟨pre, x, post, m, rfl, rfl, h3, h4, h5⟩, ?_⟩
      rw [h2]
      simp only [List.flatten_cons, List.length_append]
      omega
  · rintro (⟨h1, h2, h3⟩ | ⟨b', ⟨pre, x, post, m, h1, h2, h3, h4, h5⟩, e⟩)
    · exact ⟨[], seg, segs, b, rfl, by simp, h1, h2, h3⟩
    · refine ⟨seg :: pre, x, post, m, by rw [h1]; rfl, ?_, h3, h4, h5⟩
      rw [e, h2]
      simp only [List.flatten_cons, List.length_append]
      omega

theorem readEnd_pos {segs : List Bytes} {b : Nat} (h : ReadEnd segs b) : 0 < b := by
  obtain ⟨_, _, _, _, _, h2, h3, _⟩ := h
  omega

theorem readEnd_nil {b : Nat} : ¬ ReadEnd [] b := by
  rintro ⟨pre, x, post, m, h1, -⟩
  simp at h1

theorem readEnd_le {segs : List Bytes} {b : Nat} (h : ReadEnd segs b) : b ≤ segs.flatten.length := by
  obtain ⟨pre, x, post, m, h1, h2, h3, h4, h5⟩ := h
  rw [h1]
  simp only [List.flatten_append, List.flatten_cons, List.length_append]
  omega

/-- one read brings the bytes up to the first read end, and the others are those of what remains -/
theorem read_ends {s s' : Sock} {x : Bytes} (hx : x ≠ []) (h : s.read 512 = .data x s') (b : Nat) :
    ReadEnd s.segs b ↔ b = x.length ∨ ∃ b', ReadEnd s'.segs b' ∧ b = x.length + b' := by
  obtain ⟨segs, fin⟩ := s
  unfold Sock.read at h
  simp only at h ⊢
  induction segs with
  | nil =>
    unfold readSegs at h
    cases fin <;> simp at h
    exact absurd h.1.symm (by simpa using hx)
  | cons seg segs ih =>
    cases seg with
    | nil =>
      rw [readSegs] at h
      rw [readEnd_cons]
      constructor
      · rintro (⟨h1, h2, -⟩ | ⟨b', h1, h2⟩)
        · simp only [List.length_nil] at h2; omega
        · simp only [List.length_nil, Nat.zero_add] at h2
          subst h2
          exact (ih h).1 h1
      · intro hb
        exact .inr ⟨b, (ih h).2 hb, by simp⟩
    | cons y ys =>
      unfold readSegs at h
      generalize hl : (y :: ys) = l at h
      have hl0 : 0 < l.length := by rw [← hl]; simp
      split at h
      · rename_i hle
        simp only [ReadOut.data.injEq] at h
        obtain ⟨rfl, rfl⟩ := h
        rw [readEnd_cons]
        constructor
        · rintro (⟨h1, h2, h3 | h3⟩ | h1)
          · exact .inl h3
          · left; omega
          · exact .inr h1
        · rintro (h1 | h1)
          · exact .inl ⟨by omega, by omega, .inl h1⟩
          · exact .inr h1
      · rename_i hlt
        simp only [ReadOut.data.injEq] at h
        obtain ⟨rfl, rfl⟩ := h
        have e1 : (l.take 512).length = 512 := by rw [List.length_take]; omega
        have e2 : (l.drop 512).length = l.length - 512 := List.length_drop
        simp only [e1]
        rw [readEnd_cons]
        constructor
        · rintro (⟨h1, h2, h3⟩ | ⟨b', h1, h2⟩)
          · by_cases hb : b = 512
            · exact .inl hb
            · right
              refine ⟨b - 512, ?_, by omega⟩
              rw [readEnd_cons, e2]
              left
              refine ⟨by omega, by omega, ?_⟩
              omega
          · right
            refine ⟨b - 512, ?_, by omega⟩
            rw [readEnd_cons, e2]
            exact .inr ⟨b', h1, by omega⟩
        · rintro (h1 | ⟨b', h1, h2⟩)
          · left; refine ⟨by omega, by omega, .inr ?_⟩; omega
          · rw [readEnd_cons, e2] at h1
            rcases h1 with ⟨h1, h3, h4⟩ | ⟨b'', h1, h3⟩
            · left; refine ⟨by omega, by omega, ?_⟩; omega
            · right; exact ⟨b'', h1, by omega⟩

theorem firstSplit_occurs_iff {data more a rest : Bytes}
    (h : FirstSplit (data ++ more) blankLine a rest) : Occurs data blankLine ↔ a.length + 4 ≤ data.length := by
  constructor
  · intro ho
    obtain ⟨b0, h1, -⟩ := h.of_append ho
    have := congrArg List.length h1.1
    simp [blankLine] at this
    omega
  · intro hl
    have e := congrArg (List.take data.length) h.1
    rw [List.take_left' rfl] at e
    refine ⟨a.length, a, (rest.take (data.length - (a.length + 4))), ?_, rfl⟩
    have e2 : (a ++ blankLine).length = a.length + 4 := by simp [blankLine]
    rw [List.take_append, List.take_of_length_le (by rw [e2]; exact hl), e2] at e
    exact e

theorem readHeadLoop_ends (fuel : Nat) (data : Bytes) (s : Sock) (hf : s.bytes.length < fuel)
    (hno : ¬ Occurs data blankLine) (a rest : Bytes) (h : FirstSplit (data ++ s.bytes) blankLine a rest)
    (b : Nat) (hb : ReadEnd s.segs b) (h1 : a.length + 4 ≤ data.length + b)
    (hmin : ∀ b', ReadEnd s.segs b' → a.length + 4 ≤ data.length + b' → b ≤ b') :
    ∃ rem reader, readHeadLoop fuel data s = .ok (headOutcome a rem reader) ∧
      rem ++ reader.bytes = rest ∧ rem.length = data.length + b - (a.length + 4) := by
  induction fuel generalizing data s b with
  | zero => omega
  | succ fuel ih =>
    have hr := read_spec 512 (by omega) s
    unfold readHeadLoop
    cases hrd : s.read 512 with
    | error =>
      rw [hrd] at hr
      have := readEnd_pos hb
      have e := readEnd_le hb
      have e2 : s.segs.flatten = [] := hr.1
      rw [e2] at e
      simp at e; omega
    | pending =>
      rw [hrd] at hr
      have := readEnd_pos hb
      have e := readEnd_le hb
      have e2 : s.segs.flatten = [] := hr.1
      rw [e2] at e
      simp at e; omega
    | data x s' =>
      rw [hrd] at hr
      simp only at hr ⊢
      by_cases hx : x = []
      · have := readEnd_pos hb
        have e := readEnd_le hb
        have e2 : s.segs.flatten = [] := (hr.1 hx).1
        rw [e2] at e
        simp at e; omega
      · obtain ⟨hbytes, hfin, -⟩ := hr.2 hx
        have hends := read_ends hx hrd
        rw [if_neg hx]
        rw [hbytes, ← List.append_assoc] at h
        by_cases hocc : Occurs (data ++ x) blankLine
        · obtain ⟨b0, g1, g2⟩ := h.of_append hocc
          refine ⟨b0, s', ?_, g2.symm, ?_⟩
          · rw [(headCheck_spec (data ++ x) s').2 a b0 g1]
          · have hle := (firstSplit_occurs_iff h).1 hocc
            have hxe : b = x.length := by
              rw [List.length_append] at hle
              have := hmin x.length ((hends _).2 (.inl rfl)) hle
              rcases (hends b).1 hb with e | ⟨b', -, e⟩ <;> omega
            have := congrArg List.length g1.1
            simp [blankLine] at this
            omega
        · have hlen : s'.bytes.length < fuel := by
            have := List.length_pos_iff.2 hx
            rw [hbytes] at hf
            simp only [List.length_append] at hf
            omega
          have hnle : ¬ a.length + 4 ≤ (data ++ x).length := fun hle => hocc ((firstSplit_occurs_iff h).2 hle)
          rw [(headCheck_spec (data ++ x) s').1 hocc]
          rw [List.length_append] at hnle
          rcases (hends b).1 hb with e | ⟨b', hb', e⟩
          · omega
          · obtain ⟨rem, reader, k1, k2, k3⟩ := ih (data ++ x) s' hlen hocc h b' hb'
              (by rw [List.length_append]; omega) (by
                intro c hc hle
                rw [List.length_append] at hle
                have := hmin (x.length + c) ((hends _).2 (.inr ⟨c, hc, rfl⟩)) (by omega)
                omega)
            refine ⟨rem, reader, k1, k2, ?_⟩
            rw [k3, List.length_append]
            omega

/-- what is read together with the head: the rest up to the end of the read that completes it -/
theorem readHead_ends {s : Sock} {head rest : Bytes} (h : FirstSplit s.bytes blankLine head rest) {b : Nat}
    (hb : ReadUpTo s.segs (head.length + 4) b) :
    ∃ rem reader, readHead s = .ok (headOutcome head rem reader) ∧ rem ++ reader.bytes = rest ∧
      rem.length = b - (head.length + 4) := by
  have := readHeadLoop_ends (s.bytes.length + 1) [] s (by omega) not_occurs_nil_blank head rest
    (by simpa using h) b hb.1 (by simpa using hb.2.1) (by simpa using hb.2.2)
  simpa [readHead] using this

/-- the end of the stream is the end of a read -/
theorem readEnd_last {segs : List Bytes} (h : segs.flatten ≠ []) : ReadEnd segs segs.flatten.length := by
  induction segs with
  | nil => simp at h
  | cons seg segs ih =>
    rw [readEnd_cons]
    by_cases hs : segs.flatten = []
    · left
      simp only [List.flatten_cons, hs, List.append_nil, ne_eq] at h ⊢
      exact ⟨List.length_pos_iff.2 h, Nat.le_refl _, .inl trivial⟩
    · right
      exact ⟨_, ih hs, by simp⟩

theorem readUpTo_exists {segs : List Bytes} {h : Nat} (h0 : 0 < h) (hl : h ≤ segs.flatten.length) :
    ∃ b, ReadUpTo segs h b := by
  have hne : segs.flatten ≠ [] := by
    intro e; rw [e] at hl; simp at hl; omega
  have key : ∀ n, (∃ b, ReadEnd segs b ∧ h ≤ b ∧ b ≤ n) → ∃ b, ReadUpTo segs h b := by
    intro n
    induction n with
    | zero =>
      rintro ⟨b, h1, h2, h3⟩
      omega
    | succ n ih =>
      intro hb
      by_cases hq : ∃ b, ReadEnd segs b ∧ h ≤ b ∧ b ≤ n
      · exact ih hq
      · obtain ⟨b, h1, h2, h3⟩ := hb
        refine ⟨b, h1, h2, fun b' h4 h5 => ?_⟩
        apply Classical.byContradiction
        intro hlt
        exact hq ⟨b', h4, h5, by omega⟩
  exact key _ ⟨_, readEnd_last hne, hl, Nat.le_refl _⟩

/-- a read brings at most 512 bytes -/
theorem readUpTo_lt {segs : List Bytes} {h b : Nat} (h0 : 0 < h) (hb : ReadUpTo segs h b) : b < h + 512 := by
  induction segs generalizing h b with
  | nil => exact absurd hb.1 readEnd_nil
  | cons seg segs ih =>
    obtain ⟨h1, h2, h3⟩ := hb
    apply Classical.byContradiction
    intro hlt
    by_cases hs : h ≤ seg.length
    · by_cases hq : (h + 511) / 512 * 512 ≤ seg.length
      · have := h3 ((h + 511) / 512 * 512) (readEnd_cons.2 (.inl ⟨by omega, hq, .inr ⟨_, Nat.mul_comm _ _⟩⟩)) (by omega)
        omega
      · have := h3 seg.length (readEnd_cons.2 (.inl ⟨by omega, Nat.le_refl _, .inl rfl⟩)) hs
        omega
    · rcases readEnd_cons.1 h1 with ⟨_, g2, _⟩ | ⟨b', g1, g2⟩
      · omega
      · have := ih (h := h - seg.length) (b := b') (by omega) ⟨g1, by omega, fun c hc hle => by
          have := h3 (seg.length + c) (readEnd_cons.2 (.inr ⟨c, hc, rfl⟩)) (by omega)
          omega⟩
        omega

/-- the body as a function of what was read with the head and what follows -/
theorem fromRaw_exact {feat : Features} {allocOk : Nat → Bool} {H : Headers} {rl : RequestLine} {rem : Bytes}
    {reader : Sock} {req : Request} {n : Nat} (hn : DeclaredLength H.get n)
    (h : Request.fromRaw feat allocOk H rl rem reader = .ok (some req)) :
    Io.ofRes (Request.parse feat rl H
      (if n = 0 then [] else (rem ++ reader.bytes).take (max n rem.length))) = .ok (some req) ∧
    n ≤ (rem ++ reader.bytes).length := by
  have hn' : contentLength H = n := DeclaredLength.unique (contentLength_declared H) hn
  by_cases h0 : n = 0
  · subst h0
    unfold Request.fromRaw at h
    simp only [hn'] at h
    simpa using h
  · rw [if_neg h0]
    by_cases hle : n ≤ rem.length
    · rw [C26_body_overrun feat allocOk H rl rem reader n hn (by omega) hle] at h
      rw [Nat.max_eq_right hle, List.take_left' rfl]
      exact ⟨h, by simp; omega⟩
    · rw [Nat.max_eq_left (by omega)]
      unfold Request.fromRaw at h
      simp only [hn'] at h
      rw [if_pos (by omega), if_pos (by omega)] at h
      split at h
      · simp at h
      · split at h
        · simp at h
        · obtain ⟨r1, r2⟩ := readExact_spec (n - rem.length) reader
          by_cases hle : n - rem.length ≤ reader.bytes.length
          · obtain ⟨s', q1, -, -⟩ := r1 hle
            rw [q1] at h
            simp only [Io.bind_ok] at h
            split at h
            · simp at h
            · split at h
              · simp at h
              · rw [Io.bind_ok] at h
                rw [List.take_append, List.take_of_length_le (by omega : rem.length ≤ n)]
                exact ⟨h, by simp; omega⟩
          · rw [r2 (by omega)] at h
            cases hfin : reader.fin <;> rw [hfin] at h <;> simp only [Io.bind] at h <;> cases h

theorem parse_body {feat : Features} {rl : RequestLine} {H : Headers} {body : Bytes} {r : Request}
    (h : Io.ofRes (Request.parse feat rl H body) = .ok (some r)) : r.body = body := by
  unfold Request.parse at h
  generalize (if feat.cookies = true then match H.get c!"cookie" with
    | some v => Cookie.parse v
    | none => Res.ok [] else Res.ok []) = x at h
  cases x with
  | panic => simp at h
  | ok cs => simp at h; rw [← h]

/-- the bytes a request is made of -/
theorem reads_parse {feat : Features} {allocOk : Nat → Bool} {s : Sock} {req : Request}
    (h : Reads feat allocOk s req) {head rest : Bytes} (hs : FirstSplit s.bytes blankLine head rest)
    {n : Nat} (hn : DeclaredLength req.headers.get n) {b : Nat} (hb : ReadUpTo s.segs (head.length + 4) b) :
    (∃ rem reader, readHead s = .ok (headOutcome head rem reader)) ∧
    Io.ofRes (Request.parse feat req.requestLine req.headers
      (if n = 0 then [] else rest.take (max n (b - (head.length + 4))))) = .ok (some req) ∧ n ≤ rest.length := by
  obtain ⟨hdrs, line, rem, reader, H, rl, h1, h2, h3, h4⟩ := h
  obtain ⟨e1, e2⟩ := fromRaw_fields h4
  obtain ⟨rem', reader', k1, k2, k3⟩ := readHead_ends hs hb
  refine ⟨⟨_, _, k1⟩, ?_⟩
  rw [h1] at k1
  have : rem = rem' ∧ reader = reader' := by
    unfold headOutcome at k1
    cases hu : fromUtf8 head with
    | none => simp [hu] at k1
    | some text =>
      rcases parseWithoutBody_spec text with ⟨hp, -⟩ | ⟨l, hd, -, hp⟩
      · simp [hu, hp] at k1
      · simp only [hu, hp, Io.ok.injEq, HeadOut.head.injEq] at k1
        exact ⟨k1.2.2.1, k1.2.2.2⟩
  obtain ⟨rfl, rfl⟩ := this
  rw [e2] at hn
  have := fromRaw_exact hn h4
  rw [k2, k3] at this
  rw [e1, e2]
  exact this

/-- where the blank line ends -/
theorem asked_end {faithful cookies : Bool} {bytes : Bytes} {q : Asked} {n : Nat}
    (hq : q.In faithful cookies bytes n) :
    ∃ text, FirstSplit bytes blankLine (utf8 text) q.after ∧
      bytes.length - q.after.length = (utf8 text).length + 4 ∧ q.after.length + 4 ≤ bytes.length ∧
      DeclaredLength (joined q.headers) n ∧ n ≤ q.after.length := by
  obtain ⟨text, line, hdrs, h1, -, -, -, h5, h6, -⟩ := hq
  have := congrArg List.length h1.1
  simp only [blankLine, List.length_append, List.length_cons, List.length_nil] at this
  exact ⟨text, h1, by omega, by omega, h5, h6⟩

/-- a first piece of at most 512 bytes is one read -/
theorem readUpTo_first {seg : Bytes} {segs : List Bytes} {h : Nat} (h0 : 0 < h) (hl : h ≤ seg.length)
    (h512 : seg.length ≤ 512) : ReadUpTo (seg :: segs) h seg.length := by
  refine ⟨readEnd_cons.2 (.inl ⟨by omega, Nat.le_refl _, .inl rfl⟩), hl, fun b' hb' hle => ?_⟩
  rcases readEnd_cons.1 hb' with ⟨h1, h2, h3⟩ | ⟨c, -, e⟩ <;> omega

theorem readUpTo_unique {segs : List Bytes} {h b b' : Nat} (x : ReadUpTo segs h b) (y : ReadUpTo segs h b') : b = b' :=
  Nat.le_antisymm (x.2.2 _ y.1 y.2.1) (y.2.2 _ x.1 x.2.1)

theorem Spec.Asked.BodyIs.unique {q : Asked} {segs : List Bytes} {n : Nat} {x y : Bytes} (hx : q.BodyIs segs n x)
    (hy : q.BodyIs segs n y) : x = y := by
  obtain ⟨b, h1, h2⟩ := hx
  obtain ⟨b', h1', h2'⟩ := hy
  rw [h2, h2', readUpTo_unique h1 h1']

theorem reads_body {feat : Features} {allocOk : Nat → Bool} {s : Sock} {req : Request} (h : Reads feat allocOk s req)
    {q : Asked} {n : Nat} (hq : q.In feat.faithful feat.cookies s.bytes n)
    (hget : ∀ k, req.headers.get k = joined q.headers k) : q.BodyIs s.segs n req.body := by
  obtain ⟨text, h1, h2, h3, h4, h5⟩ := asked_end hq
  obtain ⟨b, hb⟩ := readUpTo_exists (segs := s.segs) (h := s.bytes.length - q.after.length) (by omega)
    (show _ ≤ s.bytes.length by omega)
  refine ⟨b, hb, ?_⟩
  rw [show s.segs.flatten.length - q.after.length = (utf8 text).length + 4 from h2]
  rw [h2] at hb
  refine parse_body (reads_parse h h1 ?_ hb).2.1
  rw [show req.headers.get = joined q.headers from funext hget]
  exact h4

end Octane
