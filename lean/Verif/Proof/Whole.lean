import Verif.Proof.Server
import Verif.Spec.Whole
/-
Helper lemmas about a whole connection: the request that is read, part by part.
-/
namespace Octane
open Spec
variable {W : Type u}

/-! ### cookies -/

theorem cookieRsParse_read {t : Str} {c : Cookie} (h : cookieRsParse t = some c) : CookieRead t c := by
  unfold cookieRsParse at h
  cases hs : splitChar ';' t with
  | nil => exact absurd hs (splitChar_ne_nil _ _)
  | cons kv attrs =>
    have ht : t = kv ++ (attrs.flatMap fun a => ';' :: a) := by
      have h1 := splitChar_intercalate ';' t
      rw [hs] at h1
      rw [← h1]
      clear h1 hs h
      induction attrs generalizing kv with
      | nil => simp [List.intercalate]
      | cons a attrs ih => rw [intercalate_cons_cons, ih]; simp
    have hkv : ';' ∉ kv := splitChar_not_mem ';' t kv (by rw [hs]; simp)
    rw [hs] at h
    simp only at h
    by_cases he : '=' ∈ kv
    · obtain ⟨name, value, e1, e2⟩ := split_first_mem he
      have h1 : splitN2 '=' kv = [name, value] := by rw [e1]; exact splitN2_append e2 value
      rw [h1] at h
      simp only at h
      split at h
      · simp at h
      · rename_i hne
        simp only [Option.some.injEq] at h
        subst h
        rw [e1] at hkv
        simp only [List.mem_append, List.mem_cons, not_or] at hkv
        refine ⟨name, value, attrs.flatMap fun a => ';' :: a, by rw [ht, e1], e2, hkv.1, hkv.2.2, ?_,
          (trimmed_iff _ _).2 rfl, hne, (trimmed_iff _ _).2 rfl⟩
        cases attrs with
        | nil => exact .inl rfl
        | cons a as => exact .inr ⟨_, rfl⟩
    · rw [splitN2_not_mem he] at h
      simp at h

theorem Cookie.parseAll_read {toks : List Str} {cs : List Cookie} (h : Cookie.parseAll toks = .ok cs) :
    toks.length = cs.length ∧
      ∀ (i : Nat) p c, toks[i]? = some p → cs[i]? = some c → CookieRead p c := by
  induction toks generalizing cs with
  | nil =>
    simp only [Cookie.parseAll, Res.ok.injEq] at h
    subst h
    simp
  | cons t toks ih =>
    rw [Cookie.parseAll] at h
    cases hc : cookieRsParse t with
    | none => rw [hc] at h; simp [Res.unwrap] at h
    | some c =>
      rw [hc, Res.unwrap_some, Res.bind_ok'] at h
      cases hp : Cookie.parseAll toks with
      | panic => rw [hp] at h; simp at h
      | ok cs' =>
        rw [hp, Res.bind_ok'] at h
        simp only [Res.ok.injEq] at h
        subst h
        obtain ⟨i1, i2⟩ := ih hp
        refine ⟨by simp [i1], ?_⟩
        intro i p d hi hd
        cases i with
        | zero =>
          simp only [List.getElem?_cons_zero, Option.some.injEq] at hi hd
          subst hi; subst hd
          exact cookieRsParse_read hc
        | succ i =>
          simp only [List.getElem?_cons_succ] at hi hd
          exact i2 i p d hi hd

theorem Cookie.parse_read {v : Str} {cs : List Cookie} (h : Cookie.parse v = .ok cs) :
    CookiesRead v cs := by
  obtain ⟨h1, h2⟩ := Cookie.parseAll_read h
  exact ⟨_, pieces_splitStr v, h1, h2⟩

/-! ### the request line -/

theorem lineOk_iff (faithful : Bool) (line : Str) :
    LineOk faithful line ↔ ∃ m pieces ver, LineParts faithful line m pieces ver := by
  constructor
  · rintro ⟨m, pieces, first, ver, more, h⟩
    exact ⟨m, pieces, ver, first, more, h⟩
  · rintro ⟨m, pieces, ver, first, more, h⟩
    exact ⟨m, pieces, first, ver, more, h⟩

theorem parse_lineParts {faithful : Bool} {line m : Str} {pieces : List Str} {ver : Str}
    (h : LineParts faithful line m pieces ver) :
    RequestLine.parse faithful line = .ok (some ⟨methodOf m, resolve pieces, versionOf ver⟩) := by
  obtain ⟨first, more, rfl, hno, hne, hsl, hcl, h5, hf⟩ := h
  unfold RequestLine.parse
  rw [splitChar_join (by simp) hno]
  simp only
  have hp : Path.parse (['/'].intercalate pieces) = some (resolve pieces) :=
    (C02_dotdot_rule pieces hne hsl).2 hcl
  rw [hp]
  have := splitAtByte_append first ver
  rw [h5] at this
  simp only [this, Res.bind_ok']
  rw [if_neg]
  rintro ⟨h1, h2⟩
  obtain ⟨h3, h4⟩ := hf h1
  rcases h2 with h2 | h2
  · exact h2 h3
  · exact h2 h4

theorem intercalate_slash_inj {c : Char} {a b : List Str} (ha : a ≠ []) (hb : b ≠ [])
    (h1 : ∀ x ∈ a, c ∉ x) (h2 : ∀ x ∈ b, c ∉ x) (h : [c].intercalate a = [c].intercalate b) : a = b := by
  rw [← splitChar_join ha h1, ← splitChar_join hb h2, h]

theorem append_inj_utf8 {a b c d : Str} (h : a ++ b = c ++ d) (hl : (utf8 a).length = (utf8 c).length) :
    a = c ∧ b = d := by
  have h1 := splitAtByte_append a b
  have h2 := splitAtByte_append c d
  rw [h, hl, h2] at h1
  simp only [Res.ok.injEq, Prod.mk.injEq] at h1
  exact ⟨h1.1.symm, h1.2.symm⟩

theorem Spec.LineParts.unique {f : Bool} {line m m' : Str} {ps ps' : List Str} {v v' : Str}
    (h : LineParts f line m ps v) (h' : LineParts f line m' ps' v') : m = m' ∧ ps = ps' ∧ v = v' := by
  obtain ⟨first, more, e, hno, hne, hsl, -, h5, -⟩ := h
  obtain ⟨first', more', e', hno', hne', hsl', -, h5', -⟩ := h'
  have := intercalate_slash_inj (by simp) (by simp) hno hno' (e.symm.trans e')
  simp only [List.cons.injEq] at this
  obtain ⟨rfl, h2, h3, -⟩ := this
  exact ⟨rfl, intercalate_slash_inj hne hne' hsl hsl' h2,
    (append_inj_utf8 h3 (h5.trans h5'.symm)).2⟩

/-! ### the body and the request -/

theorem fromRaw_body (feat : Features) (allocOk : Nat → Bool) (headers : Headers)
    (rl : RequestLine) (rem : Bytes) (reader : Sock) (n : Nat) (hn : DeclaredLength headers.get n)
    (halloc : ∀ k ≤ n, allocOk k = true) (hmax : n ≤ i64Max) (h : n ≤ (rem ++ reader.bytes).length) :
    ∃ body, ((n = 0 ∧ body = []) ∨ (0 < n ∧ ∃ k, n ≤ k ∧ body = (rem ++ reader.bytes).take k)) ∧
      Request.fromRaw feat allocOk headers rl rem reader = .ofRes (Request.parse feat rl headers body) := by
  rcases Nat.eq_zero_or_pos n with h0 | h0
  · subst h0
    have hn' : contentLength headers = 0 := DeclaredLength.unique (contentLength_declared headers) hn
    refine ⟨[], .inl ⟨rfl, rfl⟩, ?_⟩
    unfold Request.fromRaw
    simp only [hn']
    rfl
  · rcases Nat.lt_or_ge n rem.length with hr | hr
    · exact ⟨rem, .inr ⟨h0, rem.length, by omega, by simp⟩,
        C26_body_overrun feat allocOk headers rl rem reader n hn h0 (by omega)⟩
    · exact ⟨_, .inr ⟨h0, n, Nat.le_refl _, rfl⟩,
        C26_body_read feat allocOk headers rl rem reader n hn hmax halloc hr h⟩

theorem Request.parse_cookies (feat : Features) (rl : RequestLine) (headers : Headers) (body : Bytes)
    (h : feat.cookies = true → ∀ v, headers.get c!"cookie" = some v → CookieText v) :
    ∃ cs, Request.parse feat rl headers body = .ok (some ⟨rl, headers, body, cs⟩) ∧
      (feat.cookies = false ∨ headers.get c!"cookie" = none → cs = []) ∧
      (feat.cookies = true → ∀ v, headers.get c!"cookie" = some v → CookiesRead v cs) := by
  unfold Request.parse
  cases hf : feat.cookies with
  | false => exact ⟨[], by simp, fun _ => rfl, by simp⟩
  | true =>
    cases hc : headers.get c!"cookie" with
    | none => exact ⟨[], by simp, fun _ => rfl, by simp⟩
    | some v =>
      obtain ⟨cs, hcs⟩ := (Cookie.parse_ok v).2 (h hf v hc)
      refine ⟨cs, by simp [hcs], by simp, ?_⟩
      intro _ v' hv'
      simp only [Option.some.injEq] at hv'
      subst hv'
      exact Cookie.parse_read hcs

/-- A stream that starts with the request `q`: this request is read, with these parts. -/
theorem reads_asked (feat : Features) (allocOk : Nat → Bool) (s : Sock) (q : Asked) (n : Nat)
    (hq : q.In feat.faithful feat.cookies s.bytes n) (halloc : ∀ k ≤ n, allocOk k = true)
    (hmax : n ≤ i64Max) :
    ∃ req, Reads feat allocOk s req ∧ req.requestLine = ⟨methodOf q.method, resolve q.pieces, versionOf q.version⟩ ∧
      req.headers.raw.map hpair = q.headers ∧ (∀ k, req.headers.get k = joined q.headers k) ∧
      ((n = 0 ∧ req.body = []) ∨ (0 < n ∧ ∃ k, n ≤ k ∧ req.body = q.after.take k)) ∧
      (feat.cookies = false ∨ joined q.headers c!"cookie" = none → req.cookies = []) ∧
      (feat.cookies = true → ∀ v, joined q.headers c!"cookie" = some v → CookiesRead v req.cookies) := by
  obtain ⟨text, line, hdrs, h1, h2, h3, h4, h5, h6, h7⟩ := hq
  obtain ⟨rem, reader, r1, r2, r3⟩ := ((C25_head_from_bytes s).2 _ _ h1).1 line hdrs ⟨text, rfl, h2⟩
  obtain ⟨H, g1, g2, g3⟩ := Headers.parse_block h4
  have h3' := parse_lineParts h3
  have hg : H.get = joined q.headers := funext g3
  rw [← hg] at h5
  obtain ⟨body, b1, b2⟩ := fromRaw_body feat allocOk H
    ⟨methodOf q.method, resolve q.pieces, versionOf q.version⟩ rem reader n h5 halloc hmax (by rw [r2]; exact h6)
  obtain ⟨cs, c1, c2, c3⟩ := Request.parse_cookies feat
    ⟨methodOf q.method, resolve q.pieces, versionOf q.version⟩ H body (by rw [hg]; exact h7)
  rw [hg] at c2 c3
  rw [r2] at b1
  exact ⟨_, ⟨hdrs, line, rem, reader, H, _, r1, g1, h3', by rw [b2, c1]; rfl⟩, rfl, g2, g3, b1, c2, c3⟩

end Octane
