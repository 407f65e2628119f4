import Verif.Proof.Wire
/-
Helper lemmas for C75: texts inside other texts.
-/
namespace Octane
open Spec

theorem infix_intercalate {T : Type u} (sep : List T) (ps : List (List T)) (p : List T) (h : p ∈ ps) :
    p <:+: sep.intercalate ps := by
  induction ps with
  | nil => simp at h
  | cons x ps ih =>
    cases ps with
    | nil =>
      have : p = x := by simpa using h
      subst this
      exact ⟨[], [], by simp [List.intercalate]⟩
    | cons y ps =>
      rw [intercalate_cons_cons]
      rcases List.mem_cons.1 h with rfl | h
      · exact ⟨[], sep ++ sep.intercalate (y :: ps), by simp⟩
      · obtain ⟨a, b, e⟩ := ih h
        exact ⟨x ++ sep ++ a, b, by rw [← e]; simp⟩

theorem trim_infix (s : Str) : trim s <:+: s := by
  unfold trim
  have h1 : s.dropWhile isWhitespace <:+ s := List.dropWhile_suffix _
  have h2 : ((s.dropWhile isWhitespace).reverse.dropWhile isWhitespace).reverse <+: s.dropWhile isWhitespace := by
    rw [← List.reverse_suffix, List.reverse_reverse]
    exact List.dropWhile_suffix _
  exact h2.isInfix.trans h1.isInfix

theorem occurs_iff_infix {T : Type u} (s n : List T) : Occurs s n ↔ n <:+: s := by
  constructor
  · rintro ⟨i, a, b, e, -⟩; exact ⟨a, b, e.symm⟩
  · rintro ⟨a, b, e⟩; exact ⟨_, a, b, e.symm, rfl⟩

theorem not_occurs_infix {T : Type u} {s t n : List T} (h : ¬ Occurs s n) (ht : t <:+: s) : ¬ Occurs t n := by
  rw [occurs_iff_infix] at h ⊢
  exact fun h' => h (h'.trans ht)

/-- no CRLF arises at a place where the second text does not begin with LF -/
theorem no_crlf_append {a b : Str} (ha : ¬ Occurs a crlf) (hb : ¬ Occurs b crlf) (h : b.head? ≠ some '\n') :
    ¬ Occurs (a ++ b) crlf := by
  rintro ⟨j, hj⟩
  rcases Nat.lt_or_ge j a.length with hl | hl
  · rcases Nat.lt_or_ge (j + 1) a.length with hl' | hl'
    · exact ha ⟨j, hj.of_append (by simp [crlf]; omega)⟩
    · have e := occursAt_getElem hj 1 (by decide)
      rw [List.getElem?_append_right hl', show j + 1 - a.length = 0 by omega] at e
      rw [List.head?_eq_getElem?] at h
      exact h e
  · exact hb ⟨_, occursAt_drop hj hl⟩

theorem no_crlf_joined (vs : List Str) (h : ∀ v ∈ vs, ¬ Occurs v crlf) :
    ¬ Occurs (c!", ".intercalate vs) crlf := by
  induction vs with
  | nil =>
    apply no_crlf_of_no_cr
    simp [List.intercalate]
  | cons v vs ih =>
    cases vs with
    | nil =>
      have : c!", ".intercalate [v] = v := by simp [List.intercalate]
      rw [this]; exact h v (by simp)
    | cons w vs =>
      rw [intercalate_cons_cons, List.append_assoc]
      refine no_crlf_append (h v (by simp)) ?_ (by simp)
      have hs := ih fun x hx => h x (List.mem_cons_of_mem _ hx)
      rintro ⟨j, hj⟩
      have h1 : 2 ≤ j := by
        rcases Nat.lt_or_ge j 2 with hl | hl
        · have e := occursAt_getElem hj 0 (by decide)
          rw [Nat.add_zero, List.getElem?_append_left hl] at e
          have := List.mem_of_getElem? e
          simp at this
        · exact hl
      exact hs ⟨_, occursAt_drop hj h1⟩

theorem mem_joined (vs : List Str) (c : Char) (h : c ∈ c!", ".intercalate vs) :
    c = ',' ∨ c = ' ' ∨ ∃ v ∈ vs, c ∈ v := by
  induction vs with
  | nil => simp [List.intercalate] at h
  | cons v vs ih =>
    cases vs with
    | nil => exact .inr (.inr ⟨v, by simp, by simpa [List.intercalate] using h⟩)
    | cons w vs =>
      rw [intercalate_cons_cons] at h
      simp only [List.mem_append, List.mem_cons, List.not_mem_nil, or_false] at h
      rcases h with (h | h | h) | h
      · exact .inr (.inr ⟨v, by simp, h⟩)
      · exact .inl h
      · exact .inr (.inl h)
      · rcases ih h with h | h | ⟨x, hx, h⟩
        · exact .inl h
        · exact .inr (.inl h)
        · exact .inr (.inr ⟨x, List.mem_cons_of_mem _ hx, h⟩)

/-! ### cookies -/

theorem cookieRsParse_infix {t : Str} {c : Cookie} (h : cookieRsParse t = some c) :
    c.name <:+: t ∧ c.value <:+: t ∧ ∀ a ∈ c.attrs, a <:+: t := by
  unfold cookieRsParse at h
  have hi := infix_intercalate [';'] (splitChar ';' t)
  rw [splitChar_intercalate] at hi
  cases hs : splitChar ';' t with
  | nil => rw [hs] at h; simp at h
  | cons kv attrs =>
    rw [hs] at h hi
    simp only at h
    by_cases he : '=' ∈ kv
    · obtain ⟨name, value, e1, e2⟩ := split_first_mem he
      rw [e1, splitN2_append e2 value] at h
      simp only at h
      split at h
      · simp at h
      · simp only [Option.some.injEq] at h
        subst h
        have hkv : kv <:+: t := hi kv (by simp)
        refine ⟨(trim_infix _).trans (List.IsInfix.trans ⟨[], '=' :: value, by simp [e1]⟩ hkv),
          (trim_infix _).trans (List.IsInfix.trans ⟨name ++ ['='], [], by simp [e1]⟩ hkv), ?_⟩
        intro a ha
        obtain ⟨x, hx, rfl⟩ := List.mem_map.1 ha
        exact (trim_infix _).trans (hi x (by simp [hx]))
    · rw [splitN2_not_mem he] at h
      simp at h

theorem cookieParse_infix {v : Str} {cs : List Cookie} (h : Cookie.parse v = .ok cs) (c : Cookie) (hc : c ∈ cs) :
    c.name <:+: v ∧ c.value <:+: v ∧ ∀ a ∈ c.attrs, a <:+: v := by
  have hp := pieces_splitStr v
  unfold Cookie.parse at h
  have hi : ∀ p ∈ splitStr c!"; " v, p <:+: v := by
    intro p hp'
    have := infix_intercalate c!"; " _ p hp'
    rwa [← hp.2.1] at this
  clear hp
  revert hi h
  generalize splitStr c!"; " v = toks
  intro h hi
  induction toks generalizing cs with
  | nil => simp only [Cookie.parseAll, Res.ok.injEq] at h; subst h; simp at hc
  | cons t toks ih =>
    rw [Cookie.parseAll] at h
    cases hct : cookieRsParse t with
    | none => rw [hct] at h; simp [Res.unwrap] at h
    | some d =>
      rw [hct] at h
      simp only [Res.unwrap_some, Res.bind_ok'] at h
      cases hrest : Cookie.parseAll toks with
      | panic => rw [hrest] at h; simp at h
      | ok ds =>
        rw [hrest] at h
        simp only [Res.bind_ok', Res.ok.injEq] at h
        subst h
        rcases List.mem_cons.1 hc with rfl | hc
        · have ht := hi t (by simp)
          obtain ⟨h1, h2, h3⟩ := cookieRsParse_infix hct
          exact ⟨h1.trans ht, h2.trans ht, fun a ha => (h3 a ha).trans ht⟩
        · exact ih hc hrest fun p hp => hi p (by simp [hp])

/-! ### the request -/

theorem fromRaw_cookies {feat : Features} {allocOk : Nat → Bool} {H : Headers} {rl : RequestLine}
    {rem : Bytes} {reader : Sock} {req : Request}
    (h : Request.fromRaw feat allocOk H rl rem reader = .ok (some req)) :
    req.cookies = [] ∨ ∃ v, H.get c!"cookie" = some v ∧ Cookie.parse v = .ok req.cookies := by
  have key : ∀ b : Io Bytes, (b.bind fun body => Io.ofRes (Request.parse feat rl H body)) = .ok (some req) →
      req.cookies = [] ∨ ∃ v, H.get c!"cookie" = some v ∧ Cookie.parse v = .ok req.cookies := by
    intro b hb
    cases b with
    | ok body =>
      simp only [Io.bind_ok] at hb
      unfold Request.parse at hb
      cases hf : feat.cookies with
      | false =>
        rw [hf] at hb
        simp at hb
        subst hb; exact .inl rfl
      | true =>
        rw [hf] at hb
        cases hc : H.get c!"cookie" with
        | none =>
          rw [hc] at hb
          simp at hb
          subst hb; exact .inl rfl
        | some v =>
          rw [hc] at hb
          simp only [if_true] at hb
          cases hp : Cookie.parse v with
          | panic => rw [hp] at hb; simp at hb
          | ok cs =>
            rw [hp] at hb
            simp at hb
            subst hb; exact .inr ⟨v, rfl, hp⟩
    | panic => simp at hb
    | pending => simp at hb
    | abort => simp at hb
  exact key _ h

theorem readHead_line {s : Sock} {hdrs line : Str} {rem : Bytes} {reader : Sock}
    (h : readHead s = .ok (.head hdrs line rem reader)) : ¬ Occurs line crlf := by
  obtain ⟨h1, h2⟩ := C25_head_from_bytes s
  rcases Classical.em (Occurs s.bytes blankLine) with ho | ho
  · obtain ⟨head, rest, hf⟩ := Spec.FirstSplit.exists ho
    obtain ⟨h3, h4⟩ := h2 head rest hf
    rcases Classical.em (∃ text, head = utf8 text ∧ Occurs text crlf) with ⟨text, ht, hc⟩ | hc
    · obtain ⟨a, b, hab⟩ := Spec.FirstSplit.exists hc
      obtain ⟨rem', reader', h5, -⟩ := h3 a b ⟨text, ht, hab⟩
      rw [h5] at h
      simp only [Io.ok.injEq, HeadOut.head.injEq] at h
      obtain ⟨-, rfl, -⟩ := h
      rintro ⟨j, hj⟩
      refine hab.2 j ?_ (hab.1 ▸ (hj.append _).append _)
      have : OccursAt a crlf j := hj
      obtain ⟨x, y, e, rfl⟩ := this
      rw [e]; simp [crlf]
    · rw [h4 (fun text ht ho => hc ⟨text, ht, ho⟩)] at h
      simp at h
  · rw [h1 ho] at h
    cases hs : s.fin <;> rw [hs] at h <;> simp at h

theorem survivorsRev_mem (up : Nat) (l : List Str) (x : Str) (h : x ∈ survivorsRev up l) : x ∈ l := by
  induction l generalizing up with
  | nil => simp [survivorsRev] at h
  | cons s l ih =>
    unfold survivorsRev at h
    split at h
    · exact List.mem_cons_of_mem _ (ih _ h)
    · split at h
      · cases up with
        | zero =>
          rcases List.mem_cons.1 h with rfl | h
          · simp
          · exact List.mem_cons_of_mem _ (ih _ h)
        | succ up => exact List.mem_cons_of_mem _ (ih _ h)
      · exact List.mem_cons_of_mem _ (ih _ h)

theorem resolve_mem (ps : List Str) (x : Str) (h : x ∈ resolve ps) : x ∈ ps := by
  have := survivorsRev_mem _ _ _ (List.mem_reverse.1 h)
  exact List.mem_reverse.1 this

theorem parseLine_infix {faithful : Bool} {line : Str} {rl : RequestLine}
    (h : RequestLine.parse faithful line = .ok (some rl)) (x : Str) (hx : x ∈ rl.path) : x <:+: line := by
  have hsp := splitChar_intercalate ' ' line
  unfold RequestLine.parse at h
  revert h hsp
  generalize splitChar ' ' line = toks
  intro h hsp
  match toks, h with
  | [], h => simp at h
  | [_], h => simp at h
  | m :: p :: toks, h =>
    simp only at h
    cases hp : Path.parse p with
    | none => rw [hp] at h; simp at h
    | some path =>
      rw [hp] at h
      cases toks with
      | nil => simp at h
      | cons version rest =>
        simp only at h
        cases hs : splitAtByte 5 version with
        | panic => rw [hs] at h; simp at h
        | ok y =>
          obtain ⟨first, ver⟩ := y
          rw [hs] at h
          simp only [Res.bind_ok'] at h
          split at h
          · simp at h
          · simp only [Res.ok.injEq, Option.some.injEq] at h
            subst h
            have hne := splitChar_ne_nil '/' p
            have hno := splitChar_not_mem '/' p
            have hjoin := splitChar_intercalate '/' p
            have hcl : ¬ Climbs (splitChar '/' p) := by
              rw [← (C02_dotdot_rule _ hne hno).1, hjoin, hp]; simp
            have := (C02_dotdot_rule _ hne hno).2 hcl
            rw [hjoin, hp] at this
            simp only [Option.some.injEq] at this
            subst this
            have h1 := resolve_mem _ _ hx
            have h2 := infix_intercalate ['/'] _ x h1
            rw [hjoin] at h2
            have h3 := infix_intercalate [' '] (m :: p :: version :: rest) p (by simp)
            rw [hsp] at h3
            exact h2.trans h3

end Octane
