import Verif.Proof.Request
import Verif.Proof.Response
import Verif.Spec.Wire
/-
Helper lemmas about cookies.
-/
namespace Octane
open Spec

theorem semi_startsWith (s : Str) : startsWith s c!"; " = true ↔ ∃ t, s = ';' :: ' ' :: t := by
  rw [startsWith_iff]
  constructor
  · rintro ⟨t, rfl⟩; exact ⟨t, rfl⟩
  · rintro ⟨t, rfl⟩; exact ⟨t, rfl⟩

theorem splitStr_semi (s : Str) : splitStr c!"; " (';' :: ' ' :: s) = [] :: splitStr c!"; " s := by
  unfold splitStr
  rw [splitStrAux, if_pos ((semi_startsWith _).2 ⟨s, rfl⟩)]
  rfl

theorem splitStr_cons {d : Char} {s : Str} (h : startsWith (d :: s) c!"; " = false) :
    splitStr c!"; " (d :: s) = match splitStr c!"; " s with
      | [] => [[d]]
      | p :: ps => (d :: p) :: ps := by
  unfold splitStr
  rw [splitStrAux, if_neg (by simp [h])]
  cases splitStrAux c!"; " 0 s <;> rfl

theorem splitStr_ne_nil (s : Str) : splitStr c!"; " s ≠ [] := by
  cases s with
  | nil => simp [splitStr, splitStrAux]
  | cons d s =>
    unfold splitStr splitStrAux
    split
    · simp
    · split <;> simp

theorem not_occurs_cons {d : Char} {p : Str} (h : ¬ Occurs (d :: p) c!"; ") :
    startsWith (d :: p) c!"; " = false ∧ ¬ Occurs p c!"; " := by
  constructor
  · cases hs : startsWith (d :: p) c!"; " with
    | false => rfl
    | true =>
      rw [startsWith_iff] at hs
      exact absurd ⟨0, occursAt_zero.2 hs⟩ h
  · rintro ⟨j, hj⟩
    exact h ⟨j + 1, occursAt_cons_succ.2 hj⟩

theorem splitStr_append {p : Str} (h : ¬ Occurs p c!"; ") (s : Str) :
    splitStr c!"; " (p ++ c!"; " ++ s) = p :: splitStr c!"; " s := by
  induction p with
  | nil => exact splitStr_semi s
  | cons d p ih =>
    obtain ⟨h1, h2⟩ := not_occurs_cons h
    have h3 : startsWith (d :: (p ++ c!"; " ++ s)) c!"; " = false := by
      cases hs : startsWith (d :: (p ++ c!"; " ++ s)) c!"; " with
      | false => rfl
      | true =>
        obtain ⟨t, ht⟩ := (semi_startsWith _).1 hs
        cases p with
        | nil => simp at ht
        | cons e p =>
          simp only [List.cons_append, List.cons.injEq] at ht
          rw [ht.1, ht.2.1] at h1
          have := (semi_startsWith (';' :: ' ' :: p)).2 ⟨p, rfl⟩
          rw [this] at h1; exact absurd h1 (by simp)
    have e : d :: p ++ c!"; " ++ s = d :: (p ++ c!"; " ++ s) := rfl
    rw [e, splitStr_cons h3, ih h2]

theorem splitStr_one {p : Str} (h : ¬ Occurs p c!"; ") : splitStr c!"; " p = [p] := by
  induction p with
  | nil => rfl
  | cons d p ih =>
    obtain ⟨h1, h2⟩ := not_occurs_cons h
    rw [splitStr_cons h1, ih h2]

theorem splitStr_pieces {s : Str} {ps : List Str} (h : Pieces c!"; " s ps) :
    splitStr c!"; " s = ps := by
  obtain ⟨hne, rfl, h⟩ := h
  induction ps with
  | nil => exact absurd rfl hne
  | cons p ps ih =>
    cases ps with
    | nil => simpa [List.intercalate] using splitStr_one (h p (by simp))
    | cons q ps =>
      rw [intercalate_cons_cons, splitStr_append (h p (by simp)),
        ih (by simp) (fun x hx => h x (List.mem_cons_of_mem _ hx))]

theorem pieces_splitStr (s : Str) : Pieces c!"; " s (splitStr c!"; " s) := by
  induction hn : s.length using Nat.strongRecOn generalizing s with
  | _ n ih =>
    cases s with
    | nil =>
      refine ⟨by simp [splitStr, splitStrAux], by simp [splitStr, splitStrAux, List.intercalate], ?_⟩
      intro p hp
      simp only [splitStr, splitStrAux, List.mem_singleton] at hp
      subst hp
      rintro ⟨j, a, b, h1, -⟩
      have := congrArg List.length h1
      simp at this
    | cons d s =>
      cases hs : startsWith (d :: s) c!"; " with
      | true =>
        obtain ⟨t, ht⟩ := (semi_startsWith _).1 hs
        rw [ht] at hn ⊢
        obtain ⟨i1, i2, i3⟩ := ih t.length (by simp at hn; omega) t rfl
        rw [splitStr_semi]
        refine ⟨by simp, ?_, ?_⟩
        · cases hq : splitStr c!"; " t with
          | nil => exact absurd hq i1
          | cons p ps => rw [intercalate_cons_cons, ← hq, ← i2]; rfl
        · intro p hp
          rcases List.mem_cons.1 hp with rfl | hp
          · rintro ⟨j, a, b, h1, -⟩
            have := congrArg List.length h1
            simp at this
          · exact i3 p hp
      | false =>
        obtain ⟨i1, i2, i3⟩ := ih s.length (by simp at hn; omega) s rfl
        rw [splitStr_cons hs]
        cases hq : splitStr c!"; " s with
        | nil => exact absurd hq i1
        | cons p ps =>
          rw [hq] at i2 i3
          refine ⟨by simp, ?_, ?_⟩
          · cases ps with
            | nil => rw [i2]; simp [List.intercalate]
            | cons q ps => rw [i2, intercalate_cons_cons, intercalate_cons_cons]; rfl
          · intro x hx
            simp only at hx
            rcases List.mem_cons.1 hx with rfl | hx
            · rintro ⟨j, hj⟩
              cases j with
              | succ j => exact i3 p (by simp) ⟨j, occursAt_cons_succ.1 hj⟩
              | zero =>
                rw [occursAt_zero] at hj
                obtain ⟨t, ht⟩ := hj
                have : startsWith (d :: s) c!"; " = true := by
                  rw [startsWith_iff, i2]
                  cases ps with
                  | nil =>
                    refine ⟨t, ?_⟩
                    rw [ht]; simp [List.intercalate]
                  | cons q ps =>
                    rw [intercalate_cons_cons]
                    refine ⟨t ++ c!"; " ++ List.intercalate c!"; " (q :: ps), ?_⟩
                    rw [← List.append_assoc, ← List.append_assoc, ht]
                    simp
                rw [this] at hs; exact absurd hs (by simp)
            · exact i3 x (List.mem_cons_of_mem _ hx)

theorem cookieText_iff (v : Str) : CookieText v ↔ ∀ p ∈ splitStr c!"; " v, CookiePiece p := by
  constructor
  · intro h; exact h _ (pieces_splitStr v)
  · intro h ps hps; rw [← splitStr_pieces hps]; exact h

/-! ### one piece -/

theorem dropWhile_nil_iff (p : Char → Bool) (s : Str) : s.dropWhile p = [] ↔ ∀ c ∈ s, p c = true := by
  induction s with
  | nil => simp
  | cons d s ih =>
    rw [List.dropWhile_cons]
    split
    · rename_i h; simp [ih, h]
    · rename_i h; simp [h]

theorem trim_eq_nil (s : Str) : trim s = [] ↔ ∀ c ∈ s, isWhitespace c = true := by
  unfold trim
  rw [List.reverse_eq_nil_iff, dropWhile_nil_iff]
  constructor
  · intro h c hc
    rcases dropWhile_split isWhitespace s with ⟨a, h1, h2, h3⟩
    rw [h1] at hc
    rcases List.mem_append.1 hc with hc | hc
    · exact h2 c hc
    · exact h c (List.mem_reverse.2 hc)
  · intro h c hc
    have := List.mem_reverse.1 hc
    exact h c ((List.dropWhile_sublist _).mem this)

theorem cookieRsParse_none (t : Str) : cookieRsParse t = none ↔ ¬ CookiePiece t := by
  unfold cookieRsParse
  cases hs : splitChar ';' t with
  | nil => exact absurd hs (splitChar_ne_nil _ _)
  | cons kv attrs =>
    have ht : t = kv ++ (attrs.flatMap fun a => ';' :: a) := by
      have h1 := splitChar_intercalate ';' t
      rw [hs] at h1
      rw [← h1]
      clear h1 hs
      induction attrs generalizing kv with
      | nil => simp [List.intercalate]
      | cons a attrs ih => rw [intercalate_cons_cons, ih]; simp
    have hkv : ';' ∉ kv := splitChar_not_mem ';' t kv (by rw [hs]; simp)
    simp only
    by_cases he : '=' ∈ kv
    · obtain ⟨name, value, e1, e2⟩ := split_first_mem he
      have h1 : splitN2 '=' kv = [name, value] := by rw [e1]; exact splitN2_append e2 value
      rw [h1]
      simp only
      have hsemi : ';' ∉ name := fun h => hkv (e1 ▸ List.mem_append_left _ h)
      constructor
      · intro h
        split at h
        · rename_i htrim
          rintro ⟨n, r, f1, f2, f3, c, f4, f5⟩
          have hn : n = name := by
            rw [ht, e1, List.append_assoc, List.cons_append] at f1
            have g1 := splitN2_append f2 r
            have g2 := splitN2_append e2 (value ++ attrs.flatMap fun a => ';' :: a)
            rw [← f1, g2] at g1
            simp at g1; exact g1.1.symm
          rw [trim_eq_nil] at htrim
          subst hn
          exact f5 ((isWhitespace_iff c).1 (htrim c f4))
        · simp at h
      · intro h
        rw [if_pos]
        rw [trim_eq_nil]
        intro c hc
        cases hw : isWhitespace c with
        | true => rfl
        | false =>
          exact absurd ⟨name, value ++ attrs.flatMap fun a => ';' :: a, by rw [ht, e1]; simp, e2, hsemi,
            c, hc, (isWhitespace_false c).1 hw⟩ h
    · rw [splitN2_not_mem he]
      simp only [true_iff]
      rintro ⟨n, r, f1, f2, f3, -⟩
      -- the `=` would have to come after a `;`
      have : ';' ∈ n ∨ '=' ∈ kv := by
        have hlen : n.length < kv.length ∨ kv.length ≤ n.length := by omega
        rcases hlen with hl | hl
        · right
          have h2 := congrArg (fun l => l[n.length]?) (ht.symm.trans f1)
          simp only [List.getElem?_append_left hl, List.getElem?_append_right (Nat.le_refl _)] at h2
          simp at h2
          exact List.mem_of_getElem? (i := n.length) (by simpa [List.getElem?_eq_getElem hl] using h2)
        · left
          cases attrs with
          | nil =>
            simp at ht
            rw [← ht, f1] at he; simp at he
          | cons a attrs =>
            rcases Nat.eq_or_lt_of_le hl with hl | hl
            · rw [ht] at f1
              have := List.append_inj f1 hl
              simp at this
            · have h2 := congrArg (fun l => l[kv.length]?) (ht.symm.trans f1)
              simp only [List.getElem?_append_left hl, List.getElem?_append_right (Nat.le_refl _)] at h2
              simp at h2
              exact List.mem_of_getElem? (i := kv.length) (by simpa [List.getElem?_eq_getElem hl] using h2.symm)
      rcases this with h | h
      · exact f3 h
      · exact he h

theorem Cookie.parseAll_ok (toks : List Str) :
    (∃ cs, Cookie.parseAll toks = .ok cs) ↔ ∀ t ∈ toks, CookiePiece t := by
  induction toks with
  | nil => simp [Cookie.parseAll]
  | cons t toks ih =>
    rw [Cookie.parseAll]
    cases hc : cookieRsParse t with
    | none =>
      have := (cookieRsParse_none t).1 hc
      simp [this]
    | some c =>
      have hp : CookiePiece t := Classical.byContradiction fun h => by
        rw [(cookieRsParse_none t).2 h] at hc; simp at hc
      simp only [Res.unwrap_some, Res.bind_ok', List.forall_mem_cons, hp, true_and]
      rw [← ih]
      cases Cookie.parseAll toks <;> simp

theorem Cookie.parse_ok (v : Str) : (∃ cs, Cookie.parse v = .ok cs) ↔ CookieText v := by
  rw [Cookie.parse, Cookie.parseAll_ok, cookieText_iff]

theorem cookieRsParse_pair {nv : Str × Str} (h : GoodCookie nv) :
    cookieRsParse (cookiePair nv) = some ⟨nv.1, nv.2, []⟩ := by
  obtain ⟨h1, h2, h3, h4, h5, h6⟩ := h
  unfold cookieRsParse cookiePair
  have hn : ';' ∉ nv.1 ++ '=' :: nv.2 := by simp [h3, h4]
  rw [splitChar_of_not_mem hn]
  simp only [splitN2_append h2]
  rw [(trimmed_iff _ _).1 h5, if_neg h1, (trimmed_iff _ _).1 h6]
  rfl

theorem pieces_pairs (cs : List (Str × Str)) (hne : cs ≠ []) (h : ∀ nv ∈ cs, GoodCookie nv) :
    Pieces c!"; " (c!"; ".intercalate (cs.map cookiePair)) (cs.map cookiePair) := by
  refine ⟨by simpa using hne, rfl, ?_⟩
  intro p hp
  obtain ⟨nv, hm, rfl⟩ := List.mem_map.1 hp
  obtain ⟨h1, h2, h3, h4, -⟩ := h nv hm
  rintro ⟨j, a, b, e, -⟩
  have : ';' ∈ cookiePair nv := by rw [e]; simp
  simp [cookiePair, h3, h4] at this

end Octane
