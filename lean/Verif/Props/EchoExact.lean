import Verif.Props.Echo
/-
C75: exactly which query parameters can split an answer.
-/
namespace Octane
open Spec

theorem decode_plain {d : Char} (hd : d ≠ '%') (s : Str) : decode (d :: s) = d :: decode s := by
  match s with
  | [] => simp [decode]
  | [e] => simp [decode]
  | a :: b :: r => rw [decode, if_neg hd]

/-- decoding does not reach across a character that is no hexadecimal digit -/
theorem decode_across {c : Char} (hc : hexVal c = none) (v : Str) (u : Str) :
    decode (u ++ c :: v) = decode u ++ decode (c :: v) := by
  induction u using decode.induct with
  | case1 => simp [decode]
  | case2 d =>
    by_cases hd : d = '%'
    · subst hd
      match v with
      | [] => simp [decode]
      | b :: r => simp [decode, hc]
    · rw [List.cons_append, decode_plain hd]; simp [decode]
  | case3 d e =>
    have he : decode (e :: c :: v) = e :: decode (c :: v) := by
      by_cases he : e = '%'
      · subst he
        match v with
        | [] => simp [decode]
        | b :: r => simp [decode, hc]
      · exact decode_plain he _
    by_cases hd : d = '%'
    · subst hd
      have h2 : decode ('%' :: e :: c :: v) = '%' :: decode (e :: c :: v) := by
        rw [decode, if_pos rfl]
        simp only [hc]
        cases hexVal e <;> rfl
      simp only [List.cons_append, List.nil_append]
      rw [h2, he]; simp [decode]
    · rw [List.cons_append, decode_plain hd]
      simp only [List.cons_append, List.nil_append]
      rw [he]; simp [decode]
  | case4 a b r x y hb ha ih =>
    simp only [List.cons_append]
    rw [decode, if_pos rfl, decode, if_pos rfl]
    simp only [ha, hb, ih, List.cons_append]
  | case5 a b r hno ih =>
    simp only [List.cons_append] at ih ⊢
    rw [decode, if_pos rfl, decode, if_pos rfl]
    split
    · rename_i x y ha hb; exact absurd hb (hno x y ha)
    · rw [ih]; simp
  | case6 d a b r hd ih =>
    simp only [List.cons_append] at ih ⊢
    rw [decode, if_neg hd, decode, if_neg hd, ih]; simp

theorem oneLine_of_decode {s : Str} (h : OneLine (decode s)) : OneLine s ∧ ∀ e ∈ lineEscapes, ¬ e <:+: s := by
  refine ⟨⟨fun hc => ?_, fun hc => ?_⟩, fun e he hi => ?_⟩
  · obtain ⟨u, v, rfl⟩ := List.append_of_mem hc
    apply h.1
    rw [decode_across (by decide), decode_plain (by decide)]; simp
  · obtain ⟨u, v, rfl⟩ := List.append_of_mem hc
    apply h.2
    rw [decode_across (by decide), decode_plain (by decide)]; simp
  · obtain ⟨u, v, rfl⟩ := hi
    rw [List.append_assoc] at h
    have hz : hexVal '%' = none := by decide
    have h0 : hexVal '0' = some 0 := by decide
    have h1 : hexVal 'A' = some 10 := by decide
    have h2 : hexVal 'a' = some 10 := by decide
    have h3 : hexVal 'D' = some 13 := by decide
    have h4 : hexVal 'd' = some 13 := by decide
    simp only [lineEscapes, List.mem_cons, List.not_mem_nil, or_false] at he
    rcases he with rfl | rfl | rfl | rfl
    · apply h.2
      simp only [List.cons_append, List.nil_append]
      rw [decode_across hz]
      simp [decode, h0, h1]
    · apply h.2
      simp only [List.cons_append, List.nil_append]
      rw [decode_across hz]
      simp [decode, h0, h2]
    · apply h.1
      simp only [List.cons_append, List.nil_append]
      rw [decode_across hz]
      simp [decode, h0, h3]
    · apply h.1
      simp only [List.cons_append, List.nil_append]
      rw [decode_across hz]
      simp [decode, h0, h4]

/-- a text that stays on one line when it is decoded: neither CR nor LF, nor an escape for one of them -/
def Spec.StaysOneLine (s : Str) : Prop := OneLine s ∧ ∀ e ∈ lineEscapes, ¬ Occurs s e

/-- Exactly which parameters can split an answer: a parameter is on one line if and only if what stood for it in the
path as it was sent has neither CR nor LF nor one of the four escapes for them. -/
theorem C75_iff (feat : Features) (req : Request) (m : HMap Str Str) (hm : req.getQuery feat = .ok m) (k v : Str)
    (hv : m.get k = some v) :
    ∃ raw, (∃ name, decode name = k ∧
        (name ++ '=' :: raw ∈ splitChar '&' (Path.display req.requestLine.path) ∨
          name ∈ splitChar '&' (Path.display req.requestLine.path) ∧ raw = [])) ∧
      v = decode raw ∧ (OneLine v ↔ StaysOneLine raw) := by
  obtain ⟨m', h1, -, h3⟩ := C20_last_value feat.faithful (splitChar '&' (Path.display req.requestLine.path))
    (splitChar_ne_nil _ _) (splitChar_not_mem _ _)
  rw [splitChar_intercalate] at h1
  obtain rfl : m = m' := by
    unfold Request.getQuery at hm
    rw [hm] at h1
    injection h1
  rw [h3] at hv
  unfold lastValue at hv
  obtain ⟨p, hp, rfl⟩ := Option.map_eq_some_iff.1 hv
  obtain ⟨hp, hk⟩ := List.mem_filter.1 (List.mem_of_getLast? hp)
  simp only [decide_eq_true_eq] at hk
  obtain ⟨t, ht, htp⟩ := List.mem_filterMap.1 hp
  unfold pairOf at htp
  simp only at htp
  split at htp
  · cases htp
  · obtain rfl := Option.some.inj htp
    refine ⟨_, ⟨_, hk, ?_⟩, rfl, ?_⟩
    · have e : t.takeWhile (· != '=') ++ t.dropWhile (· != '=') = t := List.takeWhile_append_dropWhile
      cases hd : t.dropWhile (· != '=') with
      | nil =>
        right
        rw [hd, List.append_nil] at e
        rw [e]
        exact ⟨ht, rfl⟩
      | cons c r =>
        left
        have hc : c = '=' := by
          have := List.head?_dropWhile_not (· != '=') t
          rw [hd] at this
          simpa using this
        subst hc
        rw [hd] at e
        simp only [List.drop_succ_cons, List.drop_zero]
        rw [e]; exact ht
    · constructor
      · intro h
        obtain ⟨a, b⟩ := oneLine_of_decode h
        exact ⟨a, fun e he ho => b e he ((occurs_iff_infix _ _).1 ho)⟩
      · rintro ⟨a, b⟩
        exact oneLine_decode a fun e he hi => b e he ((occurs_iff_infix _ _).2 hi)

/-- `GET /a?x=1&y=1%0D%0AB:c&x=2%0`: the parameter `y` has two lines (`C75_splits` shows what comes of such a one) and
stood in the path as a text that does not stay on one line; `x` is on one line and did. -/
example : ∃ raw raw', c!"1\r\nB:c" = decode raw ∧ ¬ StaysOneLine raw ∧ c!"2%0/" = decode raw' ∧ StaysOneLine raw' := by
  have h : (⟨⟨.get, [c!"a?x=1&y=1%0D%0AB:c&x=2%0"], .http10⟩, ⟨[], []⟩, [], []⟩ : Request).getQuery .default =
      .ok [(c!"a?x", c!"1"), (c!"y", c!"1\r\nB:c"), (c!"x", c!"2%0/")] := by decide +kernel
  obtain ⟨raw, -, h2, h3⟩ := C75_iff _ _ _ h c!"y" c!"1\r\nB:c" (by decide +kernel)
  obtain ⟨raw', -, h2', h3'⟩ := C75_iff _ _ _ h c!"x" c!"2%0/" (by decide +kernel)
  exact ⟨raw, raw', h2, fun h => absurd (h3.2 h) (by decide), h2', h3'.1 (by decide)⟩

end Octane
