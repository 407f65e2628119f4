import Verif.Model.Query
import Verif.Spec.Query
import Verif.Proof.Basic
namespace Octane
open Spec
namespace Query

theorem fromHex_eq (c : Char) : fromHex c = hexVal c := by
  by_cases h : c.toNat < 128
  · have hc : c = Char.ofNat c.toNat := (Char.ofNat_toNat c).symm
    have all : ∀ n : Fin 128, fromHex (Char.ofNat n.val) = hexVal (Char.ofNat n.val) := by decide
    rw [hc]; exact all ⟨c.toNat, h⟩
  · have h1 : fromHex c = none := by
      unfold fromHex
      rw [if_pos]
      simp only [show 'f'.toNat = 102 from rfl]; omega
    have h2 : ∀ l : Str, (∀ d ∈ l, d.toNat < 128) → l.idxOf? c = none := by
      intro l hl
      rw [List.idxOf?_eq_none_iff]
      intro hm
      exact h (hl c hm)
    rw [h1]
    unfold hexVal
    rw [h2 _ (by decide), h2 _ (by decide)]

theorem hexVal_lt {c : Char} {x : Nat} (h : hexVal c = some x) : x < 16 := by
  rw [← fromHex_eq] at h
  unfold fromHex at h
  simp only at h
  repeat' split at h
  all_goals simp at h
  all_goals omega

def DoublePeek.content (p : DoublePeek) : Str :=
  match p.stored with
  | 0 => p.iter
  | 1 => p.cache0 :: p.iter
  | _ => p.cache0 :: p.cache1 :: p.iter

theorem DoublePeek.next_spec (p : DoublePeek) (h : p.stored ≤ 2) :
    p.next.1 = p.content.head? ∧ p.next.2.content = p.content.tail ∧ p.next.2.stored ≤ 1 := by
  obtain ⟨iter, c0, c1, stored, unpeek⟩ := p
  simp only at h
  match stored, h with
  | 0, _ => cases iter <;> simp [next, content]
  | 1, _ => simp [next, content]
  | 2, _ => simp [next, content]

theorem unescapeLoop_eq (fuel : Nat) (p : DoublePeek) (ret : Str) (hs : p.stored ≤ 2)
    (hf : p.content.length < fuel) : unescapeLoop fuel p ret = .ok (ret ++ decode p.content) := by
  induction fuel generalizing p ret with
  | zero => omega
  | succ fuel ih =>
    obtain ⟨h1, h2, h3⟩ := p.next_spec (by omega)
    unfold unescapeLoop
    rcases hn : p.next with ⟨o, p'⟩
    rw [hn] at h1 h2 h3
    simp only at h1 h2 h3
    cases hc : p.content with
    | nil => rw [hc] at h1; simp [h1, decode]
    | cons val cs =>
      rw [hc] at h1 h2 hf
      simp only [List.head?_cons, List.tail_cons, List.length_cons] at h1 h2 hf
      subst h1
      simp only
      by_cases hv : val = '%'
      · subst hv
        simp only [ne_eq, not_true_eq_false, if_false]
        -- peeking twice does not change the content
        have key : (cs = [] ∧ ∃ q, ({ p' with unpeek := true } : DoublePeek).peek = .ok (none, q) ∧
              q.content = [] ∧ q.stored ≤ 2) ∨
            (∃ a q, cs = [a] ∧ ({ p' with unpeek := true } : DoublePeek).peek = .ok (some a, q) ∧
              ∃ q', q.peek = .ok (none, q') ∧ q'.content = [a] ∧ q'.stored ≤ 2) ∨
            (∃ a b r q, cs = a :: b :: r ∧ ({ p' with unpeek := true } : DoublePeek).peek = .ok (some a, q) ∧
              ∃ q', q.peek = .ok (some b, q') ∧ q'.content = a :: b :: r ∧ q'.stored = 2) := by
          clear hn
          obtain ⟨iter, c0, c1, stored, unpeek⟩ := p'
          simp only at h3
          match stored, h3 with
          | 0, _ =>
            simp only [DoublePeek.content] at h2
            subst h2
            match iter with
            | [] => left; simp [DoublePeek.peek, DoublePeek.content]
            | [a] => right; left; simp [DoublePeek.peek, DoublePeek.content]
            | a :: b :: r =>
              exact .inr (.inr ⟨a, b, r, _, rfl, rfl, _, rfl, rfl, rfl⟩)
          | 1, _ =>
            simp only [DoublePeek.content] at h2
            subst h2
            match iter with
            | [] => right; left; simp [DoublePeek.peek, DoublePeek.content]
            | b :: r =>
              exact .inr (.inr ⟨c0, b, r, _, rfl, rfl, _, rfl, rfl, rfl⟩)
        rcases key with ⟨rfl, q, e1, e2, e3⟩ | ⟨a, q, rfl, e1, q', e2, e3, e4⟩ |
          ⟨a, b, r, q, rfl, e1, q', e2, e3, e4⟩
        · rw [e1, Res.bind_ok']
          simp only
          rw [ih q _ e3 (by rw [e2]; exact Nat.lt_of_succ_lt_succ hf), e2]
          simp [decode]
        · rw [e1, Res.bind_ok']
          simp only [e2, Res.bind_ok']
          rw [ih q' _ e4 (by rw [e3]; exact Nat.lt_of_succ_lt_succ hf), e3]
          simp [decode]
        · rw [e1, Res.bind_ok']
          simp only [e2, Res.bind_ok', fromHex_eq]
          have hrec : unescapeLoop fuel q' (ret ++ ['%']) = .ok (ret ++ ['%'] ++ decode (a :: b :: r)) := by
            rw [ih q' _ (by omega) (by rw [e3]; exact Nat.lt_of_succ_lt_succ hf), e3]
          cases hx : hexVal a with
          | none => simp [hrec, decode, hx]
          | some x =>
            cases hy : hexVal b with
            | none => simp [hrec, decode, hx, hy]
            | some y =>
              have := hexVal_lt hx
              have := hexVal_lt hy
              obtain ⟨-, n2, n3⟩ := q'.next_spec (by omega)
              obtain ⟨-, m2, m3⟩ := q'.next.2.next_spec (by omega)
              simp only
              rw [n2, e3] at m2
              rw [if_pos (by omega), ih _ _ (by omega) (by rw [m2]; simp at hf ⊢; omega), m2]
              simp [decode, hx, hy, Nat.mul_comm]
      · rw [if_pos hv, ih p' _ (by omega) (by rw [h2]; omega), h2]
        have : decode (val :: cs) = val :: decode cs := by
          cases cs with
          | nil => rfl
          | cons a cs =>
            cases cs with
            | nil => rfl
            | cons b cs => simp [decode, hv]
        simp [this]
/-- `unescape_hex` never panics and is `decode`. -/
theorem unescapeHex_eq (s : Str) : unescapeHex s = .ok (decode s) := by
  unfold unescapeHex
  rw [unescapeLoop_eq _ _ _ (by simp [DoublePeek.new]) (by simp [DoublePeek.new, DoublePeek.content])]
  simp [DoublePeek.new, DoublePeek.content]

theorem decode_cons_lit {c : Char} (h : c ≠ '%') (s : Str) : decode (c :: s) = c :: decode s := by
  cases s with
  | nil => rfl
  | cons a s =>
    cases s with
    | nil => rfl
    | cons b s => simp [decode, h]

theorem decode_encodes {s e : Str} (h : Encodes s e) : decode e = s := by
  induction h with
  | nil => rfl
  | lit hc _ ih => rw [decode_cons_lit hc, ih]
  | pct ha hb hc _ ih =>
    simp only [decode, if_true, ha, hb, ih, ← hc, Char.ofNat_toNat]

theorem decode_no_percent {s : Str} (h : '%' ∉ s) : decode s = s := by
  induction s with
  | nil => rfl
  | cons c s ih =>
    simp only [List.mem_cons, not_or] at h
    rw [decode_cons_lit (Ne.symm h.1), ih h.2]

theorem hexVal_hexDigit (n : Nat) (h : n < 16) : hexVal (hexDigit n) = some n := by
  have all : ∀ n : Fin 16, hexVal (hexDigit n.val) = some n.val := by decide
  exact all ⟨n, h⟩

theorem decode_pctBytes (b : Bytes) : decode (pctBytes b) = b.map fun x => Char.ofNat x.toNat := by
  induction b with
  | nil => rfl
  | cons x b ih =>
    have hx : x.toNat < 256 := x.toNat_lt
    simp only [pctBytes, decode, if_true, hexVal_hexDigit _ (show x.toNat / 16 < 16 by omega),
      hexVal_hexDigit _ (show x.toNat % 16 < 16 by omega), ih, List.map_cons]
    congr 2; omega

/-! ### tokens -/

theorem takeWhile_eq_of_not_mem {c : Char} {name rest : Str} (h : c ∉ name) :
    (name ++ c :: rest).takeWhile (· != c) = name ∧ (name ++ c :: rest).dropWhile (· != c) = c :: rest := by
  induction name with
  | nil => simp
  | cons d name ih =>
    simp only [List.mem_cons, not_or] at h
    have : (d != c) = true := by simp; exact fun h' => h.1 h'.symm
    simp [this, ih h.2]

theorem takeWhile_of_not_mem {c : Char} {name : Str} (h : c ∉ name) :
    name.takeWhile (· != c) = name ∧ name.dropWhile (· != c) = [] := by
  induction name with
  | nil => simp
  | cons d name ih =>
    simp only [List.mem_cons, not_or] at h
    have : (d != c) = true := by simp; exact fun h' => h.1 h'.symm
    simp [this, ih h.2]

/-- the map built from a list of pairs -/
def build (m : HMap Str Str) (ps : List (Str × Str)) : HMap Str Str :=
  ps.foldl (fun m p => m.insert p.1 p.2) m

theorem parseQueryLoop_eq (faithful : Bool) (toks : List Str) (m : HMap Str Str) :
    parseQueryLoop faithful toks m = .ok (build m (toks.filterMap (pairOf faithful))) := by
  induction toks generalizing m with
  | nil => rfl
  | cons tok toks ih =>
    unfold parseQueryLoop
    by_cases he : faithful = true ∧ tok = []
    · rw [if_pos he, ih]
      simp [he.1, he.2, pairOf]
    · rw [if_neg he]
      cases hf : findChar '=' tok with
      | none =>
        have hnm := findChar_none.1 hf
        obtain ⟨h1, h2⟩ := takeWhile_of_not_mem hnm
        simp only [unescapeHex_eq, Res.bind_ok', ih]
        have : pairOf faithful tok = some (decode tok, []) := by
          unfold pairOf
          simp only [h1, h2]
          rw [if_neg]
          · rfl
          · intro hc
            simp only [Bool.and_eq_true, List.isEmpty_iff] at hc
            exact he hc
        simp [this, build]
      | some v =>
        obtain ⟨name, rest, hn1, hn2, hsp⟩ := findChar_some hf
        subst hn1
        obtain ⟨h1, h2⟩ := takeWhile_eq_of_not_mem (rest := rest) hn2
        simp only [hsp, Res.bind_ok', unescapeHex_eq,
          sliceFrom_cons_ascii (show '='.toNat < 128 by decide)]
        by_cases hfn : faithful = true ∧ name = []
        · rw [if_pos hfn, ih]
          simp [pairOf, hfn.1, hfn.2]
        · rw [if_neg hfn, ih]
          have : pairOf faithful (name ++ '=' :: rest) = some (decode name, decode rest) := by
            unfold pairOf
            simp only [h1, h2]
            rw [if_neg]
            · rfl
            · intro hc
              simp only [Bool.and_eq_true, List.isEmpty_iff] at hc
              exact hfn hc
          simp [this, build]

theorem get_build (ps : List (Str × Str)) (m : HMap Str Str) (k : Str) :
    (build m ps).get k = match lastValue k ps with
      | some v => some v
      | none => m.get k := by
  induction ps generalizing m with
  | nil => simp [build, lastValue]
  | cons p ps ih =>
    have hb : build m (p :: ps) = build (m.insert p.1 p.2) ps := rfl
    rw [hb, ih]
    unfold lastValue
    by_cases hk : p.1 = k
    · rw [List.filter_cons, if_pos (by simpa using hk), List.getLast?_cons]
      cases hl : (ps.filter fun p => decide (p.1 = k)).getLast? with
      | none => simp [hk]
      | some q => simp
    · rw [List.filter_cons, if_neg (by simpa using hk)]
      cases hl : (ps.filter fun p => decide (p.1 = k)).getLast? with
      | none => simp [HMap.get_insert, hk]
      | some q => simp

theorem uniq_build (ps : List (Str × Str)) (m : HMap Str Str) (h : m.Uniq) : (build m ps).Uniq := by
  induction ps generalizing m with
  | nil => exact h
  | cons p ps ih => exact ih _ (h.insert _ _)

/-! ### extended queries -/

theorem utf8_ascii_singleton {c : Char} (h : c.toNat < 128) : utf8 [c] = [UInt8.ofNat c.toNat] := by
  simp [utf8, utf8EncodeChar_ascii h]

/-- an ASCII byte occurs in the encoding only as the encoding of its character -/
theorem not_mem_utf8 {c : Char} (hc : c.toNat < 128) {s : Str} (h : c ∉ s) :
    UInt8.ofNat c.toNat ∉ utf8 s := by
  intro hm
  obtain ⟨d, hd, hb⟩ := List.mem_flatMap.1 hm
  by_cases hd' : d.toNat < 128
  · rw [utf8EncodeChar_ascii hd', List.mem_singleton] at hb
    have := congrArg UInt8.toNat hb
    rw [UInt8.toNat_ofNat', UInt8.toNat_ofNat', Nat.mod_eq_of_lt (by omega), Nat.mod_eq_of_lt (by omega)] at this
    have hcd : c = d := Char.toNat_inj.1 this
    exact h (hcd ▸ hd)
  · have := utf8EncodeChar_ge (Nat.le_of_not_lt hd') _ hb
    rw [UInt8.toNat_ofNat', Nat.mod_eq_of_lt (by omega)] at this
    omega

theorem utf8_snoc_last (s : Str) (c : Char) :
    ∃ b, (utf8 (s ++ [c]))[(utf8 (s ++ [c])).length - 1]? = some b ∧ (b = 93 ↔ c = ']') := by
  have hne : String.utf8EncodeChar c ≠ [] := utf8EncodeChar_ne_nil c
  have hsplit : utf8 (s ++ [c]) = utf8 s ++ (String.utf8EncodeChar c).dropLast ++
      [(String.utf8EncodeChar c).getLast hne] := by
    rw [utf8_append, List.append_assoc, List.dropLast_concat_getLast]; simp [utf8]
  refine ⟨(String.utf8EncodeChar c).getLast hne, ?_, ?_⟩
  · rw [hsplit]; simp
  · constructor
    · intro h
      by_cases hc : c.toNat < 128
      · simp only [utf8EncodeChar_ascii hc, List.getLast_singleton] at h
        have := congrArg UInt8.toNat h
        rw [UInt8.toNat_ofNat', Nat.mod_eq_of_lt (by omega)] at this
        exact Char.toNat_inj.1 this
      · have := utf8EncodeChar_ge (Nat.le_of_not_lt hc) _ (List.getLast_mem hne)
        rw [h] at this
        simp at this
    · rintro rfl; rfl

theorem revPosition_none {b : Bytes} {x : UInt8} (h : x ∉ b) : revPosition b x = none := by
  unfold revPosition
  rw [List.findIdx?_eq_none_iff]
  intro y hy
  simp only [beq_eq_false_iff_ne, ne_eq]
  rintro rfl
  exact h (List.mem_reverse.1 hy)

theorem revPosition_some {a b : Bytes} {x : UInt8} (h : x ∉ b) :
    revPosition (a ++ x :: b) x = some b.length := by
  unfold revPosition
  rw [List.findIdx?_eq_some_iff_getElem]
  simp only [List.reverse_append, List.reverse_cons, List.append_assoc, List.cons_append,
    List.nil_append]
  refine ⟨by simp, ?_, ?_⟩
  · rw [List.getElem_append_right (by simp)]; simp
  · intro j hj
    rw [List.getElem_append_left (by simpa using hj)]
    simp only [Bool.not_eq_true, beq_eq_false_iff_ne, ne_eq]
    intro he
    apply h
    rw [← he]
    exact List.mem_reverse.1 (List.getElem_mem _)

/-- what one token does to the map, by kind -/
def apply (m : HMap Str QueryValue) : Occ → HMap Str QueryValue
  | .plain k v => m.insert k (.str v)
  | .push k v =>
    match m.get k with
    | none => m.insert k (.arr [v])
    | some (.arr l) => m.insert k (.arr (l ++ [v]))
    | some _ => m
  | .put k i v =>
    match m.get k with
    | none => m.insert k (.obj [(i, v)])
    | some (.obj o) => m.insert k (.obj (o.insert i v))
    | some _ => m

theorem insert_insert (m : HMap Str QueryValue) (k : Str) (a b : QueryValue) :
    (m.insert k a).insert k b = m.insert k b := by
  induction m with
  | nil => simp [HMap.insert]
  | cons e m ih =>
    obtain ⟨k', v'⟩ := e
    by_cases h : k' = k
    · simp [HMap.insert, h]
    · simp [HMap.insert, h, ih]

theorem extStep_eq (faithful : Bool) (tok : Str) (m : HMap Str QueryValue) :
    extStep faithful tok m = .ok (match occOf faithful tok with
      | none => m
      | some o => apply m o) := by
  unfold extStep occOf
  by_cases he : faithful = true ∧ tok = []
  · rw [if_pos he]; simp [he.1, he.2]
  · rw [if_neg he]
    cases hf : findChar '=' tok with
    | none =>
      have hnm := findChar_none.1 hf
      have hc : (faithful && tok.isEmpty) = false := by
        cases hb : faithful && tok.isEmpty with
        | false => rfl
        | true =>
          simp only [Bool.and_eq_true, List.isEmpty_iff] at hb
          exact absurd hb he
      simp [hnm, unescapeHex_eq, hc, apply]
    | some v =>
      obtain ⟨name, rest, hn1, hn2, hsp⟩ := findChar_some hf
      subst hn1
      obtain ⟨h1, h2⟩ := takeWhile_eq_of_not_mem (rest := rest) hn2
      simp only [hsp, Res.bind_ok', unescapeHex_eq, h1, h2,
        sliceFrom_cons_ascii (show '='.toNat < 128 by decide)]
      have hmem : '=' ∈ name ++ '=' :: rest := by simp
      simp only [hmem, not_true_eq_false, if_false, List.drop_one, List.tail_cons]
      rcases List.eq_nil_or_concat name with rfl | ⟨pre, c, rfl⟩
      · simp
      · rw [List.concat_eq_append] at *
        have hne : pre ++ [c] ≠ [] := by simp
        rw [if_neg hne, if_neg hne]
        obtain ⟨lb, hlb, hlb93⟩ := utf8_snoc_last pre c
        simp only [hlb]
        by_cases hc : c = ']'
        · subst hc
          rw [if_pos (hlb93.2 rfl)]
          have hu : utf8 (pre ++ [']']) = utf8 pre ++ [93] := by
            rw [utf8_append, utf8_ascii_singleton (by decide)]; rfl
          by_cases hb : '[' ∈ pre
          · -- split at the last '['
            obtain ⟨outer, inner, hpre, hin⟩ : ∃ o i, pre = o ++ '[' :: i ∧ '[' ∉ i := by
              have hbr : '[' ∈ pre.reverse := List.mem_reverse.2 hb
              have : ∃ n, findChar '[' pre.reverse = some n := by
                cases h : findChar '[' pre.reverse with
                | none => exact absurd hbr (findChar_none.1 h)
                | some n => exact ⟨n, rfl⟩
              obtain ⟨n, hn⟩ := this
              obtain ⟨a, b, e1, e2, -⟩ := findChar_some hn
              refine ⟨b.reverse, a.reverse, ?_, fun h => e2 (List.mem_reverse.1 h)⟩
              have := congrArg List.reverse e1
              simpa using this
            subst hpre
            have hrev := takeWhile_eq_of_not_mem (c := '[') (name := inner.reverse)
              (rest := outer.reverse) (fun h => hin (List.mem_reverse.1 h))
            have hub : utf8 (outer ++ '[' :: inner ++ [']']) =
                utf8 outer ++ 91 :: (utf8 inner ++ [93]) := by
              rw [hu, utf8_append]
              have : utf8 ('[' :: inner) = 91 :: utf8 inner := rfl
              rw [this]; simp
            have hnot : (91 : UInt8) ∉ utf8 inner ++ [93] := by
              rw [List.mem_append]
              rintro (h | h)
              · exact not_mem_utf8 (c := '[') (by decide) hin h
              · exact absurd (List.mem_singleton.1 h) (by decide)
            have hspec : (outer ++ '[' :: inner ++ [']']).getLast? = some ']' ∧
                '[' ∈ outer ++ '[' :: inner ++ [']'] := ⟨List.getLast?_concat, by simp⟩
            have hrp : revPosition (utf8 (outer ++ '[' :: inner ++ [']'])) 91 =
                some ((utf8 inner).length + 1) := by
              rw [hub, revPosition_some hnot]; simp
            simp only [hrp]
            have hlen : (utf8 (outer ++ '[' :: inner ++ [']'])).length =
                (utf8 outer).length + (utf8 inner).length + 2 := by rw [hub]; simp; omega
            have hind : (utf8 (outer ++ '[' :: inner ++ [']'])).length - ((utf8 inner).length + 1) - 1 =
                (utf8 outer).length := by omega
            have htake : (utf8 (outer ++ '[' :: inner ++ [']'])).take (utf8 outer).length = utf8 outer := by
              rw [hub]; simp
            have hmid : ((utf8 (outer ++ '[' :: inner ++ [']'])).take
                ((utf8 (outer ++ '[' :: inner ++ [']'])).length - 1)).drop ((utf8 outer).length + 1) =
                utf8 inner := by
              rw [hlen, hub]
              have : utf8 outer ++ 91 :: (utf8 inner ++ [93]) =
                  (utf8 outer ++ 91 :: utf8 inner) ++ [93] := by simp
              rw [this, List.take_append_of_le_length (by simp; omega), List.take_of_length_le (by simp; omega)]
              rw [List.drop_append]
              simp
            have hd1 : fromUtf8 (utf8 outer) = some outer := fromUtf8_utf8 _
            have hd2 : fromUtf8 (utf8 inner) = some inner := fromUtf8_utf8 _
            rw [if_pos hspec]
            have hdl : (outer ++ '[' :: inner ++ [']']).dropLast.reverse =
                inner.reverse ++ '[' :: outer.reverse := by
              rw [List.dropLast_concat]; simp
            simp only [hind, htake, hmid, hd1, hd2, hdl, hrev, List.reverse_reverse, List.tail_cons]
            by_cases hi : inner = []
            · simp only [hi, if_true, apply]
              cases hg : HMap.get m outer with
              | none => simp [insert_insert]
              | some q => cases q <;> simp [hg]
            · simp only [hi, if_false, apply]
              cases hg : HMap.get m outer with
              | none => simp [insert_insert, HMap.insert]
              | some q => cases q <;> simp [hg]
          · have hnot : (91 : UInt8) ∉ utf8 (pre ++ [']']) :=
              not_mem_utf8 (c := '[') (by decide) (by simp [hb])
            simp [revPosition_none hnot, hb, apply]
        · rw [if_neg (fun h => hc (hlb93.1 h))]
          simp [hc, apply]

theorem extLoop_eq (faithful : Bool) (toks : List Str) (m : HMap Str QueryValue) :
    extLoop faithful toks m = .ok ((toks.filterMap (occOf faithful)).foldl apply m) := by
  induction toks generalizing m with
  | nil => rfl
  | cons tok toks ih =>
    unfold extLoop
    rw [extStep_eq, Res.bind_ok', ih]
    cases h : occOf faithful tok <;> simp [h]

/-- the effect of one occurrence on the value of its own key -/
def stepVal (x : Option QueryValue) : Occ → Option QueryValue
  | .plain _ v => some (.str v)
  | .push _ v =>
    match x with
    | none => some (.arr [v])
    | some (.arr l) => some (.arr (l ++ [v]))
    | x => x
  | .put _ i v =>
    match x with
    | none => some (.obj [(i, v)])
    | some (.obj o) => some (.obj (o.insert i v))
    | x => x

theorem get_apply (m : HMap Str QueryValue) (o : Occ) (k : Str) :
    (apply m o).get k = if o.key = k then stepVal (m.get k) o else m.get k := by
  cases o with
  | plain k' v => by_cases hk : k' = k <;> simp [apply, Occ.key, HMap.get_insert, stepVal, hk]
  | push k' v =>
    simp only [apply, Occ.key]
    by_cases hk : k' = k
    · subst hk
      cases hg : m.get k' with
      | none => simp [stepVal]
      | some q => cases q <;> simp [stepVal, hg]
    · cases hg : m.get k' with
      | none => simp [HMap.get_insert, hk]
      | some q => cases q <;> simp [HMap.get_insert, hk]
  | put k' i v =>
    simp only [apply, Occ.key]
    by_cases hk : k' = k
    · subst hk
      cases hg : m.get k' with
      | none => simp [stepVal]
      | some q => cases q <;> simp [stepVal, hg]
    · cases hg : m.get k' with
      | none => simp [HMap.get_insert, hk]
      | some q => cases q <;> simp [HMap.get_insert, hk]

theorem get_foldl_apply (os : List Occ) (m : HMap Str QueryValue) (k : Str) :
    (os.foldl apply m).get k = (os.filter fun o => o.key = k).foldl stepVal (m.get k) := by
  induction os generalizing m with
  | nil => rfl
  | cons o os ih =>
    rw [List.foldl_cons, ih, get_apply, List.filter_cons]
    by_cases h : o.key = k <;> simp [h]

theorem foldl_str (os : List Occ) (v : Str) (h : ∀ o ∈ os, o.plainValue? = none) :
    os.foldl stepVal (some (.str v)) = some (.str v) := by
  induction os with
  | nil => rfl
  | cons o os ih =>
    have ho := h o (by simp)
    have ih' := ih (fun o ho => h o (List.mem_cons_of_mem _ ho))
    cases o <;> simp_all [stepVal, Occ.plainValue?]

theorem foldl_arr (os : List Occ) (l : List Str) (h : ∀ o ∈ os, o.plainValue? = none) :
    os.foldl stepVal (some (.arr l)) = some (.arr (l ++ os.filterMap Occ.pushValue?)) := by
  induction os generalizing l with
  | nil => simp
  | cons o os ih =>
    have ho := h o (by simp)
    have ih' := fun l => ih l (fun o ho => h o (List.mem_cons_of_mem _ ho))
    rw [List.foldl_cons]
    cases o with
    | plain k v => simp [Occ.plainValue?] at ho
    | push k v => simp [stepVal, ih', Occ.pushValue?]
    | put k i v => rw [List.filterMap_cons]; simp [stepVal, ih', Occ.pushValue?]

theorem foldl_obj (os : List Occ) (m : HMap Str Str) (h : ∀ o ∈ os, o.plainValue? = none) :
    os.foldl stepVal (some (.obj m)) = some (.obj (build m (os.filterMap Occ.putEntry?))) := by
  induction os generalizing m with
  | nil => simp [build]
  | cons o os ih =>
    have ho := h o (by simp)
    have ih' := fun m => ih m (fun o ho => h o (List.mem_cons_of_mem _ ho))
    rw [List.foldl_cons]
    cases o with
    | plain k v => simp [Occ.plainValue?] at ho
    | push k v => rw [List.filterMap_cons]; simp [stepVal, ih', Occ.putEntry?]
    | put k i v => simp [stepVal, ih', Occ.putEntry?, build]

theorem foldl_plain (os : List Occ) (x : Option QueryValue) (v : Str)
    (h : (os.filterMap Occ.plainValue?).getLast? = some v) :
    os.foldl stepVal x = some (.str v) := by
  induction os generalizing x with
  | nil => simp at h
  | cons o os ih =>
    rw [List.foldl_cons]
    by_cases hnone : os.filterMap Occ.plainValue? = []
    · have hall : ∀ o ∈ os, o.plainValue? = none := by
        simpa [List.filterMap_eq_nil_iff] using hnone
      cases o with
      | plain k w =>
        simp only [List.filterMap_cons, Occ.plainValue?, hnone, List.getLast?_singleton,
          Option.some.injEq] at h
        subst h
        exact foldl_str os w hall
      | push k w => rw [List.filterMap_cons] at h; simp only [Occ.plainValue?, hnone] at h; simp at h
      | put k i w => rw [List.filterMap_cons] at h; simp only [Occ.plainValue?, hnone] at h; simp at h
    · apply ih
      rw [← h]
      cases hv : o.plainValue? with
      | none => rw [List.filterMap_cons]; simp only [hv]
      | some w =>
        simp only [List.filterMap_cons, hv]
        rw [List.getLast?_cons]
        cases hg : (os.filterMap Occ.plainValue?).getLast? with
        | none => exact absurd (List.getLast?_eq_none_iff.1 hg) hnone
        | some u => simp

end Query
end Octane
