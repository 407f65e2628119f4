import Verif.Proof.Query
import Verif.Proof.Path
import Verif.Proof.Trie
import Verif.Model.Request
/-
Properties C18 – C22: query strings.
-/
namespace Octane
open Spec Query

/-! ## C18 -/

/-- C18: decoding never panics and is exactly the left-to-right replacement of `%XY`. -/
theorem C18_decode_exact (s : Str) : unescapeHex s = .ok (decode s) := unescapeHex_eq s

/-- C18: strings without `%` are unchanged. -/
theorem C18_no_percent (s : Str) (h : '%' ∉ s) : unescapeHex s = .ok s := by
  rw [unescapeHex_eq, decode_no_percent h]

/-- C18: decoding undoes every percent-encoding (any choice of which characters to escape, either
case of the digits). -/
theorem C18_decode_encode (s e : Str) (h : Encodes s e) : unescapeHex e = .ok s := by
  rw [unescapeHex_eq, decode_encodes h]

/-- every string of code points below 256 has an encoding in which every character is escaped -/
theorem C18_encoding_exists (s : Str) (h : ∀ c ∈ s, c.toNat < 256) :
    Encodes s (s.flatMap fun c => ['%', hexDigit (c.toNat / 16), hexDigit (c.toNat % 16)]) := by
  induction s with
  | nil => exact .nil
  | cons c s ih =>
    have hc := h c (by simp)
    exact .pct (hexVal_hexDigit _ (by omega)) (hexVal_hexDigit _ (by omega)) (by omega)
      (ih fun d hd => h d (List.mem_cons_of_mem _ hd))

example : decode c!"a%20b%%41%4" = c!"a b%A%4" := by decide
example : unescapeHex c!"%2f%2F%zz%" = .ok c!"//%zz%" := by decide
example : Encodes c!"a&b" c!"a%26b" :=
  .lit (by decide) (.pct (x := 2) (y := 6) (by decide) (by decide) (by decide) (.lit (by decide) .nil))

/-! ## C19 -/

/-- The full claim of C19. -/
def C19_statement : Prop := ∀ s : Str, unescapeHex (pctBytes (utf8 s)) = .ok s

/-- C19 is false of the code: `é` is sent as `%C3%A9` and decoded to two characters. -/
theorem C19_counterexample : ¬ C19_statement ∧
    unescapeHex (pctBytes (utf8 c!"é")) = .ok [Char.ofNat 0xC3, Char.ofNat 0xA9] :=
  ⟨fun h => absurd (h c!"é") (by decide), by decide⟩

/-- C19, exact extent of the failure: each percent-encoded byte becomes the character with that code
(Latin-1), whatever the bytes are. -/
theorem C19_latin1 (b : Bytes) : unescapeHex (pctBytes b) = .ok (b.map fun x => Char.ofNat x.toNat) := by
  rw [unescapeHex_eq, decode_pctBytes]

/-- C19, partial: the percent-encoded UTF-8 form of a string decodes to the string exactly when the
string is ASCII. The full claim (every string) is false, see `C19_counterexample`. -/
theorem C19_utf8_partial (s : Str) :
    unescapeHex (pctBytes (utf8 s)) = .ok s ↔ ∀ c ∈ s, c.toNat < 128 := by
  rw [C19_latin1, Res.ok.injEq]
  constructor
  · intro h
    induction s with
    | nil => simp
    | cons c s ih =>
      have hu : utf8 (c :: s) = String.utf8EncodeChar c ++ utf8 s := rfl
      rw [hu, List.map_append] at h
      by_cases hc : c.toNat < 128
      · rw [utf8EncodeChar_ascii hc] at h
        simp only [List.map_cons, List.map_nil, List.cons_append, List.nil_append, List.cons.injEq] at h
        intro d hd
        rcases List.mem_cons.1 hd with rfl | hd
        · exact hc
        · exact ih h.2 d hd
      · exfalso
        have hlen := congrArg List.length h
        simp only [List.length_append, List.length_map, List.length_cons,
          String.length_utf8EncodeChar] at hlen
        have h1 := utf8EncodeChar_length_ge (Nat.le_of_not_lt hc)
        have h2 := length_le_utf8 s
        rw [String.length_utf8EncodeChar] at h1
        omega
  · intro h
    induction s with
    | nil => rfl
    | cons c s ih =>
      have hc := h c (by simp)
      have hu : utf8 (c :: s) = String.utf8EncodeChar c ++ utf8 s := rfl
      rw [hu, List.map_append, utf8EncodeChar_ascii hc, ih fun d hd => h d (List.mem_cons_of_mem _ hd)]
      simp only [List.map_cons, List.map_nil, List.cons_append, List.nil_append, List.cons.injEq,
        and_true]
      rw [UInt8.toNat_ofNat', Nat.mod_eq_of_lt (by omega), Char.ofNat_toNat]

example : unescapeHex (pctBytes (utf8 c!"a&b=%")) = .ok c!"a&b=%" := by decide

/-! ## C20 -/

/-- every query string is a list of tokens joined by `&` -/
theorem C20_every_query_has_tokens (q : Str) :
    ∃ toks : List Str, toks ≠ [] ∧ (∀ t ∈ toks, '&' ∉ t) ∧ q = ['&'].intercalate toks :=
  ⟨splitChar '&' q, splitChar_ne_nil _ _, splitChar_not_mem _ _, (splitChar_intercalate _ _).symm⟩

/-- C20: the parsed map has one entry per key, bound to the value of the key's last occurrence, and
no other keys. -/
theorem C20_last_value (faithful : Bool) (toks : List Str) (hne : toks ≠ [])
    (ht : ∀ t ∈ toks, '&' ∉ t) :
    ∃ m, parseQuery faithful (['&'].intercalate toks) = .ok m ∧ m.Uniq ∧
      ∀ k, m.get k = lastValue k (toks.filterMap (pairOf faithful)) := by
  refine ⟨_, by unfold parseQuery; rw [splitChar_join hne ht, parseQueryLoop_eq],
    uniq_build _ _ HMap.Uniq.nil, fun k => ?_⟩
  rw [get_build]
  cases lastValue k (toks.filterMap (pairOf faithful)) <;> rfl

/-- the text of a list of pairs, given an encoding of each key and value -/
def queryText (l : List (Str × Str)) : Str := ['&'].intercalate (l.map fun p => p.1 ++ '=' :: p.2)

/-- C20 (round trip): if each key and value is written in any encoding that leaves no `&` (and, for
keys, no `=`), parsing gives the pairs back (the last one for each key). With `faithful` keys must
be non-empty. -/
theorem C20_round_trip (faithful : Bool) (l : List ((Str × Str) × (Str × Str))) (hne : l ≠ [])
    (hl : ∀ x ∈ l, Encodes x.1.1 x.2.1 ∧ Encodes x.1.2 x.2.2 ∧ '&' ∉ x.2.1 ∧ '=' ∉ x.2.1 ∧
      '&' ∉ x.2.2 ∧ (faithful = true → x.1.1 ≠ [])) :
    ∃ m, parseQuery faithful (queryText (l.map (·.2))) = .ok m ∧ m.Uniq ∧
      ∀ k, m.get k = lastValue k (l.map (·.1)) := by
  have hmap : ((l.map (·.2)).map fun p => p.1 ++ '=' :: p.2).filterMap (pairOf faithful) = l.map (·.1) := by
    clear hne
    induction l with
    | nil => rfl
    | cons x l ih =>
      obtain ⟨p, e⟩ := x
      obtain ⟨h1, h2, h3, h4, h5, h6⟩ := hl (p, e) (by simp)
      obtain ⟨t1, t2⟩ := takeWhile_eq_of_not_mem (rest := e.2) h4
      have : pairOf faithful (e.1 ++ '=' :: e.2) = some p := by
        unfold pairOf
        simp only [t1, t2]
        rw [if_neg]
        · simp [decode_encodes h1, decode_encodes h2]
        · intro hc
          simp only [Bool.and_eq_true, List.isEmpty_iff] at hc
          apply h6 hc.1
          have := decode_encodes h1
          rw [hc.2] at this
          exact this.symm
      rw [List.map_cons, List.map_cons, List.filterMap_cons, this,
        ih fun x hx => hl x (List.mem_cons_of_mem _ hx)]
      rfl
  have hno : ∀ t ∈ (l.map (·.2)).map (fun p => p.1 ++ '=' :: p.2), '&' ∉ t := by
    intro t ht
    obtain ⟨e, he, rfl⟩ := List.mem_map.1 ht
    obtain ⟨x, hx, rfl⟩ := List.mem_map.1 he
    have := hl x hx
    simp [this.2.2.1, this.2.2.2.2.1]
  obtain ⟨m, h1, h2, h3⟩ := C20_last_value faithful _ (by simpa using hne) hno
  exact ⟨m, h1, h2, by rw [hmap] at h3; exact h3⟩

example : parseQuery true c!"a=1&b&&=x&a=%32" = .ok [(c!"a", c!"2"), (c!"b", c!"")] := by decide
example : parseQuery false c!"a=1&&=x" = .ok [(c!"a", c!"1"), (c!"", c!"x")] := by decide
example : ∃ m, parseQuery true (queryText [(c!"a", c!"%26")]) = .ok m ∧ m.Uniq ∧
    ∀ k, m.get k = lastValue k [(c!"a", c!"&")] :=
  C20_round_trip true [((c!"a", c!"&"), (c!"a", c!"%26"))] (by decide) (by
    intro x hx
    rw [List.mem_singleton.1 hx]
    exact ⟨.lit (by decide) .nil, .pct (x := 2) (y := 6) (by decide) (by decide) (by decide) .nil,
      by decide, by decide, by decide, by decide⟩)

/-! ## C21 -/

/-- a GET request with this URI path -/
def requestFor (path : PathBuf) : Request :=
  { requestLine := { method := .get, path, version := .http11 },
    headers := ⟨[], []⟩, body := [], cookies := [] }

/-- The full claim of C21: for a target of a segment and a query the accessor returns the pairs of the query, and
the route for the segment matches. -/
def C21_statement : Prop :=
  ∀ (f : Features) (p : Str) (toks : List Str), p ≠ [] → '/' ∉ p → '?' ∉ p → p ≠ ['.'] → p ≠ ['.', '.'] →
    p.head? ≠ some ':' → toks ≠ [] → (∀ t ∈ toks, '&' ∉ t ∧ '/' ∉ t) →
    ∃ path m, Path.parse ('/' :: (p ++ '?' :: ['&'].intercalate toks)) = some path ∧
      (requestFor path).getQuery f = .ok m ∧ (∀ k, m.get k = lastValue k (toks.filterMap (pairOf f.faithful))) ∧
      PatMatch f.urlVariables [p] path

/-- C21 is false of the code: for `/p?a=1&b=2` the accessor returns `p?a` ↦ `1` and `b` ↦ `2/`, and
the route `/p` does not match. -/
theorem C21_counterexample : ¬ C21_statement ∧
    ∃ path, Path.parse c!"/p?a=1&b=2" = some path ∧
      (∀ f, (requestFor path).getQuery f = .ok [(c!"p?a", c!"1"), (c!"b", c!"2/")]) ∧
      ¬ PatMatch true [c!"p"] path ∧ ¬ PatMatch false [c!"p"] path := by
  constructor
  · intro h
    obtain ⟨path, m, h1, -, -, h4⟩ := h .default c!"p" [c!"a=1", c!"b=2"] (by decide) (by decide) (by decide) (by decide)
      (by decide) (by decide) (by decide) (by decide)
    rw [show Path.parse ('/' :: (c!"p" ++ '?' :: ['&'].intercalate [c!"a=1", c!"b=2"])) = some [c!"p?a=1&b=2"] by decide] at h1
    cases h1
    exact absurd h4 (by decide)
  refine ⟨[c!"p?a=1&b=2"], by decide, ?_, by decide, by decide⟩
  intro f
  have : ∀ b, Query.parseQuery b c!"p?a=1&b=2/" = .ok [(c!"p?a", c!"1"), (c!"b", c!"2/")] := by decide
  exact this f.faithful

/-- C21, how far the failure goes: for every path segment `p` and query `q` without slashes, the
route `/p` does not match `/p?q`, and the accessor parses `p?q/`. -/
theorem C21_query_kept_in_path (f : Features) (p q : Str) (hp : '/' ∉ p) (hq : '/' ∉ q) (uv : Bool)
    (hv : p.head? ≠ some ':') :
    ∃ path, Path.parse ('/' :: (p ++ '?' :: q)) = some path ∧
      (requestFor path).getQuery f = parseQuery f.faithful (p ++ '?' :: q ++ ['/']) ∧
      ¬ PatMatch uv [p] path := by
  have hs : '/' ∉ p ++ '?' :: q := by simp [hp, hq]
  have hn : NormalSegment (p ++ '?' :: q) := by
    refine ⟨by simp, ?_, ?_, hs⟩
    · intro h; have : '?' ∈ ['.'] := by rw [← h]; simp
      simp at this
    · intro h; have : '?' ∈ ['.', '.'] := by rw [← h]; simp
      simp at this
  refine ⟨[p ++ '?' :: q], ?_, ?_, ?_⟩
  · exact Path.parse_single hn
  · simp [Request.getQuery, requestFor, Path.display]
  · unfold PatMatch
    have hne : p ≠ p ++ '?' :: q := by simp
    cases uv with
    | true =>
      simp only [if_true]
      rintro ⟨-, h⟩
      rcases h 0 p (p ++ '?' :: q) rfl rfl with h | h
      · exact hv h
      · exact hne h
    | false =>
      simp

/-- C21, partial: of a query with at least two tokens, the tokens strictly between the first and
the last are parsed correctly: a key that is neither the (wrong) first nor the (wrong) last one has
the value it should have. The first and last pairs are wrong, see `C21_counterexample`. -/
theorem C21_inner_pairs_partial (f : Features) (p first last : Str) (mid : List Str)
    (hp : '/' ∉ p) (hpa : '&' ∉ p)
    (ht : ∀ t ∈ first :: mid ++ [last], '&' ∉ t ∧ '/' ∉ t) :
    ∃ path m, Path.parse ('/' :: (p ++ '?' :: ['&'].intercalate (first :: mid ++ [last]))) = some path ∧
      (requestFor path).getQuery f = .ok m ∧
      ∀ k, (∀ v, pairOf f.faithful (p ++ '?' :: first) ≠ some (k, v)) →
        (∀ v, pairOf f.faithful (last ++ ['/']) ≠ some (k, v)) →
        m.get k = lastValue k (mid.filterMap (pairOf f.faithful)) := by
  have hq : '/' ∉ ['&'].intercalate (first :: mid ++ [last]) := by
    have : ∀ l : List Str, (∀ t ∈ l, '/' ∉ t) → '/' ∉ ['&'].intercalate l := by
      intro l
      induction l with
      | nil => simp [List.intercalate]
      | cons a l ih =>
        intro h
        cases l with
        | nil => simpa [List.intercalate] using h
        | cons b l =>
          have := ih fun t ht => h t (List.mem_cons_of_mem _ ht)
          simp only [List.intercalate, List.intersperse_cons_cons, List.flatten_cons,
            List.mem_append, not_or] at this ⊢
          exact ⟨h a (by simp), by simp, this⟩
    exact this _ fun t h => (ht t h).2
  have hs : '/' ∉ p ++ '?' :: ['&'].intercalate (first :: mid ++ [last]) := by
    simp only [List.mem_append, List.mem_cons, not_or] at hq ⊢
    exact ⟨hp, by decide, hq⟩
  have hn : NormalSegment (p ++ '?' :: ['&'].intercalate (first :: mid ++ [last])) := by
    refine ⟨by simp, ?_, ?_, hs⟩
    · intro h; have : '?' ∈ ['.'] := by rw [← h]; simp
      simp at this
    · intro h; have : '?' ∈ ['.', '.'] := by rw [← h]; simp
      simp at this
  have hparse : Path.parse ('/' :: (p ++ '?' :: ['&'].intercalate (first :: mid ++ [last]))) =
      some [p ++ '?' :: ['&'].intercalate (first :: mid ++ [last])] := Path.parse_single hn
  have htext : Path.display [p ++ '?' :: ['&'].intercalate (first :: mid ++ [last])] =
      ['&'].intercalate ((p ++ '?' :: first) :: mid ++ [last ++ ['/']]) := by
    have hlast : ∀ l : List Str, ['&'].intercalate (l ++ [last]) ++ ['/'] =
        ['&'].intercalate (l ++ [last ++ ['/']]) := by
      intro l
      induction l with
      | nil => simp [List.intercalate]
      | cons a l ih =>
        cases l with
        | nil => simp [List.intercalate]
        | cons b l =>
          simp only [List.cons_append, List.intercalate, List.intersperse_cons_cons,
            List.flatten_cons, List.append_assoc] at ih ⊢
          rw [ih]
    have hfirst : ∀ l : List Str, l ≠ [] → p ++ '?' :: ['&'].intercalate (first :: l) =
        ['&'].intercalate ((p ++ '?' :: first) :: l) := by
      intro l hl
      cases l with
      | nil => exact absurd rfl hl
      | cons b l => simp [List.intercalate, List.intersperse_cons_cons]
    have h1 := hfirst (mid ++ [last]) (by simp)
    have h2 := hlast ((p ++ '?' :: first) :: mid)
    simp only [List.cons_append] at h1 h2 ⊢
    simp only [Path.display, List.flatMap_cons, List.flatMap_nil, List.append_nil]
    rw [h1, h2]
  have ht' : ∀ t ∈ (p ++ '?' :: first) :: mid ++ [last ++ ['/']], '&' ∉ t := by
    intro t h
    simp only [List.cons_append, List.mem_cons, List.mem_append, List.not_mem_nil, or_false] at h
    rcases h with rfl | h | rfl
    · have := (ht first (by simp)).1
      simp [hpa, this]
    · exact (ht t (by simp [h])).1
    · have := (ht last (by simp)).1
      simp [this]
  obtain ⟨m, h1, -, h3⟩ := C20_last_value f.faithful _ (by simp) ht'
  refine ⟨_, m, hparse, ?_, ?_⟩
  · unfold Request.getQuery requestFor
    rw [htext]; exact h1
  · intro k hk1 hk2
    rw [h3 k]
    unfold lastValue
    congr 2
    have e1 : ∀ (t : Str) (l : List Str), (∀ v, pairOf f.faithful t ≠ some (k, v)) →
        ((t :: l).filterMap (pairOf f.faithful)).filter (fun p => decide (p.1 = k)) =
          (l.filterMap (pairOf f.faithful)).filter fun p => decide (p.1 = k) := by
      intro t l ho
      rw [List.filterMap_cons]
      cases h : pairOf f.faithful t with
      | none => rfl
      | some b =>
        have : ¬ b.1 = k := fun h' => ho b.2 (by rw [h, ← h'])
        simp [this]
    rw [List.cons_append, e1 _ _ hk1, List.filterMap_append, List.filter_append, e1 _ _ hk2]
    simp

example : ∃ m, (requestFor [c!"p?x=1&y=2&z=3"]).getQuery ⟨true, true, true⟩ = .ok m ∧
    m.get c!"y" = some c!"2" ∧ m.get c!"x" = none ∧ m.get c!"z" = some c!"3/" :=
  ⟨_, rfl, by decide, by decide, by decide⟩

/-! ## C22 -/

/-- the occurrences of key `k` in an extended query with tokens `toks` -/
def occurrences (faithful : Bool) (toks : List Str) (k : Str) : List Occ :=
  (toks.filterMap (occOf faithful)).filter fun o => o.key = k

/-- C22: parsing an extended query never panics; a key that occurs plainly has its last plain value;
otherwise, if it was first used as `k[]`, all its `k[]` values in order, and if it was first used as
`k[x]`, an object with the last value per inner key; other keys are absent. -/
theorem C22_extended_query (faithful : Bool) (toks : List Str) (hne : toks ≠ [])
    (ht : ∀ t ∈ toks, '&' ∉ t) :
    ∃ m, parseExtendedQuery faithful (['&'].intercalate toks) = .ok m ∧ ∀ k,
      let os := occurrences faithful toks k
      (∀ v, (os.filterMap Occ.plainValue?).getLast? = some v → m.get k = some (.str v)) ∧
      (os.filterMap Occ.plainValue? = [] →
        (∀ k' v rest, os = .push k' v :: rest →
          m.get k = some (.arr (os.filterMap Occ.pushValue?))) ∧
        (∀ k' i v rest, os = .put k' i v :: rest →
          ∃ o, m.get k = some (.obj o) ∧ o.Uniq ∧
            ∀ x, o.get x = lastValue x (os.filterMap Occ.putEntry?)) ∧
        (os = [] → m.get k = none)) := by
  refine ⟨_, by unfold parseExtendedQuery; rw [splitChar_join hne ht, extLoop_eq], fun k => ?_⟩
  have hg := get_foldl_apply (toks.filterMap (occOf faithful)) [] k
  simp only
  rw [hg]
  show (∀ v, _ → List.foldl stepVal none (occurrences faithful toks k) = _) ∧ _
  generalize hos : occurrences faithful toks k = os
  have hos' : List.filter (fun o => decide (o.key = k)) (toks.filterMap (occOf faithful)) = os := hos
  rw [hos']
  refine ⟨fun v hv => foldl_plain os _ v hv, fun hnone => ?_⟩
  have hall : ∀ o ∈ os, o.plainValue? = none := by
    simpa [List.filterMap_eq_nil_iff] using hnone
  refine ⟨?_, ?_, ?_⟩
  · rintro k' v rest rfl
    show List.foldl stepVal (some (.arr [v])) rest = _
    rw [foldl_arr rest _ fun o ho => hall o (List.mem_cons_of_mem _ ho)]
    rfl
  · rintro k' i v rest rfl
    refine ⟨_, foldl_obj rest [(i, v)] fun o ho => hall o (List.mem_cons_of_mem _ ho), ?_, ?_⟩
    · exact uniq_build _ _ (by simp [HMap.Uniq])
    · intro x
      have : build [] ((Occ.put k' i v :: rest).filterMap Occ.putEntry?) =
          build [(i, v)] (rest.filterMap Occ.putEntry?) := rfl
      rw [← this, get_build]
      cases lastValue x (List.filterMap Occ.putEntry? (Occ.put k' i v :: rest)) <;> rfl
  · rintro rfl; rfl

example : parseExtendedQuery true c!"a[]=1&a[x]=9&a[]=2&o[x]=1&o[y]=2&o[x]=3&o[]=z&s[]=1&s=0&s=4" =
    .ok [(c!"a", .arr [c!"1", c!"2"]), (c!"o", .obj [(c!"x", c!"3"), (c!"y", c!"2")]),
      (c!"s", .str c!"4")] := by decide

/-- C22, as a handler sees it through `get_str`, `get_arr` and `get_obj`: the first gives the last plain value, and
something only for a key that occurs plainly; the second and third answer only for a key that never occurs plainly and
was first used as `k[]`, or as `k[x]`; so at most one of them answers, and one does exactly for the keys that occur. -/
theorem C22_accessors (faithful : Bool) (toks : List Str) (hne : toks ≠ []) (ht : ∀ t ∈ toks, '&' ∉ t) :
    ∃ m, parseExtendedQuery faithful (['&'].intercalate toks) = .ok m ∧ ∀ k,
      let os := occurrences faithful toks k
      (m.get k).bind QueryValue.getStr = (os.filterMap Occ.plainValue?).getLast? ∧
      (∀ l, (m.get k).bind QueryValue.getArr = some l ↔
        os.filterMap Occ.plainValue? = [] ∧ (∃ k' v rest, os = .push k' v :: rest) ∧ l = os.filterMap Occ.pushValue?) ∧
      (((m.get k).bind QueryValue.getObj).isSome ↔
        os.filterMap Occ.plainValue? = [] ∧ ∃ k' i v rest, os = .put k' i v :: rest) ∧
      (∀ o, (m.get k).bind QueryValue.getObj = some o → ∀ x, o.get x = lastValue x (os.filterMap Occ.putEntry?)) ∧
      (m.get k = none ↔ os = []) := by
  obtain ⟨m, hm, h⟩ := C22_extended_query faithful toks hne ht
  refine ⟨m, hm, fun k => ?_⟩
  obtain ⟨h1, h2⟩ := h k
  dsimp only at h1 h2 ⊢
  generalize occurrences faithful toks k = os at h1 h2 ⊢
  cases hp : (os.filterMap Occ.plainValue?).getLast? with
  | some v =>
    have hne' : os.filterMap Occ.plainValue? ≠ [] := by
      intro h0; rw [h0] at hp; simp at hp
    have hos : os ≠ [] := by rintro rfl; simp at hne'
    rw [h1 v hp]
    simp [QueryValue.getStr, QueryValue.getArr, QueryValue.getObj, hne', hos]
  | none =>
    have hnil : os.filterMap Occ.plainValue? = [] := List.getLast?_eq_none_iff.1 hp
    obtain ⟨h3, h4, h5⟩ := h2 hnil
    cases os with
    | nil => rw [h5 rfl]; simp
    | cons o rest =>
      cases o with
      | plain k' v => simp [Occ.plainValue?] at hnil
      | push k' v =>
        rw [h3 k' v rest rfl, hnil]
        refine ⟨rfl, fun l => ⟨fun hl => ⟨rfl, ⟨k', v, rest, rfl⟩, ?_⟩, fun hl => ?_⟩, ?_, ?_, ?_⟩
        · simpa [QueryValue.getArr, eq_comm] using hl
        · simp [QueryValue.getArr, hl.2.2]
        · simp [QueryValue.getObj]
        · simp [QueryValue.getObj]
        · simp
      | put k' i v =>
        obtain ⟨o, ho, _, hx⟩ := h4 k' i v rest rfl
        rw [ho, hnil]
        refine ⟨rfl, fun l => ?_, ?_, ?_, ?_⟩
        · simp [QueryValue.getArr]
        · simp [QueryValue.getObj]
        · intro o' h' x
          have : o = o' := by simpa [QueryValue.getObj] using h'
          rw [← this, hx]
        · simp

/-- the query of the documentation (`src/query.rs:157`) -/
example : parseExtendedQuery true c!"a[]=2&a[x]=3&a=1&b[]=1&b[x]=2&c[x]=1&c[]=2" =
    .ok [(c!"a", .str c!"1"), (c!"b", .arr [c!"1"]), (c!"c", .obj [(c!"x", c!"1")])] ∧
    ['&'].intercalate [c!"a[]=2", c!"a[x]=3", c!"a=1", c!"b[]=1", c!"b[x]=2", c!"c[x]=1", c!"c[]=2"] =
      c!"a[]=2&a[x]=3&a=1&b[]=1&b[x]=2&c[x]=1&c[]=2" := by decide

example := C18_no_percent c!"a+b=c&ü" (by decide)
example := C21_query_kept_in_path .default c!"p" c!"x=1&y" (by decide) (by decide) true (by decide)

end Octane
