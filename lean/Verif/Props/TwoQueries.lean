import Verif.Props.Query
/-
C151: `get_query` and `get_extended_query` of one request agree on the strings.
-/
namespace Octane
open Spec Query

/-- The name of the token (before its first `=`) has the form `k[…]`. -/
def Spec.Bracketed (t : Str) : Prop :=
  '=' ∈ t ∧ (t.takeWhile (· != '=')).getLast? = some ']' ∧ '[' ∈ t.takeWhile (· != '=')

/-- The token begins with `=`. -/
def Spec.Nameless (t : Str) : Prop := t.head? = some '='

instance (t : Str) : Decidable (Spec.Bracketed t) := by unfold Spec.Bracketed; infer_instance
instance (t : Str) : Decidable (Spec.Nameless t) := by unfold Spec.Nameless; infer_instance

/-- The full claim of C151: a query in which no name has the form `k[…]` gives, read as an extended query, for
every key the string that it gives when read plainly, and nothing for the other keys. -/
def C151_statement : Prop :=
  ∀ (faithful : Bool) (toks : List Str), toks ≠ [] → (∀ t ∈ toks, '&' ∉ t ∧ ¬ Bracketed t) →
    ∃ p e, parseQuery faithful (['&'].intercalate toks) = .ok p ∧
      parseExtendedQuery faithful (['&'].intercalate toks) = .ok e ∧ ∀ k, e.get k = (p.get k).map .str

/-! ### One token -/

theorem takeWhile_nil_iff (t : Str) (h : '=' ∈ t) : t.takeWhile (· != '=') = [] ↔ Nameless t := by
  cases t with
  | nil => simp at h
  | cons c r =>
    by_cases hc : c = '='
    · subst hc; simp [Nameless]
    · simp [Nameless, List.takeWhile_cons, hc]

theorem takeWhile_no_eq (t : Str) (h : '=' ∉ t) : t.takeWhile (· != '=') = t ∧ t.dropWhile (· != '=') = [] := by
  have h' : ∀ c ∈ t, (c != '=') = true := by
    intro c hc; simp only [bne_iff_ne, ne_eq]; rintro rfl; exact h hc
  clear h
  induction t with
  | nil => simp
  | cons c r ih =>
    have h1 := h' c (by simp)
    have h2 := ih fun d hd => h' d (List.mem_cons_of_mem _ hd)
    simp only [List.takeWhile_cons, List.dropWhile_cons, h1, if_true, h2.1, h2.2, and_self]

/-- a token that is neither bracketed nor nameless stands for the same in both readings -/
theorem occOf_plain (f : Bool) (t : Str) (hb : ¬ Bracketed t) (hn : ¬ Nameless t) :
    occOf f t = (pairOf f t).map fun p => .plain p.1 p.2 := by
  unfold occOf pairOf
  by_cases he : '=' ∈ t
  · have hne : t.takeWhile (· != '=') ≠ [] := fun h => hn ((takeWhile_nil_iff t he).1 h)
    have hb' : ¬ ((t.takeWhile (· != '=')).getLast? = some ']' ∧ '[' ∈ t.takeWhile (· != '=')) :=
      fun h => hb ⟨he, h⟩
    have hie : (t.takeWhile (· != '=')).isEmpty = false := by
      simpa using hne
    simp only [he, not_true_eq_false, if_false, hne, hb', hie, Bool.and_false, Bool.false_eq_true, Option.map_some]
  · obtain ⟨h1, h2⟩ := takeWhile_no_eq t he
    simp only [he, not_false_eq_true, if_true, h1, h2, List.drop_nil]
    by_cases hf : (f && t.isEmpty) = true
    · simp [hf]
    · simp only [hf]; simp [decode]

/-- a bracketed or nameless token is no plain entry of an extended query -/
theorem occOf_other (f : Bool) (t : Str) (h : Bracketed t ∨ Nameless t) :
    (occOf f t).bind Occ.plainValue? = none := by
  have he : '=' ∈ t := by
    rcases h with h | h
    · exact h.1
    · cases t with
      | nil => simp [Nameless] at h
      | cons c r => simp [Nameless] at h; simp [h]
  unfold occOf
  by_cases hn : t.takeWhile (· != '=') = []
  · simp [he, hn]
  · have hb : (t.takeWhile (· != '=')).getLast? = some ']' ∧ '[' ∈ t.takeWhile (· != '=') := by
      rcases h with h | h
      · exact h.2
      · exact absurd ((takeWhile_nil_iff t he).2 h) hn
    simp only [he, not_true_eq_false, if_false, hn, hb, and_self, if_true]
    split <;> rfl

/-- the tokens that an extended query takes as `k=v` or `k` -/
def Spec.plainTokens (toks : List Str) : List Str := toks.filter fun t => ¬ (Bracketed t ∨ Nameless t)

theorem plain_values (f : Bool) (toks : List Str) (k : Str) :
    (occurrences f toks k).filterMap Occ.plainValue? =
      (((plainTokens toks).filterMap (pairOf f)).filter fun p => p.1 = k).map (·.2) := by
  unfold occurrences plainTokens
  induction toks with
  | nil => rfl
  | cons t ts ih =>
    by_cases h : Bracketed t ∨ Nameless t
    · have h0 := occOf_other f t h
      rw [List.filter_cons_of_neg (by rw [decide_eq_true_iff]; exact fun x => x h)]
      rw [← ih]
      cases ho : occOf f t with
      | none => rw [List.filterMap_cons_none ho]
      | some o =>
        rw [List.filterMap_cons_some ho]
        rw [ho] at h0
        rw [List.filter_cons]
        split
        · rw [List.filterMap_cons_none (f := Occ.plainValue?) h0]
        · rfl
    · have h1 := occOf_plain f t (fun x => h (.inl x)) (fun x => h (.inr x))
      rw [List.filter_cons_of_pos (by rw [decide_eq_true_iff]; exact h)]
      cases hp : pairOf f t with
      | none =>
        rw [hp] at h1
        rw [List.filterMap_cons_none h1, List.filterMap_cons_none hp, ih]
      | some p =>
        rw [hp] at h1
        rw [List.filterMap_cons_some h1, List.filterMap_cons_some hp, List.filter_cons, List.filter_cons]
        have hkey : (Occ.plain p.1 p.2).key = p.1 := rfl
        rw [hkey]
        by_cases hk : p.1 = k
        · rw [if_pos (by simpa using hk), if_pos (by simpa using hk), List.map_cons,
            List.filterMap_cons_some (by rfl), ih]
        · rw [if_neg (by simpa using hk), if_neg (by simpa using hk)]
          exact ih

/-! ### C151 -/

/-- Exactly, for every query: the strings of the extended query are those of the plain query with the bracketed and
nameless tokens deleted (none if no token is left). -/
theorem C151_exact (faithful : Bool) (toks : List Str) (hne : toks ≠ []) (ht : ∀ t ∈ toks, '&' ∉ t) :
    ∃ e, parseExtendedQuery faithful (['&'].intercalate toks) = .ok e ∧
      (plainTokens toks = [] → ∀ k, (e.get k).bind QueryValue.getStr = none) ∧
      (plainTokens toks ≠ [] → ∃ p, parseQuery faithful (['&'].intercalate (plainTokens toks)) = .ok p ∧
        ∀ k, (e.get k).bind QueryValue.getStr = p.get k) := by
  obtain ⟨e, he, h⟩ := C22_accessors faithful toks hne ht
  refine ⟨e, he, ?_, ?_⟩
  · intro h0 k
    rw [(h k).1, plain_values, h0]; rfl
  · intro h0
    obtain ⟨p, hp, -, hv⟩ := C20_last_value faithful (plainTokens toks) h0
      (fun t hm => ht t (List.mem_filter.1 hm).1)
    refine ⟨p, hp, fun k => ?_⟩
    rw [(h k).1, plain_values, hv, lastValue, List.getLast?_map]

/-- C151 for a query in which also no token begins with `=`: the two readings have the same keys and values.
Missing: tokens that begin with `=`, which without `faithful` only the plain reading takes (`C151_counterexample`;
`C151_iff` says exactly when that makes a difference). -/
theorem C151_partial (faithful : Bool) (toks : List Str) (hne : toks ≠ [])
    (ht : ∀ t ∈ toks, '&' ∉ t ∧ ¬ Bracketed t ∧ ¬ Nameless t) :
    ∃ p e, parseQuery faithful (['&'].intercalate toks) = .ok p ∧
      parseExtendedQuery faithful (['&'].intercalate toks) = .ok e ∧ ∀ k, e.get k = (p.get k).map .str := by
  have hpl : plainTokens toks = toks := by
    unfold plainTokens
    rw [List.filter_eq_self]
    intro t hm
    have := ht t hm
    simp [this.2.1, this.2.2]
  obtain ⟨e, he, h⟩ := C22_extended_query faithful toks hne (fun t hm => (ht t hm).1)
  obtain ⟨p, hp, -, hv⟩ := C20_last_value faithful toks hne (fun t hm => (ht t hm).1)
  refine ⟨p, e, hp, he, fun k => ?_⟩
  have hpv := plain_values faithful toks k
  rw [hpl] at hpv
  have hgl : ((occurrences faithful toks k).filterMap Occ.plainValue?).getLast? = p.get k := by
    rw [hpv, hv, lastValue, List.getLast?_map]
  cases hc : p.get k with
  | some v => exact (h k).1 v (by rw [hgl, hc])
  | none =>
    have h0 : (occurrences faithful toks k).filterMap Occ.plainValue? = [] := by
      rw [← List.getLast?_eq_none_iff, hgl, hc]
    refine ((h k).2 h0).2.2 ?_
    -- every occurrence is plain
    match ho : occurrences faithful toks k with
    | [] => rfl
    | o :: os =>
      have hm : o ∈ occurrences faithful toks k := by rw [ho]; simp
      obtain ⟨hm1, -⟩ := List.mem_filter.1 hm
      obtain ⟨t, htm, hto⟩ := List.mem_filterMap.1 hm1
      rw [occOf_plain faithful t (ht t htm).2.1 (ht t htm).2.2] at hto
      cases hpt : pairOf faithful t with
      | none => simp [hpt] at hto
      | some x =>
        simp only [hpt, Option.map_some, Option.some.injEq] at hto
        rw [ho, ← hto] at h0
        rw [List.filterMap_cons_some (by rfl)] at h0
        cases h0

/-- tokens of no entry can be deleted -/
theorem filterMap_filter_none {α β} (f : α → Option β) (P : α → Bool) (l : List α)
    (h : ∀ a ∈ l, P a = false → f a = none) : (l.filter P).filterMap f = l.filterMap f := by
  induction l with
  | nil => rfl
  | cons a l ih =>
    have ih' := ih fun b hb => h b (List.mem_cons_of_mem _ hb)
    cases hp : P a with
    | true =>
      rw [List.filter_cons_of_pos hp]
      cases hf : f a with
      | none => rw [List.filterMap_cons_none hf, List.filterMap_cons_none hf, ih']
      | some b => rw [List.filterMap_cons_some hf, List.filterMap_cons_some hf, ih']
    | false =>
      rw [List.filter_cons_of_neg (by simp [hp]), List.filterMap_cons_none (h a (by simp) hp), ih']

/-- With the feature `faithful` C151 holds in full. -/
theorem C151_faithful (toks : List Str) (hne : toks ≠ []) (ht : ∀ t ∈ toks, '&' ∉ t ∧ ¬ Bracketed t) :
    ∃ p e, parseQuery true (['&'].intercalate toks) = .ok p ∧
      parseExtendedQuery true (['&'].intercalate toks) = .ok e ∧ ∀ k, e.get k = (p.get k).map .str := by
  have hnone : ∀ t ∈ toks, (decide ¬ (Bracketed t ∨ Nameless t)) = false → pairOf true t = none ∧ occOf true t = none := by
    intro t hm hd
    have hn : Nameless t := by
      rw [decide_eq_false_iff_not, Decidable.not_not] at hd
      exact hd.resolve_left (ht t hm).2
    have he : '=' ∈ t := by
      cases t with
      | nil => simp [Nameless] at hn
      | cons c r => simp [Nameless] at hn; simp [hn]
    have h0 := (takeWhile_nil_iff t he).2 hn
    exact ⟨by simp [pairOf, h0], by simp [occOf, he, h0]⟩
  obtain ⟨e, hee, h⟩ := C22_extended_query true toks hne (fun t hm => (ht t hm).1)
  obtain ⟨p, hp, -, hv⟩ := C20_last_value true toks hne (fun t hm => (ht t hm).1)
  refine ⟨p, e, hp, hee, fun k => ?_⟩
  have hpv := plain_values true toks k
  unfold plainTokens at hpv
  rw [filterMap_filter_none _ _ _ fun t hm hd => (hnone t hm hd).1] at hpv
  have hgl : ((occurrences true toks k).filterMap Occ.plainValue?).getLast? = p.get k := by
    rw [hpv, hv, lastValue, List.getLast?_map]
  cases hc : p.get k with
  | some v => exact (h k).1 v (by rw [hgl, hc])
  | none =>
    have h0 : (occurrences true toks k).filterMap Occ.plainValue? = [] := by
      rw [← List.getLast?_eq_none_iff, hgl, hc]
    refine ((h k).2 h0).2.2 ?_
    match ho : occurrences true toks k with
    | [] => rfl
    | o :: os =>
      have hm : o ∈ occurrences true toks k := by rw [ho]; simp
      obtain ⟨hm1, -⟩ := List.mem_filter.1 hm
      obtain ⟨t, htm, hto⟩ := List.mem_filterMap.1 hm1
      by_cases hn : Nameless t
      · rw [(hnone t htm (by simp [hn])).2] at hto; cases hto
      · rw [occOf_plain true t (ht t htm).2 hn] at hto
        cases hpt : pairOf true t with
        | none => simp [hpt] at hto
        | some x =>
          simp only [hpt, Option.map_some, Option.some.injEq] at hto
          rw [ho, ← hto] at h0
          rw [List.filterMap_cons_some (by rfl)] at h0
          cases h0

/-- C151 for a request, whatever its target is: if all tokens of what the accessors parse (see C80 for what that is)
are of the form `k=v` or `k`, both accessors give the same keys and values. -/
theorem C151_request (feat : Features) (req : Request) (toks : List Str) (hne : toks ≠ [])
    (hd : Path.display req.requestLine.path = ['&'].intercalate toks)
    (ht : ∀ t ∈ toks, '&' ∉ t ∧ ¬ Bracketed t ∧ ¬ Nameless t) :
    ∃ p e, req.getQuery feat = .ok p ∧ req.getExtendedQuery feat = .ok e ∧ ∀ k, e.get k = (p.get k).map .str := by
  unfold Request.getQuery Request.getExtendedQuery
  rw [hd]
  exact C151_partial feat.faithful toks hne ht

/-! ### Exactly when, without `faithful` -/

/-- The token has the empty name: it is empty or begins with `=`. -/
def Spec.EmptyName (t : Str) : Prop := t = [] ∨ Nameless t

instance (t : Str) : Decidable (Spec.EmptyName t) := by unfold Spec.EmptyName; infer_instance

/-- Either no token begins with `=`, or there is an empty token as well and the last token with the empty name has no
value, so that both readings give the empty key the empty value. -/
def Spec.NamelessHarmless (toks : List Str) : Prop :=
  (∀ t ∈ toks, ¬ Nameless t) ∨
    ([] ∈ toks ∧ ((toks.filter fun t => EmptyName t).getLast? = some [] ∨
      (toks.filter fun t => EmptyName t).getLast? = some ['=']))

theorem decode_eq_nil (s : Str) : decode s = [] ↔ s = [] := by
  constructor
  · intro h
    match s with
    | [] => rfl
    | [c] => simp [decode] at h
    | [c, d] => simp [decode] at h
    | c :: a :: b :: r =>
      unfold decode at h
      split at h
      · split at h <;> cases h
      · cases h
  · rintro rfl; rfl

theorem name_nil (t : Str) : t.takeWhile (· != '=') = [] ↔ EmptyName t := by
  cases t with
  | nil => simp [EmptyName]
  | cons c r =>
    by_cases hc : c = '='
    · subst hc; simp [EmptyName, Nameless]
    · simp [EmptyName, Nameless, List.takeWhile_cons, hc]

/-- the key of a token is empty exactly if its name is -/
theorem pairOf_key_nil (t : Str) : (decode (t.takeWhile (· != '='))) = [] ↔ EmptyName t := by
  rw [decode_eq_nil, name_nil]

/-- what a token with an empty name gives the empty key -/
theorem emptyName_value (t : Str) (h : EmptyName t) :
    decode ((t.dropWhile (· != '=')).drop 1) = [] ↔ t = [] ∨ t = ['='] := by
  rw [decode_eq_nil]
  rcases h with rfl | h
  · simp
  · cases t with
    | nil => simp [Nameless] at h
    | cons c r => simp [Nameless] at h; subst h; simp

/-- without brackets, an extended query gives every key the last value of the tokens that do not begin with `=` -/
theorem extended_plain (f : Bool) (toks : List Str) (hne : toks ≠ []) (ht : ∀ t ∈ toks, '&' ∉ t ∧ ¬ Bracketed t) :
    ∃ e, parseExtendedQuery f (['&'].intercalate toks) = .ok e ∧
      ∀ k, e.get k = (lastValue k ((plainTokens toks).filterMap (pairOf f))).map .str := by
  obtain ⟨e, he, h⟩ := C22_extended_query f toks hne (fun t hm => (ht t hm).1)
  refine ⟨e, he, fun k => ?_⟩
  have hgl : ((occurrences f toks k).filterMap Occ.plainValue?).getLast? =
      lastValue k ((plainTokens toks).filterMap (pairOf f)) := by
    rw [plain_values, lastValue, List.getLast?_map]
  cases hc : lastValue k ((plainTokens toks).filterMap (pairOf f)) with
  | some v => exact (h k).1 v (by rw [hgl, hc])
  | none =>
    have h0 : (occurrences f toks k).filterMap Occ.plainValue? = [] := by
      rw [← List.getLast?_eq_none_iff, hgl, hc]
    refine ((h k).2 h0).2.2 ?_
    match ho : occurrences f toks k with
    | [] => rfl
    | o :: os =>
      have hm : o ∈ occurrences f toks k := by rw [ho]; simp
      obtain ⟨hm1, -⟩ := List.mem_filter.1 hm
      obtain ⟨t, htm, hto⟩ := List.mem_filterMap.1 hm1
      by_cases hn : Nameless t
      · have hee : '=' ∈ t := by
          cases t with
          | nil => simp [Nameless] at hn
          | cons c r => simp [Nameless] at hn; simp [hn]
        have := (takeWhile_nil_iff t hee).2 hn
        simp [occOf, hee, this] at hto
      · rw [occOf_plain f t (ht t htm).2 hn] at hto
        cases hpt : pairOf f t with
        | none => simp [hpt] at hto
        | some x =>
          simp only [hpt, Option.map_some, Option.some.injEq] at hto
          rw [ho, ← hto] at h0
          rw [List.filterMap_cons_some (by rfl)] at h0
          cases h0

theorem lastValue_tokens (k : Str) (toks : List Str) : lastValue k (toks.filterMap (pairOf false)) =
    ((toks.filter fun t => decode (t.takeWhile (· != '=')) = k).getLast?).map fun t =>
      decode ((t.dropWhile (· != '=')).drop 1) := by
  have : toks.filterMap (pairOf false) =
      toks.map fun t => (decode (t.takeWhile (· != '=')), decode ((t.dropWhile (· != '=')).drop 1)) := by
    rw [← List.filterMap_eq_map]
    congr 1
  rw [lastValue, this, List.filter_map, List.getLast?_map, Option.map_map]
  rfl

/-- C151 without `faithful`, for queries in which no name has the form `k[…]`: exactly when the two readings agree. -/
theorem C151_iff (toks : List Str) (hne : toks ≠ []) (ht : ∀ t ∈ toks, '&' ∉ t ∧ ¬ Bracketed t) :
    (∃ p e, parseQuery false (['&'].intercalate toks) = .ok p ∧
      parseExtendedQuery false (['&'].intercalate toks) = .ok e ∧ ∀ k, e.get k = (p.get k).map .str) ↔
    NamelessHarmless toks := by
  obtain ⟨e, he, h⟩ := extended_plain false toks hne ht
  obtain ⟨p, hp, -, hv⟩ := C20_last_value false toks hne (fun t hm => (ht t hm).1)
  have hpl : plainTokens toks = toks.filter fun t => ¬ Nameless t := by
    unfold plainTokens
    refine List.filter_congr fun t hm => ?_
    simp [(ht t hm).2]
  have hkey : ∀ k, k ≠ [] → lastValue k ((plainTokens toks).filterMap (pairOf false)) =
      lastValue k (toks.filterMap (pairOf false)) := by
    intro k hk
    rw [lastValue_tokens, lastValue_tokens, hpl, List.filter_filter]
    congr 2
    refine List.filter_congr fun t _ => ?_
    by_cases hn : Nameless t
    · have : decode (t.takeWhile (· != '=')) = [] := (pairOf_key_nil t).2 (.inr hn)
      simp [hn, this, Ne.symm hk]
    · simp [hn]
  have hempty : ∀ l : List Str, (l.filter fun t => decode (t.takeWhile (· != '=')) = []) = l.filter fun t => EmptyName t :=
    fun l => List.filter_congr fun t _ => by simp [pairOf_key_nil]
  -- what the extended query gives the empty key
  have hP : lastValue [] ((plainTokens toks).filterMap (pairOf false)) = if [] ∈ toks then some [] else none := by
    rw [lastValue_tokens, hempty, hpl, List.filter_filter]
    have hf : (toks.filter fun t => decide (EmptyName t) && decide (¬ Nameless t)) = toks.filter fun t => t = [] := by
      refine List.filter_congr fun t _ => ?_
      by_cases h0 : t = []
      · subst h0; simp [EmptyName, Nameless]
      · by_cases hn : Nameless t <;> simp [EmptyName, h0, hn]
    rw [hf]
    split
    · rename_i hm
      have hmem : ([] : Str) ∈ toks.filter fun t => t = [] := by simp [hm]
      cases hg : (toks.filter fun t => t = []).getLast? with
      | none => rw [List.getLast?_eq_none_iff] at hg; rw [hg] at hmem; simp at hmem
      | some t =>
        have : t = [] := by simpa using (List.mem_filter.1 (List.mem_of_getLast? hg)).2
        subst this; rfl
    · rename_i hm
      have : (toks.filter fun t => decide (t = [])) = [] := by
        rw [List.filter_eq_nil_iff]; intro t htm; simp; rintro rfl; exact hm htm
      rw [this]; rfl
  have hagree : (∃ p e, parseQuery false (['&'].intercalate toks) = .ok p ∧
      parseExtendedQuery false (['&'].intercalate toks) = .ok e ∧ ∀ k, e.get k = (p.get k).map .str) ↔
      lastValue [] ((plainTokens toks).filterMap (pairOf false)) = lastValue [] (toks.filterMap (pairOf false)) := by
    have hinj : ∀ a b : Option Str, a.map QueryValue.str = b.map QueryValue.str → a = b := by
      intro a b hab
      cases a <;> cases b <;> simp at hab <;> simp [hab]
    constructor
    · rintro ⟨p', e', hp', he', hk⟩
      obtain rfl : p' = p := Res.ok.inj (hp'.symm.trans hp)
      obtain rfl : e' = e := Res.ok.inj (he'.symm.trans he)
      have := hk []
      rw [h, hv] at this
      exact hinj _ _ this
    · intro h0
      refine ⟨p, e, hp, he, fun k => ?_⟩
      rw [h, hv]
      by_cases hk : k = []
      · rw [hk, h0]
      · rw [hkey k hk]
  rw [hagree, hP, lastValue_tokens, hempty]
  constructor
  · intro hx
    by_cases hno : ∀ t ∈ toks, ¬ Nameless t
    · exact .inl hno
    · right
      split at hx
      · rename_i hm
        refine ⟨hm, ?_⟩
        cases hg : (toks.filter fun t => EmptyName t).getLast? with
        | none => rw [hg] at hx; simp at hx
        | some t =>
          rw [hg] at hx
          simp only [Option.map_some, Option.some.injEq] at hx
          have het : EmptyName t := by simpa using (List.mem_filter.1 (List.mem_of_getLast? hg)).2
          simpa using (emptyName_value t het).1 hx.symm
      · exfalso
        apply hno
        intro t htm hn
        have hmem : t ∈ toks.filter fun t => EmptyName t := by simp [htm, EmptyName, hn]
        cases hg : (toks.filter fun t => EmptyName t).getLast? with
        | none => rw [List.getLast?_eq_none_iff] at hg; rw [hg] at hmem; simp at hmem
        | some t' => rw [hg] at hx; simp at hx
  · rintro (hno | ⟨hm, hl⟩)
    · rw [← hempty, ← lastValue_tokens]
      rw [show toks.filterMap (pairOf false) = (plainTokens toks).filterMap (pairOf false) by
        rw [hpl, List.filter_eq_self.2 fun t htm => by simpa using hno t htm], hP]
    · rw [if_pos hm]
      rcases hl with hl | hl <;> rw [hl] <;> rfl

/-- C151 is false of the code: of `=v` without `faithful` the plain reading makes an entry of the empty key, the
extended one nothing. -/
theorem C151_counterexample : ¬ C151_statement ∧
    parseQuery false c!"a=1&=v" = .ok [(c!"a", c!"1"), ([], c!"v")] ∧
    parseExtendedQuery false c!"a=1&=v" = .ok [(c!"a", .str c!"1")] := by
  have h1 : parseQuery false c!"a=1&=v" = .ok [(c!"a", c!"1"), ([], c!"v")] := by decide +kernel
  have h2 : parseExtendedQuery false c!"a=1&=v" = .ok [(c!"a", .str c!"1")] := by decide +kernel
  refine ⟨fun h => ?_, h1, h2⟩
  obtain ⟨p, e, hp, he, hk⟩ := h false [c!"a=1", c!"=v"] (by simp) (by decide +kernel)
  have hp' : p = [(c!"a", c!"1"), ([], c!"v")] := Res.ok.inj (hp.symm.trans h1)
  have he' : e = [(c!"a", .str c!"1")] := Res.ok.inj (he.symm.trans h2)
  have := hk []
  rw [hp', he'] at this
  revert this; decide +kernel

namespace TwoQueriesExample

/-- `a=1&b&a=%32` meets the hypotheses: both readings say `a` ↦ `2`, `b` ↦ empty. -/
example : ∃ p e, parseQuery false (['&'].intercalate [c!"a=1", c!"b", c!"a=%32"]) = .ok p ∧
    parseExtendedQuery false (['&'].intercalate [c!"a=1", c!"b", c!"a=%32"]) = .ok e ∧
    ∀ k, e.get k = (p.get k).map .str :=
  C151_partial false _ (by simp) (by decide +kernel)
example : parseExtendedQuery false c!"a=1&b&a=%32" = .ok [(c!"a", .str c!"2"), (c!"b", .str [])] := by
  decide +kernel
/-- in `a[]=1&b=2&=v` the token `b=2` is left -/
example : plainTokens [c!"a[]=1", c!"b=2", c!"=v"] = [c!"b=2"] := by decide +kernel
example := C151_exact false [c!"a[]=1", c!"b=2", c!"=v"] (by simp) (by decide +kernel)
/-- `=v&&a=1&=` : both say that the empty key is empty; `=v` alone and `&=v`: they differ -/
example : NamelessHarmless [c!"=v", [], c!"a=1", c!"="] ∧ ¬ NamelessHarmless [c!"=v"] ∧ ¬ NamelessHarmless [[], c!"=v"] := by
  unfold NamelessHarmless; decide +kernel
example := (C151_iff [c!"=v", [], c!"a=1", c!"="] (by simp) (by decide +kernel)).2
example := C151_faithful [c!"a=1", c!"=v"] (by simp) (by decide +kernel)

end TwoQueriesExample
end Octane
