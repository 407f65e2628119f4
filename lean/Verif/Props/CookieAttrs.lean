import Verif.Props.Jar
import Verif.Proof.Infix
import Verif.Props.TargetChars
/-
C150: the attributes of a cookie.
-/
namespace Octane
open Spec

/-- space or tab -/
def Spec.blank (c : Char) : Bool := c == ' ' || c == '\t'

/-- without the blanks at both ends -/
def Spec.stripped (s : Str) : Str := ((s.dropWhile blank).reverse.dropWhile blank).reverse

/-- The attributes a client finds in the text of a `Set-Cookie` header (RFC 6265, 5.2): the pieces behind the first `;`,
cut at every further `;`, without blanks around them, but for empty ones (which mean nothing). -/
def Spec.FindsAttrs (text : Str) (found : List Str) : Prop :=
  ∃ pair pieces, text = [';'].intercalate (pair :: pieces) ∧ (∀ p ∈ pair :: pieces, ';' ∉ p) ∧
    found = (pieces.map stripped).filter fun a => a ≠ []

/-- an attribute as it can be written: without `;`, not empty, no blanks around it -/
def Spec.PlainAttr (a : Str) : Prop := ';' ∉ a ∧ a ≠ [] ∧ stripped a = a

/-- The full claim of C150: the attributes a client finds are those that were set, whatever name and value are. -/
def C150_statement : Prop :=
  ∀ (c : Cookie), (∀ a ∈ c.attrs, PlainAttr a) → ∀ found, FindsAttrs c.toStr found → found = c.attrs

/-- the text of a cookie is what follows `Set-Cookie: ` on the wire -/
example (c : Cookie) : c.serialise = c!"Set-Cookie: " ++ c.toStr := rfl

/-- A client finds one list of attributes in every text. -/
theorem finds_unique {t : Str} {a b : List Str} (ha : FindsAttrs t a) (hb : FindsAttrs t b) : a = b := by
  obtain ⟨p, ps, h1, h2, rfl⟩ := ha
  obtain ⟨q, qs, g1, g2, rfl⟩ := hb
  have := intercalate_slash_inj (by simp) (by simp) h2 g2 (by rw [← h1, ← g1])
  injection this with _ this
  rw [this]

theorem finds_exists (t : Str) : ∃ found, FindsAttrs t found := by
  have h1 := splitChar_intercalate ';' t
  have h2 := splitChar_not_mem ';' t
  cases hs : splitChar ';' t with
  | nil => exact absurd hs (splitChar_ne_nil _ _)
  | cons p ps =>
    rw [hs] at h1 h2
    exact ⟨_, p, ps, h1.symm, h2, rfl⟩

theorem stripped_space (a : Str) : stripped (' ' :: a) = stripped a := by
  unfold stripped
  rw [List.dropWhile_cons, if_pos (by decide)]

theorem dropWhile_nil (s : Str) : s.dropWhile blank = [] ↔ ∀ c ∈ s, blank c = true := by
  induction s with
  | nil => simp
  | cons c s ih =>
    rw [List.dropWhile_cons]
    cases hc : blank c with
    | true => rw [if_pos rfl, ih]; simp [hc]
    | false => rw [if_neg (by simp)]; simp [hc]

theorem stripped_nil_iff (s : Str) : stripped s = [] ↔ ∀ c ∈ s, blank c = true := by
  unfold stripped
  rw [List.reverse_eq_nil_iff, dropWhile_nil, ← dropWhile_nil s]
  constructor
  · intro h
    cases hd : s.dropWhile blank with
    | nil => rfl
    | cons a l =>
      have h1 : blank a = true := h a (by rw [hd]; simp)
      have h2 : ∀ t : Str, t.dropWhile blank = a :: l → blank a = false := by
        intro t
        induction t with
        | nil => simp
        | cons b t ih =>
          rw [List.dropWhile_cons]
          cases hb : blank b with
          | true => rw [if_pos rfl]; exact ih
          | false => rw [if_neg (by simp)]; intro e; injection e with e _; rw [← e]; exact hb
      rw [h2 s hd] at h1
      cases h1
  · intro h c hc
    rw [h] at hc
    simp at hc

theorem intercalate_flat (p : Str) (ps : List Str) : [';'].intercalate (p :: ps) = p ++ ps.flatMap (';' :: ·) := by
  induction ps generalizing p with
  | nil => simp [List.intercalate]
  | cons q qs ih => rw [intercalate_cons_cons, ih]; simp

theorem toStr_flat (c : Cookie) :
    c.toStr = (c.name ++ '=' :: c.value) ++ (c.attrs.map (' ' :: ·)).flatMap (';' :: ·) := by
  unfold Cookie.toStr
  simp [List.flatMap_map]

/-- Exactly what a client finds: if the name, `=` and the value, together, are cut by `;` into the pieces `p` and `ps`,
then the attributes are those of `ps` that are not blank, followed by those that were set. -/
theorem C150_exact (c : Cookie) (h : ∀ a ∈ c.attrs, PlainAttr a) (p : Str) (ps : List Str)
    (hp : c.name ++ '=' :: c.value = [';'].intercalate (p :: ps)) (hs : ∀ x ∈ p :: ps, ';' ∉ x) (found : List Str) :
    FindsAttrs c.toStr found ↔ found = ((ps.map stripped).filter fun a => a ≠ []) ++ c.attrs := by
  have hf : FindsAttrs c.toStr (((ps.map stripped).filter fun a => a ≠ []) ++ c.attrs) := by
    refine ⟨p, ps ++ c.attrs.map (' ' :: ·), ?_, ?_, ?_⟩
    · rw [toStr_flat, hp, intercalate_flat, intercalate_flat]
      simp
    · intro x hx
      simp only [← List.cons_append, List.mem_append, List.mem_map] at hx
      rcases hx with hx | ⟨a, ha, rfl⟩
      · exact hs x hx
      · have := (h a ha).1
        simp [this]
    · rw [List.map_append, List.filter_append, List.map_map]
      congr 1
      have : c.attrs.map (stripped ∘ (' ' :: ·)) = c.attrs := by
        conv => rhs; rw [← List.map_id c.attrs]
        refine List.map_congr_left fun a ha => ?_
        simp only [Function.comp, stripped_space, id]
        exact (h a ha).2.2
      rw [this]
      refine (List.filter_eq_self.2 fun a ha => ?_).symm
      simpa using (h a ha).2.1
  exact ⟨fun hx => finds_unique hx hf, fun hx => hx ▸ hf⟩

/-- So exactly the cookies in whose name and value nothing but blanks follows a `;` have the attributes that were set. -/
theorem C150_iff (c : Cookie) (h : ∀ a ∈ c.attrs, PlainAttr a) :
    (∀ found, FindsAttrs c.toStr found → found = c.attrs) ↔
    ∀ x y z, c.name ++ '=' :: c.value = x ++ ';' :: y → z ∈ y → z = ';' ∨ z = ' ' ∨ z = '\t' := by
  have h1 := splitChar_intercalate ';' (c.name ++ '=' :: c.value)
  have h2 := splitChar_not_mem ';' (c.name ++ '=' :: c.value)
  cases hs : splitChar ';' (c.name ++ '=' :: c.value) with
  | nil => exact absurd hs (splitChar_ne_nil _ _)
  | cons p ps =>
    rw [hs] at h1 h2
    have hall : (∀ found, FindsAttrs c.toStr found → found = c.attrs) ↔ ∀ x ∈ ps, ∀ z ∈ x, blank z = true := by
      simp only [C150_exact c h p ps h1.symm h2]
      constructor
      · intro hh x hx
        have := hh _ rfl
        have : ((ps.map stripped).filter fun a => a ≠ []) = [] := by simpa using this
        rw [List.filter_eq_nil_iff] at this
        have := this (stripped x) (List.mem_map.2 ⟨x, hx, rfl⟩)
        exact (stripped_nil_iff x).1 (by simpa using this)
      · rintro hh _ rfl
        have : ((ps.map stripped).filter fun a => a ≠ []) = [] := by
          rw [List.filter_eq_nil_iff]
          intro a ha
          obtain ⟨x, hx, rfl⟩ := List.mem_map.1 ha
          simpa using (stripped_nil_iff x).2 (hh x hx)
        rw [this]; rfl
    rw [hall, ← h1, intercalate_flat]
    have hblank : ∀ z, blank z = true ↔ z = ' ' ∨ z = '\t' := by intro z; simp [blank]
    constructor
    · intro hh x y z he hz
      have hp : ';' ∉ p := h2 p (by simp)
      have hsub : ∃ a, ps.flatMap (';' :: ·) = a ++ ';' :: y := by
        rcases List.append_eq_append_iff.1 he with ⟨a, -, e⟩ | ⟨a, e1, e2⟩
        · exact ⟨a, e⟩
        · cases a with
          | nil => exact ⟨[], by simpa using e2.symm⟩
          | cons b a =>
            injection e2 with e2 _
            exact absurd (by rw [e1, e2]; simp) hp
      obtain ⟨a, ha⟩ := hsub
      have hm : z ∈ ps.flatMap (';' :: ·) := by rw [ha]; simp [hz]
      obtain ⟨x', hx', hz'⟩ := List.mem_flatMap.1 hm
      rcases List.mem_cons.1 hz' with hz' | hz'
      · exact .inl hz'
      · exact .inr ((hblank z).1 (hh x' hx' z hz'))
    · intro hh x hx z hz
      cases ps with
      | nil => simp at hx
      | cons q qs =>
        have hzy : z ∈ q ++ qs.flatMap (';' :: ·) := by
          rcases List.mem_cons.1 hx with rfl | hx
          · simp [hz]
          · exact List.mem_append_right _ (List.mem_flatMap.2 ⟨x, hx, List.mem_cons_of_mem _ hz⟩)
        rcases hh p (q ++ qs.flatMap (';' :: ·)) z (by simp) hzy with rfl | hz'
        · exact absurd hz (h2 x (List.mem_cons_of_mem _ hx))
        · exact (hblank z).2 hz'

/-- What holds of C150: a name and a value without `;` add no attribute. Missing: all others (`C150_exact`, `C150_iff`). -/
theorem C150_partial (c : Cookie) (h : ∀ a ∈ c.attrs, PlainAttr a) (hn : ';' ∉ c.name) (hv : ';' ∉ c.value)
    (found : List Str) : FindsAttrs c.toStr found ↔ found = c.attrs := by
  have := C150_exact c h (c.name ++ '=' :: c.value) [] (by simp [List.intercalate]) (by simp [hn, hv]) found
  simpa using this

theorem cookieRsParse_no_semicolon {t : Str} {c : Cookie} (h : cookieRsParse t = some c) : ';' ∉ c.name ∧ ';' ∉ c.value := by
  unfold cookieRsParse at h
  have hn := splitChar_not_mem ';' t
  cases hs : splitChar ';' t with
  | nil => rw [hs] at h; simp at h
  | cons kv attrs =>
    rw [hs] at h hn
    simp only at h
    have hkv : ';' ∉ kv := hn kv (by simp)
    by_cases he : '=' ∈ kv
    · obtain ⟨name, value, e1, e2⟩ := split_first_mem he
      rw [e1, splitN2_append e2 value] at h
      simp only at h
      split at h
      · simp at h
      · simp only [Option.some.injEq] at h
        subst h
        rw [e1] at hkv
        simp only [List.mem_append, List.mem_cons, not_or] at hkv
        exact ⟨fun h' => hkv.1 ((trim_infix _).subset h'), fun h' => hkv.2.2 ((trim_infix _).subset h')⟩
    · rw [splitN2_not_mem he] at h
      simp at h

theorem parseAll_no_semicolon (toks : List Str) (cs : List Cookie) (h : Cookie.parseAll toks = .ok cs) :
    ∀ c ∈ cs, ';' ∉ c.name ∧ ';' ∉ c.value := by
  induction toks generalizing cs with
  | nil =>
    have : cs = [] := by simpa [Cookie.parseAll] using h.symm
    simp [this]
  | cons t toks ih =>
    rw [Cookie.parseAll] at h
    cases hc : cookieRsParse t with
    | none => rw [hc] at h; simp [Res.unwrap, Res.bind] at h
    | some c =>
      rw [hc] at h
      cases hr : Cookie.parseAll toks with
      | panic => rw [hr] at h; simp [Res.unwrap, Res.bind] at h
      | ok rest =>
        rw [hr] at h
        have : cs = c :: rest := by simpa [Res.unwrap, Res.bind] using h.symm
        subst this
        intro x hx
        rcases List.mem_cons.1 hx with rfl | hx
        · exact cookieRsParse_no_semicolon hc
        · exact ih rest hr x hx

/-- The names and values of the cookies of a request are of this kind, so a handler may put them into cookies of its
answer. -/
theorem C150_cookies (feat : Features) (allocOk : Nat → Bool) (s : Sock) (req : Request) (h : Reads feat allocOk s req) :
    ∀ c ∈ req.cookies, ';' ∉ c.name ∧ ';' ∉ c.value := by
  obtain ⟨hdrs, line, rem, reader, H, rl, h1, h2, h3, h4⟩ := h
  intro c hc
  rcases fromRaw_cookies h4 with h5 | ⟨v, -, h6⟩
  · rw [h5] at hc; simp at hc
  · exact parseAll_no_semicolon _ _ h6 c hc

/-- A segment of the path (so also a URL variable) is not: whatever is wanted as an attribute, without blanks, slashes
and line ends, can stand in the target behind a `;`; then a handler that sets the segment as the value of a cookie sets
this attribute too. -/
theorem C150_segment (feat : Features) (allocOk : Nat → Bool) (q : WireReq) (hq : q.Good) (ps : List Str) (v a : Str)
    (hp : q.pieces = ps ++ [v ++ ';' :: a]) (hv : ';' ∉ v) (ha : ';' ∉ a ∧ a ≠ [] ∧ '\t' ∉ a) (s : Sock)
    (hb : s.bytes = q.bytes) (halloc : ∀ k ≤ q.body.length, allocOk k = true) (hmax : q.body.length ≤ i64Max) :
    ∃ req x, Reads feat allocOk s req ∧ req.requestLine.path.getLast? = some x ∧
      ∀ name attrs, ';' ∉ name → (∀ b ∈ attrs, PlainAttr b) → ∀ found,
        FindsAttrs (Cookie.toStr ⟨name, x, attrs⟩) found ↔ found = a :: attrs := by
  obtain ⟨req, h1, h2⟩ := C147_read feat allocOk q hq s hb halloc hmax
  have hname : isName (v ++ ';' :: a) = true := by
    have hne : ∀ t : Str, ';' ∉ t → v ++ ';' :: a ≠ t := fun t ht he => ht (by rw [← he]; simp)
    simp only [isName, Bool.not_eq_true', Bool.or_eq_false_iff, beq_eq_false_iff_ne]
    exact ⟨⟨hne [] (by decide), hne ['.'] (by decide)⟩, hne ['.', '.'] (by decide)⟩
  have hspace : ' ' ∉ a := fun h => (hq.pieces.2 (v ++ ';' :: a) (by rw [hp]; simp)).1 (by simp [h])
  have hs : stripped a = a := by
    have hd : ∀ t : Str, ' ' ∉ t → '\t' ∉ t → t.dropWhile blank = t := by
      intro t h1 h2
      cases t with
      | nil => rfl
      | cons c t =>
        rw [List.dropWhile_cons, if_neg]
        simp only [List.mem_cons, not_or] at h1 h2
        simp [blank, Ne.symm h1.1, Ne.symm h2.1]
    unfold stripped
    rw [hd a hspace ha.2.2, hd _ (by simpa using hspace) (by simpa using ha.2.2), List.reverse_reverse]
  refine ⟨req, v ++ ';' :: a, h1, by rw [h2, hp, resolve_snoc _ _ hname]; simp, fun name attrs hn hat found => ?_⟩
  have := C150_exact ⟨name, v ++ ';' :: a, attrs⟩ hat (name ++ '=' :: v) [a] (by simp [List.intercalate])
    (by simp [hn, hv, ha.1]) found
  rw [this]
  simp [hs, ha.2.1]

namespace CookieAttrsExample
open StrictExample

/-- a cookie `n` with the value `x;Domain=b` that is meant to be only for encrypted connections -/
def odd : Cookie := ⟨c!"n", c!"x;Domain=b", [c!"Secure"]⟩

theorem secure : ∀ a ∈ odd.attrs, PlainAttr a := by
  intro a ha
  have : a = c!"Secure" := by simpa [odd] using ha
  subst this
  exact ⟨by decide, by decide, by decide⟩

/-- the client finds two attributes -/
theorem finds : FindsAttrs odd.toStr [c!"Domain=b", c!"Secure"] :=
  (C150_exact odd secure c!"n=x" [c!"Domain=b"] (by decide) (by decide) _).2 (by decide)

/-- and none more in an ordinary cookie -/
example (found : List Str) : FindsAttrs (Cookie.toStr ⟨c!"n", c!"x", [c!"Secure"]⟩) found ↔ found = [c!"Secure"] :=
  C150_partial ⟨c!"n", c!"x", [c!"Secure"]⟩ secure (by decide) (by decide) found

/-- a `;` at the end does not matter -/
example (found : List Str) : FindsAttrs (Cookie.toStr ⟨c!"n", c!"x; ", [c!"Secure"]⟩) found ↔ found = [c!"Secure"] := by
  refine (C150_exact ⟨c!"n", c!"x; ", [c!"Secure"]⟩ secure c!"n=x" [c!" "] (by decide) (by decide) found).trans ?_
  rw [show ((([c!" "] : List Str).map stripped).filter fun a => a ≠ []) = [] by decide]
  rfl

/-- `GET /x;Domain=b` -/
def asksOdd : WireReq := { qa with pieces := [[], c!"x;Domain=b"] }
theorem asksOdd_good : asksOdd.Good :=
  good asksOdd rfl (by decide) (by decide) (by decide) (by decide) (by decide) (by decide +kernel)
    (by decide +kernel) (by decide +kernel)

/-- and what its last segment makes of a cookie -/
example : ∃ req x, Reads .default (fun _ => true) ⟨[asksOdd.bytes], .eof⟩ req ∧ req.requestLine.path.getLast? = some x ∧
    ∀ found, FindsAttrs (Cookie.toStr ⟨c!"n", x, [c!"Secure"]⟩) found ↔ found = [c!"Domain=b", c!"Secure"] := by
  obtain ⟨req, x, h1, h2, h3⟩ := C150_segment .default (fun _ => true) asksOdd asksOdd_good [[]] c!"x" c!"Domain=b" rfl
    (by decide) (by decide) ⟨[asksOdd.bytes], .eof⟩ (by simp [Sock.bytes]) (fun _ _ => rfl) (by decide)
  exact ⟨req, x, h1, h2, h3 c!"n" [c!"Secure"] (by decide) secure⟩

end CookieAttrsExample

open CookieAttrsExample in
/-- C150 is false of the code. -/
theorem C150_counterexample : ¬ C150_statement := fun h => absurd (h odd secure _ finds) (by decide)

end Octane
