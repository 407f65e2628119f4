import Verif.Props.Echo
/-
C36, what a client makes of an answer with cookies: exactly.
-/
namespace Octane
open Spec

namespace Spec

/-- `b` begins with header lines that say `hs` and a blank line, and then comes `rest`. Directly after a
CRLF, that is: with no lines, the blank line is the CRLF at the beginning. -/
def BeginsWithHeaders (b : Bytes) (hs : List (Str × Str)) (rest : Bytes) : Prop :=
  (hs = [] ∧ b = crlfB ++ rest) ∨
    ∃ lines, lines ≠ [] ∧ FirstSplit b blankLine (utf8 (crlf.intercalate lines)) rest ∧
      (∀ l ∈ lines, ¬ Occurs l crlf) ∧ HeaderLines lines hs

end Spec

theorem intercalate_append {T : Type u} (sep : List T) {a b : List (List T)} (ha : a ≠ []) (hb : b ≠ []) :
    sep.intercalate (a ++ b) = sep.intercalate a ++ sep ++ sep.intercalate b := by
  induction a with
  | nil => exact absurd rfl ha
  | cons x a ih =>
    cases a with
    | nil =>
      cases b with
      | nil => exact absurd rfl hb
      | cons y b => rw [List.singleton_append, intercalate_cons_cons]; simp [List.intercalate]
    | cons y a =>
      rw [List.cons_append, List.cons_append, intercalate_cons_cons, intercalate_cons_cons,
        ← List.cons_append, ih (by simp)]
      simp

theorem Spec.HeaderLines.append {ls ls' : List Str} {hs hs' : List (Str × Str)} (h : HeaderLines ls hs)
    (h' : HeaderLines ls' hs') : HeaderLines (ls ++ ls') (hs ++ hs') := by
  induction h with
  | nil => exact h'
  | cons a _ ih => exact .cons a ih

theorem Spec.HeaderLines.of_append {ls ls' : List Str} {hs : List (Str × Str)} (h : HeaderLines (ls ++ ls') hs) :
    ∃ h1 h2, hs = h1 ++ h2 ∧ HeaderLines ls h1 ∧ HeaderLines ls' h2 := by
  induction ls generalizing hs with
  | nil => exact ⟨[], hs, rfl, .nil, h⟩
  | cons l ls ih =>
    cases h with
    | cons a b =>
      obtain ⟨h1, h2, rfl, x, y⟩ := ih b
      exact ⟨_ :: h1, h2, rfl, .cons a x, y⟩

theorem statusLine_unique {l v c p v' c' p' : Str} (h : StatusLine l v c p) (h' : StatusLine l v' c' p') :
    v = v' ∧ c = c' ∧ p = p' := by
  obtain ⟨t1, t2, t3⟩ := h
  obtain ⟨t4, t5, t6⟩ := h'
  rw [t1] at t4
  simp only [List.append_assoc] at t4
  have t7 := List.append_cancel_left t4
  simp only [List.cons_append] at t7
  obtain ⟨a1, a2⟩ := split_at_space' t2 t5 t7
  obtain ⟨a3, a4⟩ := split_at_space' t3 t6 a2
  exact ⟨a1, a3, a4⟩

theorem encode_ascii_head {c : Char} {x : UInt8} {t u : Bytes} (hx : x.toNat < 128)
    (h : String.utf8EncodeChar c ++ t = x :: u) : c = Char.ofNat x.toNat ∧ t = u := by
  by_cases hc : c.toNat < 128
  · rw [utf8EncodeChar_ascii hc] at h
    simp only [List.cons_append, List.nil_append, List.cons.injEq] at h
    have : x.toNat = c.toNat := by rw [← h.1, UInt8.toNat_ofNat']; omega
    exact ⟨by rw [this, Char.ofNat_toNat], h.2⟩
  · have hne : String.utf8EncodeChar c ≠ [] := String.utf8EncodeChar_ne_nil
    cases he : String.utf8EncodeChar c with
    | nil => exact absurd he hne
    | cons y ys =>
      rw [he] at h
      simp only [List.cons_append, List.cons.injEq] at h
      have := utf8EncodeChar_ge (c := c) (by omega) y (by rw [he]; simp)
      rw [h.1] at this
      omega

/-- a text whose first line is a header line does not begin with CRLF -/
theorem first_line_not_crlf {ls : List Str} {hs : List (Str × Str)} {rest b : Bytes} (h1 : ls ≠ [])
    (h2 : ∀ l ∈ ls, ¬ Occurs l crlf) (h3 : HeaderLines ls hs)
    (h : utf8 (crlf.intercalate ls) ++ blankLine ++ rest = crlfB ++ b) : False := by
  cases h3 with
  | nil => exact h1 rfl
  | @cons l n v ls hs hl _ =>
    obtain ⟨ws, e1, e2, -⟩ := hl
    have hsplit : ∃ t, crlf.intercalate (l :: ls) = l ++ t := by
      cases ls with
      | nil => exact ⟨[], by simp [List.intercalate]⟩
      | cons l' ls => exact ⟨crlf ++ crlf.intercalate (l' :: ls), by rw [intercalate_cons_cons]; simp⟩
    obtain ⟨t, ht⟩ := hsplit
    match l, e1, ht with
    | [], e1, _ => simp at e1
    | [c], e1, _ =>
      cases n with
      | nil => exact e2 rfl
      | cons a n => simp at e1
    | c :: c' :: l', _, ht =>
      rw [ht] at h
      simp only [List.cons_append, utf8_cons, List.append_assoc, crlfB] at h
      obtain ⟨g1, h⟩ := encode_ascii_head (by decide) h
      obtain ⟨g2, h⟩ := encode_ascii_head (by decide) h
      exact h2 _ (List.mem_cons_self ..) ⟨0, [], l', by rw [g1, g2]; rfl, rfl⟩

/-- the lines of an answer with cookies, and the bytes sent -/
theorem cookies_lines (U : Unicode) (ord : MapOrder) (r : Response) (hw : Writable U r)
    (hc : r.cookies ≠ []) (hb : InMemory r) :
    ∃ ls, ls ≠ [] ∧
      sendData (r.getData U true ord) =
        utf8 (crlf.intercalate (r.statusText U :: ls)) ++ (crlfB ++ bodyBytes r) ∧
      HeaderLines ls (ord.enum r.headers ++ r.cookies.map fun c => (c!"Set-Cookie", c.toStr)) ∧
      ∀ x ∈ r.statusText U :: ls, '\r' ∉ x ∧ x ≠ [] := by
  obtain ⟨s1, s2, s3⟩ := statusText_good hw
  obtain ⟨l1, l2⟩ := headerLines_good (ord.enum r.headers)
    (fun k v hm => hw.headers k v ((ord.perm _).mem_iff.1 hm))
  obtain ⟨c1, c2⟩ := headerLines_good (r.cookies.map fun c => (c!"Set-Cookie", c.toStr)) (by
    intro k v hm
    obtain ⟨c, hcm, he⟩ := List.mem_map.1 hm
    injection he with h1 h2
    subst h1 h2
    exact ⟨by decide, by decide, by decide, (hw.cookies c hcm).1, (hw.cookies c hcm).2⟩)
  have e : (r.cookies.map fun c => (c!"Set-Cookie", c.toStr)).map headerLine =
      r.cookies.map Cookie.serialise := by
    rw [List.map_map]
    rfl
  rw [e] at c1 c2
  refine ⟨(ord.enum r.headers).map headerLine ++ r.cookies.map Cookie.serialise, by simpa using fun _ => hc,
    ?_, l1.append c1, ?_⟩
  · unfold sendData
    rw [getData_cookies U ord r hc, utf8_append, utf8_crlf, ← copy_inMemory hb, List.append_assoc]
    rfl
  · intro x hx
    rcases List.mem_cons.1 hx with rfl | hx
    · exact ⟨s2, s3⟩
    · rcases List.mem_append.1 hx with hx | hx
      · exact l2 x hx
      · exact c2 x hx

/-- With cookies, exactly what a client makes of the answer: it reads the status line, the headers and the
cookies, and goes on to read header lines in the body, up to the first blank line there. The header lines
in the body are headers of the answer to it, and what follows is the body. Without such lines it cannot
read the answer. -/
theorem C36_cookies_exact (U : Unicode) (ord : MapOrder) (r : Response) (hw : Writable U r)
    (hc : r.cookies ≠ []) (hb : InMemory r) (v : ClientView) :
    ClientParses (sendData (r.getData U true ord)) v ↔
      v.version = r.httpVersion ∧ IntNumeral r.statusCode.code v.code ∧
      v.reason = U.upperStr r.statusCode.toStr ∧
      ∃ more, v.headers = ord.enum r.headers ++ (r.cookies.map fun c => (c!"Set-Cookie", c.toStr)) ++ more ∧
        BeginsWithHeaders (bodyBytes r) more v.body := by
  obtain ⟨s1, s2, s3⟩ := statusText_good hw
  obtain ⟨ls, hne, e, hls, hgood⟩ := cookies_lines U ord r hw hc hb
  have hgood' : ∀ x ∈ r.statusText U :: ls, ¬ Occurs x crlf := fun x hx => no_crlf_of_no_cr (hgood x hx).1
  rw [e]
  constructor
  · rintro ⟨sl, lines, ⟨f1, f2⟩, hno, hst, hh⟩
    have ho : OccursAt (utf8 (crlf.intercalate (r.statusText U :: ls)) ++ (crlfB ++ bodyBytes r)) blankLine
        (utf8 (crlf.intercalate (sl :: lines))).length := ⟨_, v.body, f1, rfl⟩
    have hle := blank_not_in_lines _ _ hgood _ ho
    rw [List.append_assoc] at f1
    obtain ⟨x, hx1, hx2⟩ : ∃ x, utf8 (crlf.intercalate (sl :: lines)) =
        utf8 (crlf.intercalate (r.statusText U :: ls)) ++ x ∧
        crlfB ++ bodyBytes r = x ++ (blankLine ++ v.body) := by
      rcases List.append_eq_append_iff.1 f1 with ⟨z, h1, h2⟩ | ⟨z, h1, h2⟩
      · exact ⟨z, h1, h2⟩
      · have := congrArg List.length h1
        simp only [List.length_append] at this
        have hz : z = [] := List.length_eq_zero_iff.1 (by omega)
        subst hz
        exact ⟨[], by simpa using h1.symm, by simpa using h2.symm⟩
    match x, hx1, hx2 with
    | [], hx1, hx2 =>
      rw [List.append_nil] at hx1
      have hl := lines_inj (by simp) (by simp) hno hgood' (utf8_injective hx1)
      injection hl with h1 h2
      subst h1 h2
      obtain ⟨a1, a2, a3⟩ := statusLine_unique hst s1
      refine ⟨a1, by rw [a2]; exact showInt_numeral _, a3, [], ?_, .inl ⟨rfl, ?_⟩⟩
      · rw [List.append_nil]; exact HeaderLines.unique hh hls
      · have : crlfB ++ bodyBytes r = crlfB ++ (crlfB ++ v.body) := by
          rw [hx2]; simp [blankLine, crlfB]
        exact List.append_cancel_left this
    | [y], hx1, hx2 =>
      simp [crlfB, blankLine] at hx2
    | y :: y' :: x, hx1, hx2 =>
      have hy : y = 13 ∧ y' = 10 ∧ bodyBytes r = x ++ (blankLine ++ v.body) := by
        simp [crlfB] at hx2
        exact ⟨hx2.1.symm, hx2.2.1.symm, hx2.2.2⟩
      obtain ⟨rfl, rfl, hbody⟩ := hy
      obtain ⟨t1, t2, e1, e2, e3⟩ := utf8_split_ascii (by decide) hx1
      have ht1 := utf8_injective e2
      obtain ⟨t3, t4, e4, e5, e6⟩ := utf8_split_ascii (a := []) (by decide) e3
      have ht3 : t3 = [] := utf8_injective e5
      subst ht3
      obtain ⟨ls', n1, n2, n3⟩ := exists_lines t4
      have hall : crlf.intercalate (sl :: lines) = crlf.intercalate ((r.statusText U :: ls) ++ ls') := by
        rw [intercalate_append _ (by simp) n1, ← n2, e1, ht1, e4]
        simp [crlf]
      have hl := lines_inj (by simp) (by simp) hno (by
        intro l hl
        rcases List.mem_append.1 hl with h | h
        · exact hgood' l h
        · exact n3 l h) hall
      injection hl with h1 h2
      have h2 : lines = ls ++ ls' := h2
      subst h1 h2
      obtain ⟨a1, a2, a3⟩ := statusLine_unique hst s1
      obtain ⟨g1, g2, g3, g4, g5⟩ := hh.of_append
      refine ⟨a1, by rw [a2]; exact showInt_numeral _, a3, g2, ?_, .inr ⟨ls', n1, ⟨?_, ?_⟩, n3, g5⟩⟩
      · rw [g3, HeaderLines.unique g4 hls]
      · rw [hbody, ← n2, e6, List.append_assoc]
      · rintro j hj ⟨a, b, h1, h2⟩
        rw [← n2, e6] at hj
        refine f2 ((utf8 (crlf.intercalate (r.statusText U :: ls)) ++ crlfB ++ a).length) ?_
          ⟨utf8 (crlf.intercalate (r.statusText U :: ls)) ++ crlfB ++ a, b, ?_, rfl⟩
        · rw [hx1]
          simp only [List.length_append, List.length_cons]
          have : crlfB.length = 2 := rfl
          omega
        · rw [h1]; simp
  · rintro ⟨h1, h2, h3, more, h4, h5⟩
    have hst : StatusLine (r.statusText U) v.version v.code v.reason := by
      rw [h1, h2.eq, h3]; exact s1
    rcases h5 with ⟨rfl, hbody⟩ | ⟨ls', n1, ⟨f1, f2⟩, n3, n4⟩
    · refine ⟨r.statusText U, ls, ?_, hgood', hst, by rw [h4, List.append_nil]; exact hls⟩
      have := firstSplit_lines _ _ hgood v.body
      rw [List.append_assoc] at this
      rw [hbody]
      exact this
    · refine ⟨r.statusText U, ls ++ ls', ⟨?_, ?_⟩, ?_, hst, by rw [h4]; exact hls.append n4⟩
      · rw [← List.cons_append, intercalate_append _ (by simp) n1, utf8_append, utf8_append, utf8_crlf, f1]
        simp
      · intro j hj ho
        have hle := blank_not_in_lines _ _ hgood _ ho
        rw [← List.cons_append, intercalate_append _ (by simp) n1, utf8_append, utf8_append, utf8_crlf] at hj
        obtain ⟨a, b, g1, g2⟩ := ho
        obtain ⟨d, hd1, hd2⟩ : ∃ d, a = utf8 (crlf.intercalate (r.statusText U :: ls)) ++ d ∧
            crlfB ++ bodyBytes r = d ++ (blankLine ++ b) := by
          rw [List.append_assoc] at g1
          rcases List.append_eq_append_iff.1 g1 with ⟨z, h1, h2⟩ | ⟨z, h1, h2⟩
          · exact ⟨z, h1, h2⟩
          · have := congrArg List.length h1
            simp only [List.length_append] at this
            have hz : z = [] := List.length_eq_zero_iff.1 (by omega)
            subst hz
            exact ⟨[], by simpa using h1.symm, by simpa using h2.symm⟩
        match d, hd1, hd2 with
        | [], hd1, hd2 =>
          -- the body would begin with CRLF, but its first line is a header line
          have hb' : bodyBytes r = crlfB ++ b := by
            have : crlfB ++ bodyBytes r = crlfB ++ (crlfB ++ b) := by
              rw [hd2]; simp [blankLine, crlfB]
            exact List.append_cancel_left this
          exact first_line_not_crlf n1 n3 n4 (rest := v.body) (by rw [← f1, hb'])
        | [y], hd1, hd2 => simp [crlfB, blankLine] at hd2
        | y :: y' :: d, hd1, hd2 =>
          have hy : y = 13 ∧ y' = 10 ∧ bodyBytes r = d ++ (blankLine ++ b) := by
            simp [crlfB] at hd2
            exact ⟨hd2.1.symm, hd2.2.1.symm, hd2.2.2⟩
          obtain ⟨rfl, rfl, hbody⟩ := hy
          refine f2 d.length ?_ ⟨d, b, by rw [hbody, List.append_assoc], rfl⟩
          rw [← g2, hd1] at hj
          simp only [List.length_append, List.length_cons] at hj
          have : crlfB.length = 2 := rfl
          omega
      · intro l hl
        rw [← List.cons_append] at hl
        rcases List.mem_append.1 hl with h | h
        · exact hgood' l h
        · exact n3 l h

/-- Whether a client can read an answer with cookies at all depends on nothing but the body. -/
theorem C36_cookies_readable (U : Unicode) (ord : MapOrder) (r : Response) (hw : Writable U r)
    (hc : r.cookies ≠ []) (hb : InMemory r) :
    (∃ v, ClientParses (sendData (r.getData U true ord)) v) ↔
      ∃ hs rest, BeginsWithHeaders (bodyBytes r) hs rest := by
  constructor
  · rintro ⟨v, hv⟩
    obtain ⟨-, -, -, more, -, h⟩ := (C36_cookies_exact U ord r hw hc hb v).1 hv
    exact ⟨more, v.body, h⟩
  · rintro ⟨hs, rest, h⟩
    exact ⟨⟨r.httpVersion, showInt r.statusCode.code, U.upperStr r.statusCode.toStr, _, rest⟩,
      (C36_cookies_exact U ord r hw hc hb _).2 ⟨rfl, showInt_numeral _, rfl, hs, rfl, h⟩⟩

/-- So a client that can read the answer sees every cookie a handler has set, and every header. -/
theorem C36_set_cookie (U : Unicode) (ord : MapOrder) (r : Response) (c : Cookie) (hw : Writable U (r.cookie c))
    (hb : InMemory r) (v : ClientView) (hv : ClientParses (sendData ((r.cookie c).getData U true ord)) v) :
    (c!"Set-Cookie", c.toStr) ∈ v.headers ∧ (∀ d ∈ r.cookies, (c!"Set-Cookie", d.toStr) ∈ v.headers) ∧
      ∀ k x, r.get k = some x → (k, x) ∈ v.headers := by
  obtain ⟨-, -, -, more, h, -⟩ := (C36_cookies_exact U ord (r.cookie c) hw (by simp [Response.cookie]) hb v).1 hv
  rw [h]
  refine ⟨?_, fun d hd => ?_, fun k x hk => ?_⟩
  · simp [Response.cookie]
  · simp only [List.mem_append, List.mem_map, Response.cookie]
    exact .inl (.inr ⟨d, .inl hd, rfl⟩)
  · simp only [List.mem_append]
    exact .inl (.inl ((ord.perm _).mem_iff.2 (HMap.mem_of_get hk)))

namespace CookieHeadExample

/-- a response with a cookie whose body begins with something like a header -/
def r : Response :=
  { Response.newFromSlice (utf8 c!"B:c\r\n\r\nhi") with cookies := [⟨c!"a", c!"b", []⟩] }

theorem writable : Writable Unicode.asciiOnly r :=
  ⟨C36_example_writable.version, C36_example_writable.phrase, C36_example_writable.headers,
    C36_example_writable.cookies⟩

theorem inMemory : InMemory r := by
  intro b hb
  exact absurd hb (by simp [r, Response.newFromSlice, ResBody.getReader])

theorem begins : BeginsWithHeaders (bodyBytes r) [(c!"B", c!"c")] (utf8 c!"hi") := by
  have h : ∀ l ∈ [c!"B:c"], '\r' ∉ l ∧ l ≠ [] := by decide
  exact .inr ⟨[c!"B:c"], by simp, firstSplit_lines c!"B:c" [] h (utf8 c!"hi"), fun l hl => no_crlf_of_no_cr (h l hl).1,
    .cons ⟨[], by decide, by decide, by decide, by decide, by decide, by simp⟩ .nil⟩

/-- the client sees the header `B`, and `hi` for the body -/
example : ClientParses (sendData (r.getData Unicode.asciiOnly true MapOrder.id))
    ⟨c!"1.1", c!"200", c!"OK", [(c!"Set-Cookie", c!"a=b"), (c!"B", c!"c")], utf8 c!"hi"⟩ :=
  (C36_cookies_exact _ _ _ writable (by decide) inMemory _).2
    ⟨rfl, (show showInt r.statusCode.code = c!"200" by decide +kernel) ▸ showInt_numeral _, by decide +kernel, [(c!"B", c!"c")], by decide +kernel, begins⟩

example : ∃ v, ClientParses (sendData (r.getData Unicode.asciiOnly true MapOrder.id)) v :=
  (C36_cookies_readable _ _ _ writable (by decide) inMemory).2 ⟨_, _, begins⟩

/-- the cookie of the example is one a client reads -/
example (v : ClientView) (hv : ClientParses (sendData (r.getData Unicode.asciiOnly true MapOrder.id)) v) :
    (c!"Set-Cookie", Cookie.toStr ⟨c!"a", c!"b", []⟩) ∈ v.headers :=
  (C36_set_cookie Unicode.asciiOnly MapOrder.id (Response.newFromSlice (utf8 c!"B:c\r\n\r\nhi")) ⟨c!"a", c!"b", []⟩
    writable inMemory v hv).1

end CookieHeadExample

end Octane
