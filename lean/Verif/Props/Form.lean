import Verif.Proof.Infix
import Verif.Props.ExtQuery
/-
C129: what becomes of a form that a browser sends with GET.
-/
namespace Octane
open Spec Query

namespace Spec

/-- the bytes a form leaves as they are: letters, digits, `*`, `-`, `.`, `_` -/
def formSafe (b : UInt8) : Bool :=
  (48 ≤ b && b ≤ 57) || (65 ≤ b && b ≤ 90) || (97 ≤ b && b ≤ 122) || b == 42 || b == 45 || b == 46 || b == 95

/-- how a browser writes one byte of a field (`application/x-www-form-urlencoded` of the URL standard) -/
def formByte (b : UInt8) : Str :=
  if b = 32 then ['+']
  else if formSafe b then [Char.ofNat b.toNat]
  else ['%', hexDigit (b.toNat / 16), hexDigit (b.toNat % 16)]

/-- how it writes a text: byte by byte -/
def formText (s : Str) : Str := (utf8 s).flatMap formByte

/-- how it writes a field, name and value -/
def formField (f : Str × Str) : Str := formText f.1 ++ '=' :: formText f.2

/-- how a text arrives: every byte of it is a character, and spaces are plus signs -/
def arrives (s : Str) : Str := (utf8 s).map fun b => if b = 32 then '+' else Char.ofNat b.toNat

/-- the fields as they arrive: the path stands before the first name, and a slash after the last value -/
def seenFields (dir p : Str) : List (Str × Str) → List (Str × Str)
  | [] => []
  | [f] => [(dir ++ p ++ '?' :: arrives f.1, arrives f.2 ++ ['/'])]
  | f :: g :: fs =>
    (dir ++ p ++ '?' :: arrives f.1, arrives f.2) ::
      ((g :: fs).dropLast.map (fun h => (arrives h.1, arrives h.2)) ++
        ((g :: fs).drop fs.length).map fun h => (arrives h.1, arrives h.2 ++ ['/']))

end Spec

/-- The full claim of C129: the handlers see the fields of the form, for each name the last value. -/
def C129_statement : Prop :=
  ∀ (feat : Features) (allocOk : Nat → Bool) (q : WireReq) (s : Sock) (ps : List Str) (p : Str)
    (fields : List (Str × Str)),
    q.Good → s.bytes = q.bytes → (∀ k, allocOk k = true) → q.body.length ≤ i64Max →
    q.pieces = ps ++ [p ++ '?' :: ['&'].intercalate (fields.map formField)] → fields ≠ [] →
    (∀ f ∈ fields, f.1 ≠ []) → ∀ req, Reads feat allocOk s req →
    ∃ m, req.getQuery feat = .ok m ∧ ∀ k, m.get k = lastValue k fields

/-! ### the encoding -/

theorem Spec.Encodes.append {a b x y : Str} (h : Encodes a x) (h' : Encodes b y) : Encodes (a ++ b) (x ++ y) := by
  induction h with
  | nil => exact h'
  | lit hc _ ih => exact .lit hc ih
  | pct ha hb hc _ ih => exact .pct ha hb hc ih

theorem encodes_lit {a : Str} (h : '%' ∉ a) : Encodes a a := by
  induction a with
  | nil => exact .nil
  | cons c a ih =>
    simp only [List.mem_cons, not_or] at h
    exact .lit (Ne.symm h.1) (ih h.2)

theorem byte_cases (P : UInt8 → Prop) (h : ∀ n : Fin 256, P (UInt8.ofNat n.val)) (b : UInt8) : P b := by
  have := h ⟨b.toNat, b.toNat_lt⟩
  rwa [UInt8.ofNat_toNat] at this

/-- what a browser makes of one byte has no character that means something in a target -/
theorem formByte_clean (b : UInt8) : ∀ c ∈ formByte b, c ∉ c!"&=/? \r\n" :=
  byte_cases (fun b => ∀ c ∈ formByte b, c ∉ c!"&=/? \r\n") (by decide +kernel) b

theorem formSafe_percent (b : UInt8) : formSafe b = true → Char.ofNat b.toNat ≠ '%' :=
  byte_cases (fun b => formSafe b = true → Char.ofNat b.toNat ≠ '%') (by decide +kernel) b

theorem formText_clean (s : Str) : ∀ c ∈ formText s, c ∉ c!"&=/? \r\n" := by
  intro c hc
  obtain ⟨b, -, h⟩ := List.mem_flatMap.1 hc
  exact formByte_clean b c h

theorem formByte_encodes (b : UInt8) :
    Encodes [if b = 32 then '+' else Char.ofNat b.toNat] (formByte b) := by
  unfold formByte
  by_cases h : b = 32
  · rw [if_pos h, if_pos h]; exact .lit (by decide) .nil
  · rw [if_neg h, if_neg h]
    by_cases h2 : formSafe b = true
    · rw [if_pos h2]; exact .lit (formSafe_percent b h2) .nil
    · rw [if_neg h2]
      have hx : b.toNat < 256 := b.toNat_lt
      refine .pct (hexVal_hexDigit _ (show b.toNat / 16 < 16 by omega))
        (hexVal_hexDigit _ (show b.toNat % 16 < 16 by omega)) ?_ .nil
      have hv : Nat.isValidChar b.toNat := Or.inl (by omega)
      rw [show (Char.ofNat b.toNat).toNat = b.toNat by
        unfold Char.ofNat; rw [dif_pos hv]; rfl]
      omega

theorem formText_encodes (s : Str) : Encodes (arrives s) (formText s) := by
  unfold arrives formText
  induction utf8 s with
  | nil => exact .nil
  | cons b bs ih =>
    rw [List.map_cons, List.flatMap_cons]
    exact (formByte_encodes b).append ih

theorem takeWhile_eq {a b : Str} (h : '=' ∉ a) : (a ++ '=' :: b).takeWhile (· != '=') = a := by
  induction a with
  | nil => simp
  | cons c a ih =>
    simp only [List.mem_cons, not_or] at h
    have hc : (c != '=') = true := bne_iff_ne.2 (Ne.symm h.1)
    rw [List.cons_append, List.takeWhile_cons, if_pos hc, ih h.2]

theorem dropWhile_eq {a b : Str} (h : '=' ∉ a) : (a ++ '=' :: b).dropWhile (· != '=') = '=' :: b := by
  induction a with
  | nil => simp
  | cons c a ih =>
    simp only [List.mem_cons, not_or] at h
    have hc : (c != '=') = true := bne_iff_ne.2 (Ne.symm h.1)
    rw [List.cons_append, List.dropWhile_cons, if_pos hc, ih h.2]

/-- the pair a field stands for, with something before it and something after it -/
theorem pairOf_field (faithful : Bool) (a z : Str) (f : Str × Str) (ha : '%' ∉ a ∧ '=' ∉ a) (hz : '%' ∉ z)
    (hne : f.1 ≠ []) :
    pairOf faithful (a ++ formField f ++ z) = some (a ++ arrives f.1, arrives f.2 ++ z) := by
  have e : a ++ formField f ++ z = (a ++ formText f.1) ++ '=' :: (formText f.2 ++ z) := by
    simp [formField]
  have hq : '=' ∉ a ++ formText f.1 := by
    intro h
    rcases List.mem_append.1 h with h | h
    · exact ha.2 h
    · exact formText_clean _ _ h (by decide)
  have hn : a ++ formText f.1 ≠ [] := by
    intro h
    have h2 := (List.append_eq_nil_iff.1 h).2
    have h3 := formText_encodes f.1
    rw [h2] at h3
    have h4 : arrives f.1 = [] := by
      cases h5 : arrives f.1 with
      | nil => rfl
      | cons c s => rw [h5] at h3; cases h3
    unfold arrives at h4
    have h6 : utf8 f.1 = utf8 [] := List.map_eq_nil_iff.1 h4
    exact hne (utf8_injective h6)
  rw [e]
  unfold pairOf
  simp only [takeWhile_eq hq, dropWhile_eq hq]
  rw [if_neg (by simp [hn])]
  simp only [List.drop_succ_cons, List.drop_zero]
  rw [decode_encodes ((encodes_lit ha.1).append (formText_encodes f.1)),
    decode_encodes ((formText_encodes f.2).append (encodes_lit hz))]

theorem formField_amp (f : Str × Str) : '&' ∉ formField f := by
  unfold formField
  intro h
  rcases List.mem_append.1 h with h | h
  · exact formText_clean _ _ h (by decide)
  · rcases List.mem_cons.1 h with h | h
    · exact absurd h (by decide)
    · exact formText_clean _ _ h (by decide)

theorem pairOf_fields (faithful : Bool) (l : List (Str × Str)) (h : ∀ f ∈ l, f.1 ≠ []) :
    (l.map formField).filterMap (pairOf faithful) = l.map fun f => (arrives f.1, arrives f.2) := by
  induction l with
  | nil => rfl
  | cons f l ih =>
    have := pairOf_field faithful [] [] f (by simp) (by simp) (h f (by simp))
    simp only [List.nil_append, List.append_nil] at this
    rw [List.map_cons, List.filterMap_cons, this, List.map_cons, ih (fun g hg => h g (by simp [hg]))]

theorem seenFields_snoc (dir p : Str) (f l : Str × Str) (mid : List (Str × Str)) :
    seenFields dir p (f :: mid ++ [l]) = (dir ++ p ++ '?' :: arrives f.1, arrives f.2) ::
      (mid.map (fun h => (arrives h.1, arrives h.2)) ++ [(arrives l.1, arrives l.2 ++ ['/'])]) := by
  cases mid with
  | nil => rfl
  | cons g mid =>
    simp only [List.cons_append, seenFields]
    rw [show g :: (mid ++ [l]) = (g :: mid) ++ [l] from rfl, List.dropLast_concat]
    have : (g :: mid ++ [l]).drop (mid ++ [l]).length = [l] := by
      rw [show (mid ++ [l]).length = (g :: mid).length by simp, List.drop_left]
    rw [this]
    rfl

theorem snoc_cases {T : Type u} (l : List T) (h : l ≠ []) : (∃ f, l = [f]) ∨ ∃ f mid z, l = f :: mid ++ [z] := by
  match l, h with
  | [f], _ => exact .inl ⟨f, rfl⟩
  | f :: g :: fs, _ =>
    exact .inr ⟨f, (g :: fs).dropLast, (g :: fs).getLast (by simp), by
      rw [List.cons_append, List.dropLast_concat_getLast]⟩

theorem pairOf_seen (faithful : Bool) (dir p : Str) (hd : '%' ∉ dir ∧ '=' ∉ dir) (hp : '%' ∉ p ∧ '=' ∉ p)
    (fields : List (Str × Str)) (hne : fields ≠ []) (hn : ∀ f ∈ fields, f.1 ≠ []) :
    (seenTokens dir p (fields.map formField)).filterMap (pairOf faithful) = seenFields dir p fields := by
  have ha : '%' ∉ dir ++ p ++ ['?'] ∧ '=' ∉ dir ++ p ++ ['?'] := by
    simp [hd.1, hd.2, hp.1, hp.2]
  rcases snoc_cases fields hne with ⟨f, rfl⟩ | ⟨f, mid, z, rfl⟩
  · have := pairOf_field faithful (dir ++ p ++ ['?']) ['/'] f ha (by decide) (hn f (by simp))
    simp only [List.append_assoc, List.cons_append, List.nil_append] at this
    simp [seenTokens, seenFields, this]
  · have h1 := pairOf_field faithful (dir ++ p ++ ['?']) [] f ha (by decide) (hn f (by simp))
    have h2 := pairOf_field faithful [] ['/'] z (by simp) (by decide) (hn z (by simp))
    have h3 := pairOf_fields faithful mid (fun g hg => hn g (by simp [hg]))
    have hseen : seenTokens dir p ((f :: mid ++ [z]).map formField) =
        (dir ++ p ++ '?' :: formField f) :: (mid.map formField ++ [formField z ++ ['/']]) := by
      cases mid with
      | nil => rfl
      | cons b mid =>
        simp only [List.cons_append, List.map_cons, List.map_append, List.map_nil, seenTokens]
        congr 1
        rw [show formField b :: (mid.map formField ++ [formField z]) =
          (formField b :: mid.map formField) ++ [formField z] from rfl, List.getLastD_concat, List.dropLast_concat]
        rfl
    simp only [List.append_assoc, List.cons_append, List.nil_append, List.append_nil] at h1 h2
    rw [hseen, seenFields_snoc, List.filterMap_cons]
    simp only [List.append_assoc] at h1 ⊢
    rw [h1]
    simp only [List.filterMap_append, h3, List.filterMap_cons, h2, List.filterMap_nil]

/-- C129, exactly what arrives of a form sent to a path without `%`, `&` and `=`. -/
theorem C129_exact (feat : Features) (allocOk : Nat → Bool) (q : WireReq) (s : Sock) (ps : List Str) (p : Str)
    (fields : List (Str × Str)) (hq : q.Good) (hb : s.bytes = q.bytes) (halloc : ∀ k, allocOk k = true)
    (hmax : q.body.length ≤ i64Max)
    (hp : q.pieces = ps ++ [p ++ '?' :: ['&'].intercalate (fields.map formField)]) (hne : fields ≠ [])
    (hn : ∀ f ∈ fields, f.1 ≠ []) (hpa : ∀ x ∈ p :: ps, '&' ∉ x ∧ '%' ∉ x ∧ '=' ∉ x) (req : Request)
    (hr : Reads feat allocOk s req) :
    ∃ m, req.getQuery feat = .ok m ∧ ∀ k, m.get k = lastValue k
      (seenFields ((resolve ps).flatMap fun x => x ++ ['/']) p fields) := by
  obtain ⟨m, h1, -, h2⟩ := C21_exact feat allocOk q s ps p (fields.map formField) hq hb halloc hmax hp
    (by simpa using hne) (by
      intro t ht
      obtain ⟨f, -, rfl⟩ := List.mem_map.1 ht
      exact formField_amp f) (fun x hx => (hpa x hx).1) req hr
  refine ⟨m, h1, fun k => ?_⟩
  rw [h2 k, pairOf_seen feat.faithful _ p ?_ (hpa p (by simp)).2 fields hne hn]
  have hres : ∀ x ∈ resolve ps, x ∈ ps := fun x hx => resolve_mem ps x hx
  constructor
  · intro h
    obtain ⟨x, hx, h⟩ := List.mem_flatMap.1 h
    rcases List.mem_append.1 h with h | h
    · exact (hpa x (by simp [hres x hx])).2.1 h
    · exact absurd h (by decide)
  · intro h
    obtain ⟨x, hx, h⟩ := List.mem_flatMap.1 h
    rcases List.mem_append.1 h with h | h
    · exact (hpa x (by simp [hres x hx])).2.2 h
    · exact absurd h (by decide)

/-- Exactly which texts arrive as they were written. -/
theorem C129_arrives_iff (s : Str) : arrives s = s ↔ ∀ c ∈ s, c.toNat < 128 ∧ c ≠ ' ' := by
  unfold arrives
  constructor
  · intro h
    induction s with
    | nil => simp
    | cons c s ih =>
      have hu : utf8 (c :: s) = String.utf8EncodeChar c ++ utf8 s := rfl
      rw [hu, List.map_append] at h
      by_cases hc : c.toNat < 128
      · rw [utf8EncodeChar_ascii hc] at h
        simp only [List.map_cons, List.map_nil, List.cons_append, List.nil_append, List.cons.injEq] at h
        intro d hd
        rcases List.mem_cons.1 hd with rfl | hd
        · refine ⟨hc, ?_⟩
          rintro rfl
          exact absurd h.1 (by decide)
        · exact ih h.2 d hd
      · exfalso
        have hlen := congrArg List.length h
        simp only [List.length_append, List.length_map, List.length_cons,
          String.length_utf8EncodeChar] at hlen
        have h1 := utf8EncodeChar_length_ge (Nat.le_of_not_lt hc)
        have h2 := length_le_utf8 s
        rw [String.length_utf8EncodeChar] at h1
        omega
  · intro h
    induction s with
    | nil => rfl
    | cons c s ih =>
      have hu : utf8 (c :: s) = String.utf8EncodeChar c ++ utf8 s := rfl
      have hc := h c (by simp)
      rw [hu, utf8EncodeChar_ascii hc.1, List.cons_append, List.nil_append, List.map_cons,
        ih (fun d hd => h d (by simp [hd]))]
      congr 1
      have hne : UInt8.ofNat c.toNat ≠ 32 := by
        intro e
        apply hc.2
        have e2 := congrArg UInt8.toNat e
        rw [UInt8.toNat_ofNat'] at e2
        have e3 : c.toNat = 32 := by
          have : (32 : UInt8).toNat = 32 := rfl
          omega
        rw [← Char.ofNat_toNat c, e3]
      rw [if_neg hne, UInt8.toNat_ofNat', Nat.mod_eq_of_lt (by omega), Char.ofNat_toNat]

theorem lastValue_cons_ne {k : Str} {f : Str × Str} (l : List (Str × Str)) (h : f.1 ≠ k) :
    lastValue k (f :: l) = lastValue k l := by
  unfold lastValue
  rw [List.filter_cons, if_neg (by simpa using h)]

theorem lastValue_snoc_ne {k : Str} {f : Str × Str} (l : List (Str × Str)) (h : f.1 ≠ k) :
    lastValue k (l ++ [f]) = lastValue k l := by
  unfold lastValue
  rw [List.filter_append, List.filter_cons, if_neg (by simpa using h), List.filter_nil, List.append_nil]

/-- What holds of C129: the fields between the first and the last arrive, if their names and values are
ASCII without spaces. Missing: the first and the last field, spaces, and everything that is not ASCII
(`C129_exact`, `C129_arrives_iff`). -/
theorem C129_inner_partial (feat : Features) (allocOk : Nat → Bool) (q : WireReq) (s : Sock) (ps : List Str) (p : Str)
    (first last : Str × Str) (mid : List (Str × Str)) (hq : q.Good) (hb : s.bytes = q.bytes)
    (halloc : ∀ k, allocOk k = true) (hmax : q.body.length ≤ i64Max)
    (hp : q.pieces = ps ++ [p ++ '?' :: ['&'].intercalate ((first :: mid ++ [last]).map formField)])
    (hn : ∀ f ∈ first :: mid ++ [last], f.1 ≠ []) (hpa : ∀ x ∈ p :: ps, '&' ∉ x ∧ '%' ∉ x ∧ '=' ∉ x)
    (hplain : ∀ f ∈ mid, (∀ c ∈ f.1, c.toNat < 128 ∧ c ≠ ' ') ∧ ∀ c ∈ f.2, c.toNat < 128 ∧ c ≠ ' ')
    (req : Request) (hr : Reads feat allocOk s req) :
    ∃ m, req.getQuery feat = .ok m ∧ ∀ k, '?' ∉ k → arrives last.1 ≠ k → m.get k = lastValue k mid := by
  obtain ⟨m, h1, h2⟩ := C129_exact feat allocOk q s ps p (first :: mid ++ [last]) hq hb halloc hmax hp (by simp) hn
    hpa req hr
  refine ⟨m, h1, fun k hk hl => ?_⟩
  rw [h2 k, seenFields_snoc, lastValue_cons_ne _ (by rintro rfl; exact hk (by simp)), lastValue_snoc_ne _ hl]
  congr 1
  conv => rhs; rw [← List.map_id mid]
  refine List.map_congr_left fun f hf => ?_
  rw [(C129_arrives_iff _).2 (hplain f hf).1, (C129_arrives_iff _).2 (hplain f hf).2]
  rfl

namespace FormExample
open TargetExample

def fields : List (Str × Str) :=
  [(c!"a", c!"1"), (c!"b", c!"x&y"), (c!"c", c!"x y"), (c!"d", c!"é"), (c!"e", c!"2")]

def target : Str := c!"p?a=1&b=x%26y&c=x+y&d=%C3%A9&e=2"

theorem target_eq : c!"p" ++ '?' :: ['&'].intercalate (fields.map formField) = target := by decide +kernel

theorem good' : (q [target]).Good := good [target] (by decide +kernel) (by decide +kernel)

theorem reads : ∃ req, Reads .default (fun _ => true) (sock [target]) req := by
  obtain ⟨req, h1, -⟩ :=
    reads_wire .default (fun _ => true) _ good' (sock [target]) [] (by simp [sock_bytes]) (.inl rfl)
      (fun k _ => rfl) (by decide)
  exact ⟨req, h1⟩

/-- of five fields only the second arrives -/
theorem seen : ∃ req m, Reads .default (fun _ => true) (sock [target]) req ∧ req.getQuery .default = .ok m ∧
    m.get c!"a" = none ∧ m.get c!"p?a" = some c!"1" ∧ m.get c!"b" = some c!"x&y" ∧ m.get c!"c" = some c!"x+y" ∧
    m.get c!"d" = some c!"Ã©" ∧ m.get c!"e" = some c!"2/" := by
  obtain ⟨req, h1⟩ := reads
  obtain ⟨m, e1, e2⟩ := C129_exact .default (fun _ => true) _ (sock [target]) [[]] c!"p" fields good' (sock_bytes _)
    (fun _ => rfl) (by decide) (by rw [target_eq]; rfl) (by simp [fields]) (by decide) (by decide) req h1
  refine ⟨req, m, h1, e1, ?_, ?_, ?_, ?_, ?_, ?_⟩ <;> rw [e2] <;> decide +kernel

/-- the second field arrives -/
example : ∃ req m, Reads .default (fun _ => true) (sock [c!"p?a=1&b=x%26y&c=2"]) req ∧ req.getQuery .default = .ok m ∧
    m.get c!"b" = some c!"x&y" := by
  have hg := good [c!"p?a=1&b=x%26y&c=2"] (by decide) (by decide)
  obtain ⟨req, h1, -⟩ :=
    reads_wire .default (fun _ => true) _ hg (sock [c!"p?a=1&b=x%26y&c=2"]) [] (by simp [sock_bytes]) (.inl rfl)
      (fun k _ => rfl) (by decide)
  have ht : c!"p" ++ '?' :: ['&'].intercalate (((c!"a", c!"1") :: [(c!"b", c!"x&y")] ++ [(c!"c", c!"2")]).map formField) =
      c!"p?a=1&b=x%26y&c=2" := by decide +kernel
  obtain ⟨m, e1, e2⟩ := C129_inner_partial .default (fun _ => true) _ (sock [c!"p?a=1&b=x%26y&c=2"]) [[]] c!"p"
    (c!"a", c!"1") (c!"c", c!"2") [(c!"b", c!"x&y")] hg (sock_bytes _) (fun _ => rfl) (by decide) (by rw [ht]; rfl)
    (by decide) (by decide) (by decide) req h1
  exact ⟨req, m, h1, e1, (e2 c!"b" (by decide) (by decide +kernel)).trans (by decide +kernel)⟩

example : arrives c!"a-b" = c!"a-b" := (C129_arrives_iff _).2 (by decide)

end FormExample

open FormExample TargetExample in
/-- C129 is false of the code. -/
theorem C129_counterexample : ¬ C129_statement := by
  intro h
  obtain ⟨req, m, h1, h2, h3, -⟩ := seen
  obtain ⟨m', e1, e2⟩ := h .default (fun _ => true) _ (sock [target]) [[]] c!"p" fields good' (sock_bytes _)
    (fun _ => rfl) (by decide) (by rw [target_eq]; rfl) (by simp [fields]) (by decide) req h1
  rw [h2] at e1
  simp only [Res.ok.injEq] at e1
  subst e1
  rw [e2] at h3
  exact absurd h3 (by decide +kernel)

end Octane
