import Verif.Props.Jar
/-
C142: cookies on several Cookie lines.
-/
namespace Octane
open Spec

namespace Spec

/-- two lists of cookies whose lines are joined by a comma: the last cookie of the first list takes the
first cookie of the second into its value -/
def glue : List (Str × Str) → List (Str × Str) → List (Str × Str)
  | [], b => b
  | [x], [] => [x]
  | [x], y :: b => (x.1, x.2 ++ c!", " ++ y.1 ++ c!"=" ++ y.2) :: b
  | x :: x' :: a, b => x :: glue (x' :: a) b

/-- the cookies of several lines joined by commas -/
def spliced (lines : List (List (Str × Str))) : List (Str × Str) := lines.foldr glue []

/-- the request has Cookie lines (the name in any case) with these values, in this order -/
def CookieLines (headers : List (Str × Str)) (values : List Str) : Prop :=
  (headers.filter fun h => lowered h.1 = c!"cookie").map (·.2) = values

end Spec

theorem glue_nil_right (a : List (Str × Str)) : glue a [] = a := by
  induction a with
  | nil => rfl
  | cons x a ih => cases a with
    | nil => rfl
    | cons y a => rw [glue, ih]

theorem glue_header (a b : List (Str × Str)) (ha : a ≠ []) (hb : b ≠ []) :
    cookieHeader (glue a b) = cookieHeader a ++ c!", " ++ cookieHeader b := by
  induction a with
  | nil => exact absurd rfl ha
  | cons x a ih =>
    cases a with
    | nil =>
      cases b with
      | nil => exact absurd rfl hb
      | cons y b =>
        cases b with
        | nil => simp [glue, cookieHeader, List.intercalate, cookiePair]
        | cons z b =>
          simp only [glue, cookieHeader, List.map_cons, List.map_nil, intercalate_cons_cons]
          simp [List.intercalate, cookiePair]
    | cons x' a =>
      have hne : glue (x' :: a) b ≠ [] := by
        cases a <;> cases b <;> simp [glue]
      have hc : ∀ (x : Str × Str) (l : List (Str × Str)), l ≠ [] →
          cookieHeader (x :: l) = cookiePair x ++ c!"; " ++ cookieHeader l := by
        intro x l hl
        cases l with
        | nil => exact absurd rfl hl
        | cons y l => simp only [cookieHeader, List.map_cons, intercalate_cons_cons]
      rw [glue, hc _ _ hne, ih (by simp), hc x (x' :: a) (by simp)]
      simp

theorem glue_ne_nil {a b : List (Str × Str)} (ha : a ≠ []) : glue a b ≠ [] := by
  match a, b, ha with
  | [x], [], _ => simp [glue]
  | [x], y :: b, _ => simp [glue]
  | x :: x' :: a, b, _ => simp [glue]

theorem glue_length (a b : List (Str × Str)) (ha : a ≠ []) (hb : b ≠ []) :
    (glue a b).length + 1 = a.length + b.length := by
  induction a with
  | nil => exact absurd rfl ha
  | cons x a ih =>
    cases a with
    | nil =>
      cases b with
      | nil => exact absurd rfl hb
      | cons y b => simp [glue]; omega
    | cons x' a =>
      have := ih (by simp)
      simp only [glue, List.length_cons] at *
      omega

theorem spliced_ne_nil {lines : List (List (Str × Str))} (h : lines ≠ []) (hne : ∀ l ∈ lines, l ≠ []) :
    spliced lines ≠ [] := by
  cases lines with
  | nil => exact absurd rfl h
  | cons l ls => exact glue_ne_nil (hne l (by simp))

theorem spliced_header (lines : List (List (Str × Str))) (hne : ∀ l ∈ lines, l ≠ []) :
    cookieHeader (spliced lines) = c!", ".intercalate (lines.map cookieHeader) := by
  induction lines with
  | nil => rfl
  | cons l ls ih =>
    cases ls with
    | nil => simp [spliced, glue_nil_right, List.intercalate]
    | cons l' ls =>
      rw [List.map_cons, List.map_cons, intercalate_cons_cons, ← List.map_cons,
        ← ih (fun x hx => hne x (List.mem_cons_of_mem _ hx)), ← glue_header _ _ (hne l (by simp))
          (spliced_ne_nil (by simp) (fun x hx => hne x (List.mem_cons_of_mem _ hx)))]
      rfl

theorem spliced_length (lines : List (List (Str × Str))) (h : lines ≠ []) (hne : ∀ l ∈ lines, l ≠ []) :
    (spliced lines).length + lines.length = lines.flatten.length + 1 := by
  induction lines with
  | nil => exact absurd rfl h
  | cons l ls ih =>
    cases ls with
    | nil => simp [spliced, glue_nil_right]
    | cons l' ls =>
      have h' : ∀ x ∈ l' :: ls, x ≠ [] := fun x hx => hne x (List.mem_cons_of_mem _ hx)
      have h1 := ih (by simp) h'
      have h2 := glue_length l (spliced (l' :: ls)) (hne l (by simp)) (spliced_ne_nil (by simp) h')
      rw [show spliced (l :: l' :: ls) = glue l (spliced (l' :: ls)) from rfl]
      simp only [List.flatten_cons, List.length_append, List.length_cons] at *
      omega

theorem trimmed_self {s : Str} (h1 : ∀ c, s.head? = some c → c ∉ whiteSpace)
    (h2 : ∀ c, s.getLast? = some c → c ∉ whiteSpace) : Trimmed s s :=
  ⟨[], [], by simp, by simp, h1, h2⟩

theorem trimmed_ends {s : Str} (h : Trimmed s s) :
    (∀ c, s.head? = some c → c ∉ whiteSpace) ∧ (∀ c, s.getLast? = some c → c ∉ whiteSpace) := by
  obtain ⟨-, -, -, -, h1, h2⟩ := h
  exact ⟨h1, h2⟩

theorem good_glued {x y : Str × Str} (hx : GoodCookie x) (hy : GoodCookie y) :
    GoodCookie (x.1, x.2 ++ c!", " ++ y.1 ++ c!"=" ++ y.2) := by
  obtain ⟨x1, x2, x3, x4, x5, x6⟩ := hx
  obtain ⟨y1, y2, y3, y4, y5, y6⟩ := hy
  refine ⟨x1, x2, x3, ?_, x5, trimmed_self ?_ ?_⟩
  · simp [x4, y3, y4]
  · intro c hc
    cases hv : x.2 with
    | nil =>
      simp [hv] at hc
      subst hc
      decide
    | cons a v =>
      simp [hv] at hc
      subst hc
      exact (trimmed_ends x6).1 _ (by simp [hv])
  · intro c hc
    rcases List.eq_nil_or_concat y.2 with hv | ⟨v, a, hv⟩
    · rw [show (x.1, x.2 ++ c!", " ++ y.1 ++ c!"=" ++ y.2).2 = (x.2 ++ c!", " ++ y.1) ++ ['='] by
        simp [hv], List.getLast?_concat] at hc
      cases hc
      decide
    · rw [List.concat_eq_append] at hv
      rw [show (x.1, x.2 ++ c!", " ++ y.1 ++ c!"=" ++ y.2).2 = (x.2 ++ c!", " ++ y.1 ++ c!"=" ++ v) ++ [a] by
        simp [hv], List.getLast?_concat] at hc
      cases hc
      exact (trimmed_ends y6).2 _ (by rw [hv, List.getLast?_concat])

theorem good_glue (a b : List (Str × Str)) (ha : ∀ nv ∈ a, GoodCookie nv) (hb : ∀ nv ∈ b, GoodCookie nv) :
    ∀ nv ∈ glue a b, GoodCookie nv := by
  induction a with
  | nil => exact hb
  | cons x a ih =>
    cases a with
    | nil =>
      cases b with
      | nil => exact ha
      | cons y b =>
        intro nv h
        rcases List.mem_cons.1 h with rfl | h
        · exact good_glued (ha x (by simp)) (hb y (by simp))
        · exact hb nv (List.mem_cons_of_mem _ h)
    | cons x' a =>
      intro nv h
      rcases List.mem_cons.1 h with rfl | h
      · exact ha _ (by simp)
      · exact ih (fun z hz => ha z (List.mem_cons_of_mem _ hz)) nv h

theorem good_spliced (lines : List (List (Str × Str))) (h : ∀ l ∈ lines, ∀ nv ∈ l, GoodCookie nv) :
    ∀ nv ∈ spliced lines, GoodCookie nv := by
  induction lines with
  | nil => intro nv h; cases h
  | cons l ls ih =>
    exact good_glue l (spliced ls) (h l (by simp)) (ih fun x hx => h x (List.mem_cons_of_mem _ hx))

theorem cookieLines_joined {hs : List (Str × Str)} {lines : List (List (Str × Str))} (h : lines ≠ [])
    (hne : ∀ l ∈ lines, l ≠ []) (hl : CookieLines hs (lines.map cookieHeader)) :
    joined hs c!"cookie" = some (c!"; ".intercalate ((spliced lines).map cookiePair)) := by
  unfold joined
  rw [show (hs.filter fun h => decide (lowered h.1 = c!"cookie")).map (·.2) = lines.map cookieHeader from hl]
  cases lines with
  | nil => exact absurd rfl h
  | cons l ls =>
    show some (c!", ".intercalate ((l :: ls).map cookieHeader)) = _
    rw [← spliced_header _ hne]
    rfl

/-- The full claim of C142: the handlers find the cookies of all Cookie lines. -/
def C142_statement : Prop :=
  ∀ (q : WireReq) (s : Sock) (lines : List (List (Str × Str))), q.Good → s.bytes = q.bytes →
    q.body.length ≤ i64Max → lines ≠ [] → (∀ l ∈ lines, l ≠ []) → (∀ l ∈ lines, ∀ nv ∈ l, GoodCookie nv) →
    CookieLines q.headers (lines.map cookieHeader) →
    ∃ req, Reads .default (fun _ => true) s req ∧
      req.cookies.map (fun c => (c.name, c.value)) = lines.flatten

/-- Exactly what the handlers find, for every number of Cookie lines: the cookies of the lines in order,
but the last cookie of a line has swallowed the first cookie of the next. -/
theorem C142_exact (feat : Features) (allocOk : Nat → Bool) (q : WireReq) (hq : q.Good) (s : Sock)
    (hb : s.bytes = q.bytes) (halloc : ∀ k ≤ q.body.length, allocOk k = true)
    (hmax : q.body.length ≤ i64Max) (hf : feat.cookies = true) (lines : List (List (Str × Str)))
    (h : lines ≠ []) (hne : ∀ l ∈ lines, l ≠ []) (hg : ∀ l ∈ lines, ∀ nv ∈ l, GoodCookie nv)
    (hl : CookieLines q.headers (lines.map cookieHeader)) :
    ∃ req, Reads feat allocOk s req ∧ req.cookies.map (fun c => (c.name, c.value)) = spliced lines :=
  C51_handlers_see feat allocOk q hq s hb halloc hmax hf (spliced lines) (spliced_ne_nil h hne)
    (good_spliced lines hg) (cookieLines_joined h hne hl)

/-- One cookie is lost for every line after the first. -/
theorem C142_count (feat : Features) (allocOk : Nat → Bool) (q : WireReq) (hq : q.Good) (s : Sock)
    (hb : s.bytes = q.bytes) (halloc : ∀ k ≤ q.body.length, allocOk k = true)
    (hmax : q.body.length ≤ i64Max) (hf : feat.cookies = true) (lines : List (List (Str × Str)))
    (h : lines ≠ []) (hne : ∀ l ∈ lines, l ≠ []) (hg : ∀ l ∈ lines, ∀ nv ∈ l, GoodCookie nv)
    (hl : CookieLines q.headers (lines.map cookieHeader)) (req : Request) (hr : Reads feat allocOk s req) :
    req.cookies.length + (lines.length - 1) = (lines.map List.length).sum := by
  obtain ⟨req', h1, h2⟩ := C142_exact feat allocOk q hq s hb halloc hmax hf lines h hne hg hl
  obtain rfl := hr.unique h1
  have h3 := congrArg List.length h2
  rw [List.length_map] at h3
  have h4 := spliced_length lines h hne
  rw [List.length_flatten] at h4
  have : 0 < lines.length := List.length_pos_iff.2 h
  omega

/-- The handlers find the cookies of all lines exactly if there is one line. -/
theorem C142_iff (feat : Features) (allocOk : Nat → Bool) (q : WireReq) (hq : q.Good) (s : Sock)
    (hb : s.bytes = q.bytes) (halloc : ∀ k ≤ q.body.length, allocOk k = true)
    (hmax : q.body.length ≤ i64Max) (hf : feat.cookies = true) (lines : List (List (Str × Str)))
    (h : lines ≠ []) (hne : ∀ l ∈ lines, l ≠ []) (hg : ∀ l ∈ lines, ∀ nv ∈ l, GoodCookie nv)
    (hl : CookieLines q.headers (lines.map cookieHeader)) :
    (∃ req, Reads feat allocOk s req ∧ req.cookies.map (fun c => (c.name, c.value)) = lines.flatten) ↔
      lines.length = 1 := by
  obtain ⟨req', h1, h2⟩ := C142_exact feat allocOk q hq s hb halloc hmax hf lines h hne hg hl
  have h4 := spliced_length lines h hne
  constructor
  · rintro ⟨req, g1, g2⟩
    obtain rfl := g1.unique h1
    rw [h2] at g2
    rw [g2] at h4
    omega
  · intro he
    refine ⟨req', h1, ?_⟩
    rw [h2]
    match lines, he with
    | [l], _ => simp [spliced, glue_nil_right]

/-- With one Cookie line the claim holds. -/
theorem C142_one_partial (feat : Features) (allocOk : Nat → Bool) (q : WireReq) (hq : q.Good) (s : Sock)
    (hb : s.bytes = q.bytes) (halloc : ∀ k ≤ q.body.length, allocOk k = true)
    (hmax : q.body.length ≤ i64Max) (hf : feat.cookies = true) (line : List (Str × Str))
    (hne : line ≠ []) (hg : ∀ nv ∈ line, GoodCookie nv) (hl : CookieLines q.headers [cookieHeader line]) :
    ∃ req, Reads feat allocOk s req ∧ req.cookies.map (fun c => (c.name, c.value)) = line := by
  have := (C142_iff feat allocOk q hq s hb halloc hmax hf [line] (by simp) (by simpa using hne)
    (by simpa using hg) hl).2 rfl
  simpa using this

namespace CookieLinesExample

/-- two Cookie lines, with another header between -/
def twice : WireReq :=
  ⟨c!"GET", [[], c!"a"], c!"1.0", [(c!"Cookie", c!"a=1; b=2"), (c!"Host", c!"x"), (c!"cookie", c!"c=3; d=4")], []⟩

def lines : List (List (Str × Str)) := [[(c!"a", c!"1"), (c!"b", c!"2")], [(c!"c", c!"3"), (c!"d", c!"4")]]

theorem lines_good : ∀ l ∈ lines, ∀ nv ∈ l, GoodCookie nv := by
  simp only [lines, List.mem_cons, List.not_mem_nil, or_false, forall_eq_or_imp, forall_eq]
  refine ⟨⟨?_, ?_⟩, ?_, ?_⟩ <;>
    exact ⟨by decide, by decide, by decide, by decide, (trimmed_iff _ _).2 (by decide +kernel),
      (trimmed_iff _ _).2 (by decide +kernel)⟩

theorem lines_of : CookieLines twice.headers (lines.map cookieHeader) := by
  unfold CookieLines
  decide +kernel

theorem twice_good : twice.Good := by
  refine ⟨⟨by decide, by decide, ?_, by decide, ⟨by decide, by decide +kernel⟩, .inr ⟨rfl, ?_⟩⟩, ?_⟩
  · rintro ⟨k, hk⟩
    have : (twice.pieces.take k).countP isUp = 0 :=
      List.countP_eq_zero.2 fun p hp =>
        (by decide : ∀ p ∈ twice.pieces, ¬ isUp p = true) p (List.mem_of_mem_take hp)
    omega
  · intro v m hv
    rw [show joined twice.headers c!"content-length" = none by decide +kernel] at hv
    cases hv
  · intro v hv
    rw [show joined twice.headers c!"cookie" = some c!"a=1; b=2, c=3; d=4" by decide +kernel] at hv
    cases hv
    exact (Cookie.parse_ok _).1 ⟨_, rfl⟩

/-- the handlers find three cookies, not four: `b` is `2, c=3` -/
example : ∃ req, Reads .default (fun _ => true) ⟨[twice.bytes], .eof⟩ req ∧
    req.cookies.map (fun c => (c.name, c.value)) = [(c!"a", c!"1"), (c!"b", c!"2, c=3"), (c!"d", c!"4")] :=
  C142_exact .default _ twice twice_good _ (by simp [Sock.bytes]) (fun _ _ => rfl) (by decide) rfl lines
    (by decide) (by decide) lines_good lines_of

example (req : Request) (h : Reads .default (fun _ => true) ⟨[twice.bytes], .eof⟩ req) :
    req.cookies.length + 1 = 4 :=
  C142_count .default _ twice twice_good _ (by simp [Sock.bytes]) (fun _ _ => rfl) (by decide) rfl lines
    (by decide) (by decide) lines_good lines_of req h

/-- the hypotheses of `C142_one_partial` are met -/
example : ∃ req, Reads .default (fun _ => true) ⟨[JarExample.next.bytes], .eof⟩ req ∧
    req.cookies.map (fun c => (c.name, c.value)) = [(c!"b", c!"2"), (c!"a", c!"3")] :=
  C142_one_partial .default _ JarExample.next JarExample.next_good _ (by simp [Sock.bytes]) (fun _ _ => rfl)
    (by decide) rfl _ (by decide)
    (by
      simp only [List.mem_cons, List.not_mem_nil, or_false, forall_eq_or_imp, forall_eq]
      exact ⟨JarExample.cookies_good ⟨c!"b", c!"2", [c!"Path=/"]⟩ (by simp [JarExample.cookies]),
        JarExample.cookies_good ⟨c!"a", c!"3", []⟩ (by simp [JarExample.cookies])⟩)
    (by unfold CookieLines; decide +kernel)

end CookieLinesExample

/-- The claim is false for the code. -/
theorem C142_counterexample : ¬ C142_statement := by
  intro h
  have h1 := h CookieLinesExample.twice ⟨[CookieLinesExample.twice.bytes], .eof⟩ CookieLinesExample.lines
    CookieLinesExample.twice_good (by simp [Sock.bytes]) (by decide) (by decide) (by decide)
    CookieLinesExample.lines_good CookieLinesExample.lines_of
  exact absurd ((C142_iff .default _ _ CookieLinesExample.twice_good _ (by simp [Sock.bytes]) (fun _ _ => rfl)
    (by decide) rfl _ (by decide) (by decide) CookieLinesExample.lines_good
    CookieLinesExample.lines_of).1 h1) (by decide)

end Octane
