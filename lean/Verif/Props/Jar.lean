import Verif.Spec.Jar
import Verif.Props.Server
import Verif.Props.Settings
/-
C78: a cookie that was set comes back.
-/
namespace Octane
open Spec

/-- a client keeps one thing of a text at most -/
theorem Keeps_unique {text : Str} {nv nv' : Str × Str} (h : Keeps text nv) (h' : Keeps text nv') :
    nv = nv' := by
  obtain ⟨p, r, b1, b2, b3, b4, rfl, h1, h2, rfl, h3, -, h5, h6⟩ := h
  obtain ⟨p', r', b1', b2', b3', b4', e, h1', h2', rfl, h3', -, h5', h6'⟩ := h'
  have cut : ∀ {a r a' r' : Str}, ';' ∉ a → ';' ∉ a' → (r = [] ∨ ∃ x, r = ';' :: x) →
      (r' = [] ∨ ∃ x, r' = ';' :: x) → a ++ r = a' ++ r' → a = a' := by
    intro a
    induction a with
    | nil =>
      intro r a' r' _ ha' hr _ e
      cases a' with
      | nil => rfl
      | cons d a' =>
        rcases hr with rfl | ⟨x, rfl⟩
        · simp at e
        · simp only [List.nil_append, List.cons_append, List.cons.injEq] at e
          exact absurd (e.1 ▸ List.mem_cons_self ..) ha'
    | cons c a ih =>
      intro r a' r' ha ha' hr hr' e
      cases a' with
      | nil =>
        rcases hr' with rfl | ⟨x, rfl⟩
        · simp at e
        · simp only [List.nil_append, List.cons_append, List.cons.injEq] at e
          exact absurd (e.1 ▸ List.mem_cons_self ..) ha
      | cons d a' =>
        simp only [List.cons_append, List.cons.injEq] at e
        rw [e.1, ih (fun h => ha (List.mem_cons_of_mem _ h)) (fun h => ha' (List.mem_cons_of_mem _ h)) hr hr' e.2]
  have e := cut h1 h1' h2 h2' e
  have blank_eq : ∀ b : Str, (∀ c ∈ b, isBlank c) → '=' ∉ b := by
    intro b hb hm
    rcases hb _ hm with h | h <;> exact absurd h (by decide)
  have hn : ∀ x y z : Str, '=' ∉ x → (∀ c ∈ y ++ z, isBlank c) → '=' ∉ y ++ x ++ z := by
    intro x y z hx hb hm
    simp only [List.mem_append] at hm
    rcases hm with (hm | hm) | hm
    · exact blank_eq y (fun c hc => hb c (by simp [hc])) hm
    · exact hx hm
    · exact blank_eq z (fun c hc => hb c (by simp [hc])) hm
  have s1 := splitN2_append (hn _ b1 b2 h3 fun c hc => h5 c (by
    rcases List.mem_append.1 hc with h | h <;> simp [h])) (b3 ++ nv.2 ++ b4)
  have s2 := splitN2_append (hn _ b1' b2' h3' fun c hc => h5' c (by
    rcases List.mem_append.1 hc with h | h <;> simp [h])) (b3' ++ nv'.2 ++ b4')
  rw [e, s2] at s1
  simp only [List.cons.injEq, and_true] at s1
  have strip : ∀ (x y z x' y' z' : Str), y ++ x ++ z = y' ++ x' ++ z' → (∀ c ∈ y ++ z, isBlank c) →
      (∀ c ∈ y' ++ z', isBlank c) → (∀ c, x.head? = some c ∨ x.getLast? = some c → ¬ isBlank c) →
      (∀ c, x'.head? = some c ∨ x'.getLast? = some c → ¬ isBlank c) → x = x' := by
    intro x y z x' y' z' e hb hb' hx hx'
    let p : Char → Bool := fun c => decide (isBlank c)
    have one : ∀ x y z : Str, (∀ c ∈ y ++ z, isBlank c) →
        (∀ c, x.head? = some c ∨ x.getLast? = some c → ¬ isBlank c) →
        (((y ++ x ++ z).dropWhile p).reverse.dropWhile p).reverse = x := by
      intro x y z hb hx
      rw [List.append_assoc, dropWhile_append_all p y _ (fun c hc => by simp [p, hb c (by simp [hc])])]
      cases x with
      | nil =>
        rw [List.nil_append]
        have := dropWhile_append_all p z [] (fun c hc => by simp [p, hb c (by simp [hc])])
        rw [List.append_nil] at this
        rw [this]; rfl
      | cons c x =>
        rw [dropWhile_stop p (c :: x ++ z) (by
          intro d hd
          simp only [List.cons_append, List.head?_cons, Option.some.injEq] at hd
          subst hd
          simp [p, hx _ (.inl rfl)])]
        rw [List.reverse_append, dropWhile_append_all p z.reverse _ (fun d hd => by
          simp [p, hb d (by simp [List.mem_reverse.1 hd])])]
        rw [dropWhile_stop p (c :: x).reverse (by
          intro d hd
          rw [List.head?_reverse] at hd
          simp [p, hx d (.inr hd)])]
        exact List.reverse_reverse _
    rw [← one x y z hb hx, ← one x' y' z' hb' hx', e]
  have g1 := strip nv'.1 b1' b2' nv.1 b1 b2 s1.1 (fun c hc => h5' c (by
    rcases List.mem_append.1 hc with h | h <;> simp [h])) (fun c hc => h5 c (by
    rcases List.mem_append.1 hc with h | h <;> simp [h])) (h6' _ (by simp)) (h6 _ (by simp))
  have g2 := strip nv'.2 b3' b4' nv.2 b3 b4 s1.2 (fun c hc => h5' c (by
    rcases List.mem_append.1 hc with h | h <;> simp [h])) (fun c hc => h5 c (by
    rcases List.mem_append.1 hc with h | h <;> simp [h])) (h6' _ (by simp)) (h6 _ (by simp))
  exact Prod.ext g1.symm g2.symm

theorem cookieText_attrs (c : Cookie) :
    ∃ r, cookieText c = cookiePair (c.name, c.value) ++ r ∧ (r = [] ∨ ∃ x, r = ';' :: x) := by
  unfold cookieText cookiePair
  cases c.attrs with
  | nil => exact ⟨[], by simp [List.intercalate], .inl rfl⟩
  | cons a as =>
    refine ⟨c!"; " ++ c!"; ".intercalate (a :: as), ?_, .inr ⟨' ' :: c!"; ".intercalate (a :: as), rfl⟩⟩
    rw [intercalate_cons_cons, List.append_assoc]

/-- a cookie without separators and without white space around its parts is kept as it is -/
theorem keeps_good (c : Cookie) (h : GoodCookie (c.name, c.value)) :
    Keeps (cookieText c) (c.name, c.value) := by
  obtain ⟨r, h1, h2⟩ := cookieText_attrs c
  obtain ⟨g1, g2, g3, g4, ⟨a, b, e, -, g5, g5'⟩, ⟨a', b', e', -, g6, g6'⟩⟩ := h
  have blank_ws : ∀ d, isBlank d → d ∈ whiteSpace := by
    rintro d (rfl | rfl) <;> decide
  refine ⟨_, r, [], [], [], [], h1, ?_, h2, by simp [cookiePair], g2, g1, by simp, ?_⟩
  · simp only [cookiePair, List.mem_append, List.mem_cons, not_or]
    exact ⟨g3, by decide, g4⟩
  · intro t ht d hd hb
    simp only [List.mem_cons, List.not_mem_nil, or_false] at ht
    rcases ht with rfl | rfl <;> rcases hd with hd | hd
    · exact g5 d hd (blank_ws d hb)
    · exact g5' d hd (blank_ws d hb)
    · exact g6 d hd (blank_ws d hb)
    · exact g6' d hd (blank_ws d hb)

/-- The full claim of C78: whatever a handler sets as a cookie, a client keeps it and the next request
brings it back. -/
def C78_statement : Prop :=
  ∀ c : Cookie, ∃ nv ps, Keeps (cookieText c) nv ∧ Cookie.parse (cookieHeader [nv]) = .ok ps ∧
    ps.map (fun p => (p.name, p.value)) = [(c.name, c.value)]

/-- One cookie, whatever its attributes: exactly which names and values come back. -/
theorem C78_iff (c : Cookie) :
    (∃ nv ps, Keeps (cookieText c) nv ∧ Cookie.parse (cookieHeader [nv]) = .ok ps ∧
      ps.map (fun p => (p.name, p.value)) = [(c.name, c.value)]) ↔ GoodCookie (c.name, c.value) := by
  constructor
  · rintro ⟨nv, ps, hk, hp, he⟩
    obtain ⟨p, r, b1, b2, b3, b4, -, h1, -, rfl, h3, -, -, -⟩ := hk
    have n1 : ';' ∉ nv.1 := fun h => h1 (by simp [h])
    have n2 : ';' ∉ nv.2 := fun h => h1 (by simp [h])
    have hs : ';' ∉ cookiePair nv := by simp [cookiePair, n1, n2]
    have ho : ¬ Occurs (cookiePair nv) c!"; " := by
      rintro ⟨j, a, b, e, -⟩
      exact hs (by rw [e]; simp)
    have e : cookieHeader [nv] = cookiePair nv := by simp [cookieHeader, List.intercalate]
    rw [e, Cookie.parse, splitStr_one ho, Cookie.parseAll] at hp
    unfold cookieRsParse at hp
    rw [splitChar_of_not_mem hs] at hp
    simp only [cookiePair, splitN2_append h3] at hp
    by_cases ht : trim nv.1 = []
    · simp [ht] at hp
    · simp only [if_neg ht, Res.unwrap_some, Res.bind_ok', Cookie.parseAll, Res.ok.injEq] at hp
      subst hp
      simp only [List.map_cons, List.map_nil, List.cons.injEq, Prod.mk.injEq, and_true] at he
      obtain ⟨e1, e2⟩ := he
      have sub : ∀ {s t : Str}, Trimmed s t → (∀ c ∈ t, c ∈ s) ∧ Trimmed t t := by
        rintro s t ⟨a, b, rfl, -, g1, g2⟩
        exact ⟨fun c hc => by simp [hc], ⟨[], [], by simp, by simp, g1, g2⟩⟩
      obtain ⟨f1, f2⟩ := sub (trim_trimmed nv.1)
      obtain ⟨f3, f4⟩ := sub (trim_trimmed nv.2)
      rw [e1] at f1 f2 ht
      rw [e2] at f3 f4
      exact ⟨ht, fun h => h3 (f1 _ h), fun h => n1 (f1 _ h), fun h => n2 (f3 _ h), f2, f4⟩
  · intro h
    refine ⟨_, _, keeps_good c h, C51_cookies [(c.name, c.value)] (by simp) (by simpa using h), by simp⟩

/-- Any number of cookies, set one after the other: for every jar of a client that kept them, the
`Cookie` header is read as exactly the last value set under each name. -/
theorem C78_comes_back_partial (cs : List Cookie) (hne : cs ≠ []) (h : ∀ c ∈ cs, GoodCookie (c.name, c.value))
    (keep : Cookie → Str × Str) (hk : ∀ c ∈ cs, Keeps (cookieText c) (keep c)) (jar : List (Str × Str))
    (hj : Jar (cs.map keep) jar) :
    ∃ ps, Cookie.parse (cookieHeader jar) = .ok ps ∧ (ps.map (·.name)).Nodup ∧
      ∀ n v, (n, v) ∈ ps.map (fun p => (p.name, p.value)) ↔
        ∃ a c b, cs = a ++ c :: b ∧ c.name = n ∧ c.value = v ∧ ∀ d ∈ b, d.name ≠ n := by
  have hkeep : cs.map keep = cs.map fun c => (c.name, c.value) :=
    List.map_congr_left fun c hc => Keeps_unique (hk c hc) (keeps_good c (h c hc))
  rw [hkeep] at hj
  have hgood : ∀ nv ∈ jar, GoodCookie nv := by
    rintro ⟨n, v⟩ hm
    obtain ⟨a, b, e, -⟩ := (hj.2 n v).1 hm
    have : (n, v) ∈ cs.map fun c => (c.name, c.value) := by rw [e]; simp
    obtain ⟨c, hc, e⟩ := List.mem_map.1 this
    rw [← e]
    exact h c hc
  have hjne : jar ≠ [] := by
    rintro rfl
    obtain ⟨a, c, rfl⟩ := List.eq_nil_or_concat cs |>.resolve_left hne
    exact absurd ((hj.2 c.name c.value).2 ⟨a.map fun c => (c.name, c.value), [], by simp, by simp⟩) (by simp)
  refine ⟨_, C51_cookies jar hjne hgood, by simpa [Function.comp_def] using hj.1, fun n v => ?_⟩
  rw [List.map_map]
  simp only [Function.comp_def, List.map_id']
  rw [hj.2]
  constructor
  · rintro ⟨a, b, e, hb⟩
    obtain ⟨ca, cb, rfl, rfl, e2⟩ := List.map_eq_append_iff.1 e
    obtain ⟨c, cb', rfl, e3, rfl⟩ := List.map_eq_cons_iff.1 e2
    simp only [Prod.mk.injEq] at e3
    exact ⟨ca, c, cb', rfl, e3.1, e3.2, fun d hd => hb _ (List.mem_map_of_mem hd)⟩
  · rintro ⟨a, c, b, rfl, rfl, rfl, hb⟩
    refine ⟨a.map fun c => (c.name, c.value), b.map fun c => (c.name, c.value), by simp, ?_⟩
    intro x hx
    obtain ⟨d, hd, rfl⟩ := List.mem_map.1 hx
    exact hb d hd

/-- There is such a client and such a jar. -/
theorem C78_client (cs : List Cookie) (h : ∀ c ∈ cs, GoodCookie (c.name, c.value)) :
    ∃ keep jar, (∀ c ∈ cs, Keeps (cookieText c) (keep c)) ∧ Jar (cs.map keep) jar := by
  refine ⟨fun c => (c.name, c.value), ?_⟩
  have : ∀ kept : List (Str × Str), ∃ jar, Jar kept jar := by
    intro kept
    induction kept with
    | nil => exact ⟨[], by simp, by simp [LastKept]⟩
    | cons x kept ih =>
      obtain ⟨jar, h1, h2⟩ := ih
      have hmem : ∀ n, n ∈ jar.map (·.1) ↔ n ∈ kept.map (·.1) := by
        intro n
        constructor
        · intro hn
          obtain ⟨⟨m, v⟩, hm, rfl⟩ := List.mem_map.1 hn
          obtain ⟨a, b, rfl, -⟩ := (h2 m v).1 hm
          simp
        · intro hn
          have last : ∀ l : List (Str × Str), n ∈ l.map (·.1) → ∃ v, LastKept l n v := by
            intro l
            induction l with
            | nil => simp
            | cons y l ih =>
              intro hy
              by_cases hl : n ∈ l.map (·.1)
              · obtain ⟨v, a, b, rfl, hb⟩ := ih hl
                exact ⟨v, y :: a, b, rfl, hb⟩
              · rw [List.map_cons, List.mem_cons] at hy
                obtain rfl := hy.resolve_right hl
                exact ⟨y.2, [], l, rfl, fun z hz he => hl (he ▸ List.mem_map_of_mem hz)⟩
          obtain ⟨v, hv⟩ := last kept hn
          exact List.mem_map_of_mem (f := (·.1)) ((h2 n v).2 hv)
      by_cases hx : x.1 ∈ jar.map (·.1)
      · refine ⟨jar, h1, fun n v => ?_⟩
        rw [h2]
        constructor
        · rintro ⟨a, b, rfl, hb⟩; exact ⟨x :: a, b, rfl, hb⟩
        · rintro ⟨a, b, e, hb⟩
          cases a with
          | nil =>
            simp only [List.nil_append, List.cons.injEq] at e
            obtain ⟨rfl, rfl⟩ := e
            obtain ⟨y, hy, hyn⟩ := List.mem_map.1 ((hmem n).1 hx)
            exact absurd hyn (hb y hy)
          | cons y a =>
            simp only [List.cons_append, List.cons.injEq] at e
            exact ⟨a, b, e.2, hb⟩
      · refine ⟨x :: jar, by rw [List.map_cons, List.nodup_cons]; exact ⟨hx, h1⟩, fun n v => ?_⟩
        rw [List.mem_cons, h2]
        constructor
        · rintro (rfl | ⟨a, b, rfl, hb⟩)
          · exact ⟨[], kept, rfl, fun y hy he => hx ((hmem n).2 (he ▸ List.mem_map_of_mem hy))⟩
          · exact ⟨x :: a, b, rfl, hb⟩
        · rintro ⟨a, b, e, hb⟩
          cases a with
          | nil =>
            simp only [List.nil_append, List.cons.injEq] at e
            exact .inl e.1.symm
          | cons y a =>
            simp only [List.cons_append, List.cons.injEq] at e
            exact .inr ⟨a, b, e.2, hb⟩
  obtain ⟨jar, hj⟩ := this (cs.map fun c => (c.name, c.value))
  exact ⟨jar, fun c hc => keeps_good c (h c hc), hj⟩

/-- From the bytes of the next request to what its handlers see. -/
theorem C78_handlers_see (feat : Features) (allocOk : Nat → Bool) (q : WireReq) (hq : q.Good) (s : Sock)
    (hb : s.bytes = q.bytes) (halloc : ∀ k ≤ q.body.length, allocOk k = true)
    (hmax : q.body.length ≤ i64Max) (hf : feat.cookies = true)
    (cs : List Cookie) (hne : cs ≠ []) (h : ∀ c ∈ cs, GoodCookie (c.name, c.value))
    (keep : Cookie → Str × Str) (hk : ∀ c ∈ cs, Keeps (cookieText c) (keep c)) (jar : List (Str × Str))
    (hj : Jar (cs.map keep) jar) (hq' : joined q.headers c!"cookie" = some (cookieHeader jar)) :
    ∃ req, Reads feat allocOk s req ∧ ∀ n v, (n, v) ∈ req.cookies.map (fun p => (p.name, p.value)) ↔
      ∃ a c b, cs = a ++ c :: b ∧ c.name = n ∧ c.value = v ∧ ∀ d ∈ b, d.name ≠ n := by
  have hkeep : cs.map keep = cs.map fun c => (c.name, c.value) :=
    List.map_congr_left fun c hc => Keeps_unique (hk c hc) (keeps_good c (h c hc))
  have hgood : ∀ nv ∈ jar, GoodCookie nv := by
    rintro ⟨n, v⟩ hm
    obtain ⟨a, b, e, -⟩ := (hj.2 n v).1 hm
    rw [hkeep] at e
    have : (n, v) ∈ cs.map fun c => (c.name, c.value) := by rw [e]; simp
    obtain ⟨c, hc, e⟩ := List.mem_map.1 this
    rw [← e]
    exact h c hc
  have hjne : jar ≠ [] := by
    rintro rfl
    rw [hkeep] at hj
    obtain ⟨a, c, rfl⟩ := List.eq_nil_or_concat cs |>.resolve_left hne
    exact absurd ((hj.2 c.name c.value).2 ⟨a.map fun c => (c.name, c.value), [], by simp, by simp⟩) (by simp)
  obtain ⟨req, h1, h2⟩ := C51_handlers_see feat allocOk q hq s hb halloc hmax hf jar hjne hgood hq'
  obtain ⟨ps, h3, -, h5⟩ := C78_comes_back_partial cs hne h keep hk jar hj
  have := C51_cookies jar hjne hgood
  unfold cookieHeader at h3
  rw [this, Res.ok.injEq] at h3
  subst h3
  refine ⟨req, h1, fun n v => ?_⟩
  rw [h2, ← h5]
  simp [List.map_map, Function.comp_def]

/-- From the handlers of one request to those of the next: for any sequence of response operations, the
texts of the `Set-Cookie` lines, in the order they are sent, are such that every client that keeps them
one after the other brings back exactly the value set last under each name. -/
theorem C78_set_and_back_partial (U : Unicode) (ord : MapOrder) (pre post : List ResOp) (clock : Int)
    (body : Bytes) (r : Response)
    (h : execOps U Response.newEmpty (pre ++ .send clock body :: post) = .ok r)
    (hn : ∀ o ∈ pre ++ post, ¬ o.replacesCookies) (hb : ∀ o ∈ post, o.leavesBody)
    (hne : (pre ++ post).filterMap (·.cookieAdded) ≠ [])
    (hgood : ∀ c ∈ (pre ++ post).filterMap (·.cookieAdded), GoodCookie (c.name, c.value)) :
    ∃ (head : Str) (texts : List Str), sendData (r.getData U false ord) = utf8 (head ++ crlf) ++ body ∧
      sendData (r.getData U true ord) =
        utf8 (head ++ crlf.intercalate (texts.map (c!"Set-Cookie: " ++ ·)) ++ crlf) ++ body ∧
      ∀ (keep : Str → Str × Str) (jar : List (Str × Str)), (∀ t ∈ texts, Keeps t (keep t)) →
        Jar (texts.map keep) jar →
        ∃ ps, Cookie.parse (cookieHeader jar) = .ok ps ∧ (ps.map (·.name)).Nodup ∧
          ∀ n v, (n, v) ∈ ps.map (fun p => (p.name, p.value)) ↔
            ∃ a c b, (pre ++ post).filterMap (·.cookieAdded) = a ++ c :: b ∧ c.name = n ∧ c.value = v ∧
              ∀ d ∈ b, d.name ≠ n := by
  obtain ⟨head, h1, h2⟩ := C77_cookie_lines U ord pre post clock body r h hn hb
  refine ⟨head, ((pre ++ post).filterMap (·.cookieAdded)).map cookieText, h1, ?_, ?_⟩
  · rw [h2, List.map_map]
    rfl
  · intro keep jar hk hj
    exact C78_comes_back_partial _ hne hgood (fun c => keep (cookieText c))
      (fun c hc => hk _ (List.mem_map_of_mem hc)) jar (by rw [List.map_map] at hj; exact hj)

/-- The full claim is false: of the value `a;b` only `a` comes back. -/
theorem C78_counterexample : ¬ C78_statement := by
  intro h
  have := (C78_iff ⟨c!"n", c!"a;b", []⟩).1 (h _)
  exact absurd this.2.2.2.1 (by decide)

/-- `a=1; Path=/` then `b=2` then `a=3`: the next request has `a=3` and `b=2`. -/
example : Jar [(c!"a", c!"1"), (c!"b", c!"2"), (c!"a", c!"3")] [(c!"b", c!"2"), (c!"a", c!"3")] := by
  refine ⟨by decide, fun n v => ?_⟩
  constructor
  · intro h
    simp only [List.mem_cons, Prod.mk.injEq, List.not_mem_nil, or_false] at h
    rcases h with ⟨rfl, rfl⟩ | ⟨rfl, rfl⟩
    · exact ⟨[(c!"a", c!"1")], [(c!"a", c!"3")], rfl, by simp⟩
    · exact ⟨[(c!"a", c!"1"), (c!"b", c!"2")], [], rfl, by simp⟩
  · rintro ⟨a, b, e, hb⟩
    rcases a with _ | ⟨x, _ | ⟨y, _ | ⟨z, a⟩⟩⟩
    · simp only [List.nil_append, List.cons.injEq, Prod.mk.injEq] at e
      obtain ⟨⟨rfl, rfl⟩, rfl⟩ := e
      exact absurd rfl (hb (c!"a", c!"3") (by simp))
    · simp only [List.nil_append, List.cons_append, List.cons.injEq, Prod.mk.injEq] at e
      simp [← e.2.1]
    · simp only [List.nil_append, List.cons_append, List.cons.injEq, Prod.mk.injEq] at e
      simp [← e.2.2.1]
    · simp at e

example : Cookie.parse (cookieHeader [(c!"b", c!"2"), (c!"a", c!"3")]) =
    .ok [⟨c!"b", c!"2", []⟩, ⟨c!"a", c!"3", []⟩] := by decide +kernel

example : GoodCookie (c!"a", c!"x=y z") :=
  ⟨by decide, by decide, by decide, by decide, (trimmed_iff _ _).2 (by decide +kernel),
    (trimmed_iff _ _).2 (by decide +kernel)⟩

/-- A handler that sets `a` twice with a body in between meets the hypotheses of `C78_set_and_back_partial`. -/
example (U : Unicode) (ord : MapOrder) (r : Response)
    (h : execOps U Response.newEmpty ([.cookie ⟨c!"a", c!"1", [c!"Path=/"]⟩] ++ .send 0 [1] ::
      [.cookie ⟨c!"b", c!"2", []⟩, .cookie ⟨c!"a", c!"3", []⟩]) = .ok r) :=
  C78_set_and_back_partial U ord _ _ 0 [1] r h (by simp [ResOp.replacesCookies]) (by simp [ResOp.leavesBody])
    (by simp [ResOp.cookieAdded]) (by
      simp only [List.cons_append, List.nil_append, ResOp.cookieAdded, List.filterMap_cons, List.filterMap_nil,
        List.mem_cons, List.not_mem_nil, or_false]
      rintro c (rfl | rfl | rfl) <;>
        exact ⟨by decide, by decide, by decide, by decide, (trimmed_iff _ _).2 (by decide +kernel),
          (trimmed_iff _ _).2 (by decide +kernel)⟩)

namespace JarExample

def cookies : List Cookie := [⟨c!"b", c!"2", [c!"Path=/"]⟩, ⟨c!"a", c!"3", []⟩]

theorem cookies_good : ∀ c ∈ cookies, GoodCookie (c.name, c.value) := by
  simp only [cookies, List.mem_cons, List.not_mem_nil, or_false]
  rintro c (rfl | rfl) <;>
    exact ⟨by decide, by decide, by decide, by decide, (trimmed_iff _ _).2 (by decide +kernel),
      (trimmed_iff _ _).2 (by decide +kernel)⟩

/-- the hypotheses of `C78_client` are met -/
example : ∃ keep jar, (∀ c ∈ cookies, Keeps (cookieText c) (keep c)) ∧ Jar (cookies.map keep) jar :=
  C78_client cookies cookies_good

theorem jar : Jar (cookies.map fun c => (c.name, c.value)) [(c!"b", c!"2"), (c!"a", c!"3")] := by
  refine ⟨by decide, fun n v => ?_⟩
  constructor
  · intro h
    simp only [List.mem_cons, Prod.mk.injEq, List.not_mem_nil, or_false] at h
    rcases h with ⟨rfl, rfl⟩ | ⟨rfl, rfl⟩
    · exact ⟨[], [(c!"a", c!"3")], rfl, by simp⟩
    · exact ⟨[(c!"b", c!"2")], [], rfl, by simp⟩
  · rintro ⟨a, b, e, -⟩
    have : (n, v) ∈ cookies.map fun c => (c.name, c.value) := by rw [e]; simp
    simpa [cookies] using this

/-- the next request -/
def next : WireReq := ⟨c!"GET", [[], c!"a"], c!"1.0", [(c!"Cookie", c!"b=2; a=3")], []⟩

theorem next_good : next.Good := by
  refine ⟨⟨by decide, by decide, ?_, by decide, ⟨by decide, by decide +kernel⟩, .inr ⟨rfl, ?_⟩⟩, ?_⟩
  · rintro ⟨k, hk⟩
    have : (next.pieces.take k).countP isUp = 0 :=
      List.countP_eq_zero.2 fun p hp =>
        (by decide : ∀ p ∈ next.pieces, ¬ isUp p = true) p (List.mem_of_mem_take hp)
    omega
  · intro v m hv
    rw [show joined next.headers c!"content-length" = none by decide +kernel] at hv
    cases hv
  · intro v hv
    rw [show joined next.headers c!"cookie" = some c!"b=2; a=3" by decide +kernel] at hv
    cases hv
    exact (Cookie.parse_ok _).1 ⟨_, rfl⟩

/-- the hypotheses of `C78_handlers_see` are met -/
example : ∃ req, Reads .default (fun _ => true) ⟨[next.bytes], .eof⟩ req ∧
    ∀ n v, (n, v) ∈ req.cookies.map (fun p => (p.name, p.value)) ↔
      ∃ a c b, cookies = a ++ c :: b ∧ c.name = n ∧ c.value = v ∧ ∀ d ∈ b, d.name ≠ n :=
  C78_handlers_see .default (fun _ => true) next next_good _ (by simp [Sock.bytes]) (fun _ _ => rfl) (by decide) rfl
    cookies (by simp [cookies]) cookies_good (fun c => (c.name, c.value)) (fun c hc => keeps_good c (cookies_good c hc))
    _ jar (by decide +kernel)

end JarExample

end Octane
