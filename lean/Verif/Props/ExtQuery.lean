import Verif.Props.Target
import Verif.Props.Query
/-
C80, C21: what `get_extended_query` and `get_query` return for a request, from the bytes on.
-/
namespace Octane
open Spec Query

/-- The value of a key of an extended query, from its occurrences in order: the last plain value if there
is one; otherwise the first kind of use decides between the list of all `k[]` values and the object of
the last `k[x]` values. -/
def Spec.ExtValue (os : List Occ) (r : Option QueryValue) : Prop :=
  (∀ v, (os.filterMap Occ.plainValue?).getLast? = some v → r = some (.str v)) ∧
  (os.filterMap Occ.plainValue? = [] →
    (∀ k' v rest, os = .push k' v :: rest → r = some (.arr (os.filterMap Occ.pushValue?))) ∧
    (∀ k' i v rest, os = .put k' i v :: rest →
      ∃ o, r = some (.obj o) ∧ o.Uniq ∧ ∀ x, o.get x = lastValue x (os.filterMap Occ.putEntry?)) ∧
    (os = [] → r = none))

/-- The full claim of C80: for a request for `path?query` the accessor returns the extended query `query`. -/
def C80_statement : Prop :=
  ∀ (feat : Features) (allocOk : Nat → Bool) (q : WireReq) (s : Sock) (ps : List Str) (p : Str) (toks : List Str),
    q.Good → s.bytes = q.bytes → (∀ k, allocOk k = true) → q.body.length ≤ i64Max →
    q.pieces = ps ++ [p ++ '?' :: ['&'].intercalate toks] → toks ≠ [] →
    (∀ t ∈ toks, '&' ∉ t) → ∀ req, Reads feat allocOk s req →
    ∃ m, req.getExtendedQuery feat = .ok m ∧ ∀ k, ExtValue (occurrences feat.faithful toks k) (m.get k)

/-- the tokens as the accessor sees them: the path stands before the first and a slash after the last -/
def Spec.seenTokens (dir p : Str) : List Str → List Str
  | [] => []
  | [t] => [dir ++ p ++ '?' :: t ++ ['/']]
  | t :: u :: ts => (dir ++ p ++ '?' :: t) :: ((u :: ts).dropLast ++ [(u :: ts).getLastD [] ++ ['/']])

theorem intercalate_snoc_suffix (l : List Str) (t z : Str) :
    ['&'].intercalate (l ++ [t]) ++ z = ['&'].intercalate (l ++ [t ++ z]) := by
  induction l with
  | nil => simp [List.intercalate]
  | cons a l ih =>
    cases l with
    | nil => simp [List.intercalate]
    | cons b l =>
      simp only [List.cons_append, List.intercalate, List.intersperse_cons_cons,
        List.flatten_cons, List.append_assoc] at ih ⊢
      rw [ih]

theorem getLastD_cons (u : Str) (ts : List Str) : (u :: ts).getLastD [] = (u :: ts).getLast (by simp) := by
  rw [List.getLastD_eq_getLast?, List.getLast?_eq_some_getLast (by simp)]; rfl

theorem seenTokens_join (dir p : Str) (toks : List Str) (h : toks ≠ []) :
    ['&'].intercalate (seenTokens dir p toks) = dir ++ (p ++ '?' :: ['&'].intercalate toks) ++ ['/'] := by
  match toks, h with
  | [t], _ => simp [seenTokens, List.intercalate]
  | t :: u :: ts, _ =>
    have h0 : (u :: ts).getLastD [] = (u :: ts).getLast (by simp) := getLastD_cons u ts
    have h1 := intercalate_snoc_suffix (u :: ts).dropLast ((u :: ts).getLast (by simp)) ['/']
    rw [List.dropLast_concat_getLast] at h1
    have h2 : ['&'].intercalate (t :: u :: ts) = t ++ ['&'] ++ ['&'].intercalate (u :: ts) := by
      simp [List.intercalate, List.intersperse_cons_cons]
    have h3 : ∀ (a : Str) (l : List Str), l ≠ [] → ['&'].intercalate (a :: l) = a ++ ['&'] ++ ['&'].intercalate l := by
      intro a l hl
      cases l with
      | nil => exact absurd rfl hl
      | cons b l => simp [List.intercalate, List.intersperse_cons_cons]
    rw [seenTokens, h3 _ _ (by simp), h0, ← h1, h2]
    simp

theorem seenTokens_amp (dir p : Str) (toks : List Str) (hd : '&' ∉ dir) (hp : '&' ∉ p)
    (h : ∀ t ∈ toks, '&' ∉ t) : ∀ t ∈ seenTokens dir p toks, '&' ∉ t := by
  match toks with
  | [] => simp [seenTokens]
  | [t] =>
    have := h t (by simp)
    simp [seenTokens, hd, hp, this]
  | t :: u :: ts =>
    intro x hx
    simp only [seenTokens, List.mem_cons, List.mem_append, List.not_mem_nil, or_false] at hx
    rcases hx with rfl | hx | rfl
    · have := h t (by simp)
      simp [hd, hp, this]
    · exact h x (List.mem_cons_of_mem _ (List.dropLast_subset _ hx))
    · have := h ((u :: ts).getLast (by simp)) (List.mem_cons_of_mem _ (List.getLast_mem _))
      rw [getLastD_cons]
      simp [this]

/-- the text the query accessors parse, for a request for `path?query` -/
theorem display_wire (feat : Features) (allocOk : Nat → Bool) (q : WireReq) (s : Sock) (ps : List Str) (p : Str)
    (toks : List Str) (hq : q.Good) (hb : s.bytes = q.bytes) (halloc : ∀ k, allocOk k = true)
    (hmax : q.body.length ≤ i64Max) (hp : q.pieces = ps ++ [p ++ '?' :: ['&'].intercalate toks])
    (hne : toks ≠ []) (ht : ∀ t ∈ toks, '&' ∉ t) (hpa : ∀ x ∈ p :: ps, '&' ∉ x) (req : Request)
    (hr : Reads feat allocOk s req) :
    Path.display req.requestLine.path =
      ['&'].intercalate (seenTokens ((resolve ps).flatMap fun x => x ++ ['/']) p toks) ∧
    seenTokens ((resolve ps).flatMap fun x => x ++ ['/']) p toks ≠ [] ∧
    ∀ t ∈ seenTokens ((resolve ps).flatMap fun x => x ++ ['/']) p toks, '&' ∉ t := by
  obtain ⟨req', h1, -, -, h4, -⟩ :=
    reads_wire feat allocOk q hq s [] (by simpa using hb) (.inl rfl) (fun k _ => halloc k) hmax
  obtain rfl := hr.unique h1
  rw [hp, resolve_snoc _ _ (isName_query _ _)] at h4
  have hdir : '&' ∉ (resolve ps).flatMap fun x => x ++ ['/'] := by
    have sub : ∀ (l : List Str) (up : Nat), ∀ x ∈ survivorsRev up l, x ∈ l := by
      intro l
      induction l with
      | nil => intro up x hx; simp [survivorsRev] at hx
      | cons s l ih =>
        intro up x hx
        simp only [survivorsRev] at hx
        split at hx
        · exact List.mem_cons_of_mem _ (ih _ _ hx)
        · split at hx
          · split at hx
            · rcases List.mem_cons.1 hx with rfl | hx
              · exact List.mem_cons_self ..
              · exact List.mem_cons_of_mem _ (ih _ _ hx)
            · exact List.mem_cons_of_mem _ (ih _ _ hx)
          · exact List.mem_cons_of_mem _ (ih _ _ hx)
    intro h
    obtain ⟨x, hx, hm⟩ := List.mem_flatMap.1 h
    have := sub _ _ x (List.mem_reverse.1 hx)
    have := hpa x (List.mem_cons_of_mem _ (List.mem_reverse.1 this))
    simp [this] at hm
  have htext : Path.display req.requestLine.path =
      ['&'].intercalate (seenTokens ((resolve ps).flatMap fun x => x ++ ['/']) p toks) := by
    rw [seenTokens_join _ _ _ hne, h4]
    simp [Path.display]
  have hne' : seenTokens ((resolve ps).flatMap fun x => x ++ ['/']) p toks ≠ [] := by
    match toks, hne with
    | [t], _ => simp [seenTokens]
    | t :: u :: ts, _ => simp [seenTokens]
  exact ⟨htext, hne', seenTokens_amp _ p toks hdir (hpa p (by simp)) ht⟩

/-- What the accessor returns: the extended query of the tokens with the path before the first and a
slash after the last. -/
theorem C80_exact (feat : Features) (allocOk : Nat → Bool) (q : WireReq) (s : Sock) (ps : List Str) (p : Str)
    (toks : List Str) (hq : q.Good) (hb : s.bytes = q.bytes) (halloc : ∀ k, allocOk k = true)
    (hmax : q.body.length ≤ i64Max) (hp : q.pieces = ps ++ [p ++ '?' :: ['&'].intercalate toks])
    (hne : toks ≠ []) (ht : ∀ t ∈ toks, '&' ∉ t) (hpa : ∀ x ∈ p :: ps, '&' ∉ x) (req : Request)
    (hr : Reads feat allocOk s req) :
    ∃ m, req.getExtendedQuery feat = .ok m ∧ ∀ k, ExtValue
      (occurrences feat.faithful (seenTokens ((resolve ps).flatMap fun x => x ++ ['/']) p toks) k) (m.get k) := by
  obtain ⟨htext, hne', hamp⟩ := display_wire feat allocOk q s ps p toks hq hb halloc hmax hp hne ht hpa req hr
  obtain ⟨m, e1, e2⟩ := C22_extended_query feat.faithful _ hne' hamp
  exact ⟨m, by rw [Request.getExtendedQuery, htext]; exact e1, e2⟩

/-- C21, exactly: for a request for `path?query` the accessor `get_query` returns the query of the tokens
with the path before the first and a slash after the last, whatever the segments of the path and the
tokens are. -/
theorem C21_exact (feat : Features) (allocOk : Nat → Bool) (q : WireReq) (s : Sock) (ps : List Str) (p : Str)
    (toks : List Str) (hq : q.Good) (hb : s.bytes = q.bytes) (halloc : ∀ k, allocOk k = true)
    (hmax : q.body.length ≤ i64Max) (hp : q.pieces = ps ++ [p ++ '?' :: ['&'].intercalate toks])
    (hne : toks ≠ []) (ht : ∀ t ∈ toks, '&' ∉ t) (hpa : ∀ x ∈ p :: ps, '&' ∉ x) (req : Request)
    (hr : Reads feat allocOk s req) :
    ∃ m, req.getQuery feat = .ok m ∧ m.Uniq ∧ ∀ k, m.get k = lastValue k
      ((seenTokens ((resolve ps).flatMap fun x => x ++ ['/']) p toks).filterMap (pairOf feat.faithful)) := by
  obtain ⟨htext, hne', hamp⟩ := display_wire feat allocOk q s ps p toks hq hb halloc hmax hp hne ht hpa req hr
  obtain ⟨m, e1, e2, e3⟩ := C20_last_value feat.faithful _ hne' hamp
  exact ⟨m, by rw [Request.getQuery, htext]; exact e1, e2, e3⟩

/-- What holds of C80: a key that is neither that of the (wrong) first token nor that of the (wrong) last
one has the value it should have. Missing: these two, see `C80_counterexample`. -/
theorem C80_inner_partial (feat : Features) (allocOk : Nat → Bool) (q : WireReq) (s : Sock) (ps : List Str) (p : Str)
    (first last : Str) (mid : List Str) (hq : q.Good) (hb : s.bytes = q.bytes) (halloc : ∀ k, allocOk k = true)
    (hmax : q.body.length ≤ i64Max)
    (hp : q.pieces = ps ++ [p ++ '?' :: ['&'].intercalate (first :: mid ++ [last])])
    (ht : ∀ t ∈ first :: mid ++ [last], '&' ∉ t) (hpa : ∀ x ∈ p :: ps, '&' ∉ x) (req : Request)
    (hr : Reads feat allocOk s req) :
    ∃ m, req.getExtendedQuery feat = .ok m ∧ ∀ k,
      (∀ t ∈ [first, last], ∀ o, occOf feat.faithful t = some o → o.key ≠ k) →
      (∀ o, occOf feat.faithful (((resolve ps).flatMap fun x => x ++ ['/']) ++ p ++ '?' :: first) = some o → o.key ≠ k) →
      (∀ o, occOf feat.faithful (last ++ ['/']) = some o → o.key ≠ k) →
      ExtValue (occurrences feat.faithful (first :: mid ++ [last]) k) (m.get k) := by
  obtain ⟨m, h1, h2⟩ := C80_exact feat allocOk q s ps p (first :: mid ++ [last]) hq hb halloc hmax hp (by simp) ht hpa req hr
  refine ⟨m, h1, fun k hk1 hk2 hk3 => ?_⟩
  have drop : ∀ (a b : Str) (l : List Str), (∀ o, occOf feat.faithful a = some o → o.key ≠ k) →
      (∀ o, occOf feat.faithful b = some o → o.key ≠ k) →
      occurrences feat.faithful (a :: l ++ [b]) k = occurrences feat.faithful l k := by
    intro a b l ha hb
    unfold occurrences
    have e1 : ∀ (t : Str) (l : List Str), (∀ o, occOf feat.faithful t = some o → o.key ≠ k) →
        ((t :: l).filterMap (occOf feat.faithful)).filter (fun o => decide (o.key = k)) =
          (l.filterMap (occOf feat.faithful)).filter fun o => decide (o.key = k) := by
      intro t l ho
      rw [List.filterMap_cons]
      cases h : occOf feat.faithful t with
      | none => rfl
      | some o => simp [ho o h]
    rw [List.cons_append, e1 _ _ ha, List.filterMap_append, List.filter_append, e1 _ _ hb]
    simp
  have hseen : ∀ dir, seenTokens dir p (first :: mid ++ [last]) =
      (dir ++ p ++ '?' :: first) :: mid ++ [last ++ ['/']] := by
    intro dir
    cases mid with
    | nil => rfl
    | cons b mid =>
      simp only [List.cons_append, seenTokens]
      congr 1
      rw [show b :: (mid ++ [last]) = (b :: mid) ++ [last] from rfl, List.getLastD_concat, List.dropLast_concat]
      rfl
  have := h2 k
  rw [hseen, drop _ _ _ hk2 hk3] at this
  rw [drop _ _ _ (hk1 _ (by simp)) (hk1 _ (by simp))]
  exact this

open TargetExample in
/-- C80 is false of the code: for `/p?a[]=1&a[]=2` the accessor returns `a` ↦ `[2/]`. -/
theorem C80_counterexample : ¬ C80_statement ∧
    ∃ req, Reads .default (fun _ => true) (sock [c!"p?a[]=1&a[]=2"]) req ∧
      req.getExtendedQuery .default = .ok [(c!"p?a", .arr [c!"1"]), (c!"a", .arr [c!"2/"])] := by
  have hg := good [c!"p?a[]=1&a[]=2"] (by decide) (by decide)
  obtain ⟨req, h1, -, -, h4, -⟩ :=
    reads_wire .default (fun _ => true) _ hg (sock [c!"p?a[]=1&a[]=2"]) [] (by simp [sock_bytes]) (.inl rfl)
      (fun k _ => rfl) (by decide)
  have hpath : req.requestLine.path = [c!"p?a[]=1&a[]=2"] := by rw [h4]; decide
  have hq : req.getExtendedQuery .default = .ok [(c!"p?a", .arr [c!"1"]), (c!"a", .arr [c!"2/"])] := by
    rw [Request.getExtendedQuery, hpath]; decide +kernel
  refine ⟨fun h => ?_, req, h1, hq⟩
  obtain ⟨m, e1, e2⟩ := h .default (fun _ => true) _ (sock [c!"p?a[]=1&a[]=2"]) [[]] c!"p" [c!"a[]=1", c!"a[]=2"]
    hg (sock_bytes _) (fun _ => rfl) (by decide) rfl (by simp) (by decide) req h1
  rw [hq] at e1
  simp only [Res.ok.injEq] at e1
  subst e1
  have := ((e2 c!"a").2 (by decide +kernel)).1 c!"a" c!"1" [.push c!"a" c!"2"] (by rfl)
  revert this; decide +kernel

open TargetExample in
/-- `/p?x=1&a[]=2&a[]=3&y=4`: `a` has both its values -/
example : ∃ req m, Reads .default (fun _ => true) (sock [c!"p?x=1&a[]=2&a[]=3&y=4"]) req ∧
    req.getExtendedQuery .default = .ok m ∧ m.get c!"a" = some (.arr [c!"2", c!"3"]) := by
  have hg := good [c!"p?x=1&a[]=2&a[]=3&y=4"] (by decide) (by decide)
  obtain ⟨req, h1, -⟩ :=
    reads_wire .default (fun _ => true) _ hg (sock [c!"p?x=1&a[]=2&a[]=3&y=4"]) [] (by simp [sock_bytes]) (.inl rfl)
      (fun k _ => rfl) (by decide)
  obtain ⟨m, e1, e2⟩ := C80_inner_partial .default (fun _ => true) _ (sock [c!"p?x=1&a[]=2&a[]=3&y=4"]) [[]] c!"p"
    c!"x=1" c!"y=4" [c!"a[]=2", c!"a[]=3"] hg (sock_bytes _) (fun _ => rfl) (by decide) rfl (by decide) (by decide) req h1
  refine ⟨req, m, h1, e1, ?_⟩
  have hk : ∀ t ∈ [c!"x=1", c!"y=4", c!"p?x=1", c!"y=4/"], ∀ o, occOf Features.default.faithful t = some o → o.key ≠ c!"a" := by
    have : ∀ t ∈ [c!"x=1", c!"y=4", c!"p?x=1", c!"y=4/"],
        ((occOf Features.default.faithful t).map Occ.key) ≠ some c!"a" := by decide +kernel
    intro t ht o ho hk
    exact this t ht (by rw [ho]; simp [hk])
  exact ((e2 c!"a" (fun t ht => hk t (by
    simp only [List.mem_cons, List.not_mem_nil, or_false] at ht ⊢
    rcases ht with rfl | rfl <;> simp)) (hk _ (by decide)) (hk _ (by decide))).2 (by decide +kernel)).1
    c!"a" c!"2" [.push c!"a" c!"3"] (by rfl)

open TargetExample in
/-- `/p?a=1&b=2`: `get_query` holds `p?a` ↦ `1` and `b` ↦ `2/`, and nothing under `a` -/
example : ∃ req m, Reads .default (fun _ => true) (sock [c!"p?a=1&b=2"]) req ∧ req.getQuery .default = .ok m ∧
    m.get c!"p?a" = some c!"1" ∧ m.get c!"b" = some c!"2/" ∧ m.get c!"a" = none := by
  have hg := good [c!"p?a=1&b=2"] (by decide) (by decide)
  obtain ⟨req, h1, -⟩ :=
    reads_wire .default (fun _ => true) _ hg (sock [c!"p?a=1&b=2"]) [] (by simp [sock_bytes]) (.inl rfl)
      (fun k _ => rfl) (by decide)
  obtain ⟨m, e1, -, e2⟩ := C21_exact .default (fun _ => true) _ (sock [c!"p?a=1&b=2"]) [[]] c!"p"
    [c!"a=1", c!"b=2"] hg (sock_bytes _) (fun _ => rfl) (by decide) rfl (by simp) (by decide) (by decide) req h1
  refine ⟨req, m, h1, e1, ?_, ?_, ?_⟩ <;> rw [e2] <;> decide +kernel

end Octane
