import Verif.Props.Server
import Verif.Props.Query
import Verif.Proof.Infix
/-
C75: may a handler copy what it got from the request into a header of the answer?
-/
namespace Octane
open Spec

/-- the text has neither CR nor LF, so it stays on one line wherever it is written -/
def Spec.OneLine (t : Str) : Prop := '\r' ∉ t ∧ '\n' ∉ t

instance (t : Str) : Decidable (OneLine t) := by unfold OneLine; infer_instance

/-- The full claim of C75: in faithful mode everything a handler can get from the head of a request -
header values, cookies, path segments (so also URL variables) and query parameters - is on one line. -/
def C75_statement : Prop :=
  ∀ (feat : Features) (allocOk : Nat → Bool) (s : Sock) (req : Request), feat.faithful = true →
    Reads feat allocOk s req →
    (∀ k v, req.headers.get k = some v → OneLine v) ∧
    (∀ c ∈ req.cookies, OneLine c.name ∧ OneLine c.value ∧ ∀ a ∈ c.attrs, OneLine a) ∧
    (∀ x ∈ req.requestLine.path, OneLine x) ∧
    ∀ m, req.getQuery feat = .ok m → ∀ k v, m.get k = some v → OneLine v

theorem oneLine_of_infix {s t : Str} (h : OneLine s) (ht : t <:+: s) : OneLine t :=
  ⟨fun h' => h.1 (ht.subset h'), fun h' => h.2 (ht.subset h')⟩

theorem reads_values {feat : Features} {allocOk : Nat → Bool} {s : Sock} {req : Request}
    (h : Reads feat allocOk s req) (k v : Str) (hv : req.headers.get k = some v) :
    ∃ vs : List Str, v = c!", ".intercalate vs ∧ ∀ x ∈ vs, ¬ Occurs x crlf ∧
      (feat.faithful = true → ∀ c ∈ x, ¬ isRefusedControl c) := by
  obtain ⟨hdrs, line, rem, reader, H, rl, h1, h2, h3, h4⟩ := h
  obtain ⟨-, e2⟩ := fromRaw_fields h4
  obtain ⟨⟨lines, -, -, hl, hlen, hb⟩, hok⟩ := Headers.parse_some h2
  rw [e2, hok.2] at hv
  unfold joined at hv
  revert hv
  cases hvs : ((H.raw.map hpair).filter fun h => lowered h.1 = k).map (·.2) with
  | nil => intro hv; simp at hv
  | cons w vs =>
    intro hv
    simp only [Option.some.injEq] at hv
    refine ⟨w :: vs, hv.symm, fun x hx => ?_⟩
    rw [← hvs] at hx
    obtain ⟨⟨n, x'⟩, hm, rfl⟩ := List.mem_map.1 hx
    have hm := (List.mem_filter.1 hm).1
    obtain ⟨i, hi, he⟩ := List.mem_iff_getElem.1 hm
    have hli : i < lines.length := by rw [← hlen]; exact hi
    obtain ⟨ws, f1, -, -, -, -, f2⟩ := hb i lines[i] n x' (by simp [hli]) (by rw [List.getElem?_eq_getElem hi, he])
    refine ⟨not_occurs_infix (hl lines[i] (List.getElem_mem hli)) ?_, fun hf => (f2 hf).2⟩
    rw [f1]
    exact ⟨n ++ ':' :: ws, [], by simp⟩

/-- What holds of C75 in faithful mode: header values and cookies are on one line. Missing: path segments
(see `C75_pairs_partial` and `C75_counterexample`) and query parameters (see `C75_splits`). -/
theorem C75_headers_partial (feat : Features) (allocOk : Nat → Bool) (s : Sock) (req : Request)
    (hf : feat.faithful = true) (h : Reads feat allocOk s req) :
    (∀ k v, req.headers.get k = some v → OneLine v) ∧
    (∀ c ∈ req.cookies, OneLine c.name ∧ OneLine c.value ∧ ∀ a ∈ c.attrs, OneLine a) := by
  have key : ∀ k v, req.headers.get k = some v → OneLine v := by
    intro k v hv
    obtain ⟨vs, rfl, hvs⟩ := reads_values h k v hv
    constructor
    · intro hm
      rcases mem_joined _ _ hm with h1 | h1 | ⟨x, hx, h1⟩
      · exact absurd h1 (by decide)
      · exact absurd h1 (by decide)
      · exact (hvs x hx).2 hf _ h1 (by decide)
    · intro hm
      rcases mem_joined _ _ hm with h1 | h1 | ⟨x, hx, h1⟩
      · exact absurd h1 (by decide)
      · exact absurd h1 (by decide)
      · exact (hvs x hx).2 hf _ h1 (by decide)
  refine ⟨key, fun c hc => ?_⟩
  obtain ⟨hdrs, line, rem, reader, H, rl, h1, h2, h3, h4⟩ := h
  obtain ⟨-, e2⟩ := fromRaw_fields h4
  rcases fromRaw_cookies h4 with h5 | ⟨v, h5, h6⟩
  · rw [h5] at hc; simp at hc
  · obtain ⟨g1, g2, g3⟩ := cookieParse_infix h6 c hc
    have hv := key _ v (e2 ▸ h5)
    exact ⟨oneLine_of_infix hv g1, oneLine_of_infix hv g2, fun a ha => oneLine_of_infix hv (g3 a ha)⟩

/-- What holds of C75 in every mode: header values, cookies and path segments contain no CRLF pair. -/
theorem C75_pairs_partial (feat : Features) (allocOk : Nat → Bool) (s : Sock) (req : Request)
    (h : Reads feat allocOk s req) :
    (∀ k v, req.headers.get k = some v → ¬ Occurs v crlf) ∧
    (∀ c ∈ req.cookies, ¬ Occurs c.name crlf ∧ ¬ Occurs c.value crlf ∧ ∀ a ∈ c.attrs, ¬ Occurs a crlf) ∧
    ∀ x ∈ req.requestLine.path, ¬ Occurs x crlf := by
  have key : ∀ k v, req.headers.get k = some v → ¬ Occurs v crlf := by
    intro k v hv
    obtain ⟨vs, rfl, hvs⟩ := reads_values h k v hv
    exact no_crlf_joined vs fun x hx => (hvs x hx).1
  obtain ⟨hdrs, line, rem, reader, H, rl, h1, h2, h3, h4⟩ := h
  obtain ⟨e1, e2⟩ := fromRaw_fields h4
  refine ⟨key, fun c hc => ?_, fun x hx => ?_⟩
  · rcases fromRaw_cookies h4 with h5 | ⟨v, h5, h6⟩
    · rw [h5] at hc; simp at hc
    · obtain ⟨g1, g2, g3⟩ := cookieParse_infix h6 c hc
      have hv := key _ v (e2 ▸ h5)
      exact ⟨not_occurs_infix hv g1, not_occurs_infix hv g2, fun a ha => not_occurs_infix hv (g3 a ha)⟩
  · rw [e1] at hx
    exact not_occurs_infix (readHead_line h1) (parseLine_infix h3 x hx)

namespace EchoExample

/-- the request `GET /a?x=1&y=1%0D%0AB:c&z=2` -/
def req : Request :=
  ⟨⟨.get, [c!"a?x=1&y=1%0D%0AB:c&z=2"], .http10⟩, ⟨[(c!"a", c!"b")], [⟨c!"A", c!"b"⟩]⟩, [], []⟩

theorem reads : Reads Features.default (fun _ => true)
    (sends c!"GET /a?x=1&y=1%0D%0AB:c&z=2 HTTP/1.0\r\nA: b\r\n\r\n") req :=
  ⟨c!"A: b", c!"GET /a?x=1&y=1%0D%0AB:c&z=2 HTTP/1.0", [], ⟨[], .eof⟩, ⟨[(c!"a", c!"b")], [⟨c!"A", c!"b"⟩]⟩,
    ⟨.get, [c!"a?x=1&y=1%0D%0AB:c&z=2"], .http10⟩, by rfl, by decide +kernel, by decide +kernel,
    by decide +kernel⟩

theorem reads_lf : Reads Features.default (fun _ => true) (sends c!"GET /a\nb HTTP/1.0\r\nA: b\r\n\r\n")
    ⟨⟨.get, [c!"a\nb"], .http10⟩, ⟨[(c!"a", c!"b")], [⟨c!"A", c!"b"⟩]⟩, [], []⟩ :=
  ⟨c!"A: b", c!"GET /a\nb HTTP/1.0", [], ⟨[], .eof⟩, ⟨[(c!"a", c!"b")], [⟨c!"A", c!"b"⟩]⟩,
    ⟨.get, [c!"a\nb"], .http10⟩, by rfl, by decide +kernel, by decide +kernel, by decide +kernel⟩

theorem reads_cookie : Reads Features.default (fun _ => true)
    (sends c!"GET /a HTTP/1.0\r\nA: b\r\nCookie: c=d; e=f\r\n\r\n")
    ⟨⟨.get, [c!"a"], .http10⟩, ⟨[(c!"a", c!"b"), (c!"cookie", c!"c=d; e=f")],
      [⟨c!"A", c!"b"⟩, ⟨c!"Cookie", c!"c=d; e=f"⟩]⟩, [],
      [⟨c!"c", c!"d", []⟩, ⟨c!"e", c!"f", []⟩]⟩ :=
  ⟨c!"A: b\r\nCookie: c=d; e=f", c!"GET /a HTTP/1.0", [], ⟨[], .eof⟩,
    ⟨[(c!"a", c!"b"), (c!"cookie", c!"c=d; e=f")], [⟨c!"A", c!"b"⟩, ⟨c!"Cookie", c!"c=d; e=f"⟩]⟩,
    ⟨.get, [c!"a"], .http10⟩, by rfl, by decide +kernel, by decide +kernel, by decide +kernel⟩

/-- a handler that copies the query parameter `y` into header `X` -/
def echo : Closure (Unit × Response) := doing fun r =>
  [.set c!"X" (match r.getQuery .default with
    | .ok m => (m.get c!"y").getD []
    | .panic => []), .send 0 (utf8 c!"hi")]

example : ∃ c ∈ [(⟨c!"c", c!"d", []⟩ : Cookie), ⟨c!"e", c!"f", []⟩], OneLine c.value :=
  ⟨_, by simp, ((C75_headers_partial _ _ _ _ rfl reads_cookie).2 ⟨c!"c", c!"d", []⟩ (by simp)).2.1⟩

end EchoExample

open EchoExample

/-- C75 is false of the code: a query parameter can contain CRLF, a path segment LF. -/
theorem C75_counterexample : ¬ C75_statement ∧
    (∃ s req m v, Reads Features.default (fun _ => true) s req ∧ req.getQuery .default = .ok m ∧
      m.get c!"y" = some v ∧ Occurs v crlf) ∧
    (∃ s req x, Reads Features.default (fun _ => true) s req ∧ x ∈ req.requestLine.path ∧ '\n' ∈ x) := by
  refine ⟨fun h => ?_, ⟨_, _, [(c!"a?x", c!"1"), (c!"y", c!"1\r\nB:c"), (c!"z", c!"2/")], c!"1\r\nB:c", reads,
    by decide +kernel, by decide +kernel, 1, c!"1", c!"B:c", by decide, by decide⟩,
    ⟨_, _, c!"a\nb", reads_lf, by simp, by decide⟩⟩
  exact absurd ((h _ _ _ _ rfl reads_lf).2.2.1 c!"a\nb" (by simp)).2 (by decide)

/-- the four ways to write CR or LF as a percent escape -/
def Spec.lineEscapes : List Str := [c!"%0A", c!"%0a", c!"%0D", c!"%0d"]

theorem infix_sep {e a b : Str} (hne : e ≠ []) (hs : '/' ∉ e) (h : e <:+: a ++ '/' :: b) : e <:+: a ∨ e <:+: b := by
  obtain ⟨u, w, h⟩ := h
  rw [List.append_assoc] at h
  rcases List.append_eq_append_iff.1 h with ⟨t, h1, h2⟩ | ⟨t, h1, h2⟩
  · rcases List.append_eq_append_iff.1 h2 with ⟨t', h3, h4⟩ | ⟨t', h3, h4⟩
    · exact .inl ⟨u, t', by rw [h1, h3, List.append_assoc]⟩
    · cases t' with
      | nil => exact .inl ⟨u, [], by rw [h1, h3]; simp⟩
      | cons c t' =>
        simp only [List.cons_append, List.cons.injEq] at h4
        exact absurd (by rw [h3, ← h4.1]; simp) hs
  · cases t with
    | nil =>
      cases e with
      | nil => exact absurd rfl hne
      | cons c e =>
        simp only [List.nil_append, List.cons_append, List.cons.injEq] at h2
        exact absurd (by rw [← h2.1]; simp) hs
    | cons c t =>
      simp only [List.cons_append, List.cons.injEq] at h2
      exact .inr ⟨t, w, by rw [h2.2, List.append_assoc]⟩

theorem infix_display {e : Str} (hne : e ≠ []) (hs : '/' ∉ e) (l : List Str)
    (h : e <:+: l.flatMap fun x => x ++ ['/']) : ∃ x ∈ l, e <:+: x := by
  induction l with
  | nil => simp at h; exact absurd h hne
  | cons x l ih =>
    rw [List.flatMap_cons, List.append_assoc] at h
    rcases infix_sep hne hs h with h | h
    · exact ⟨x, by simp, h⟩
    · obtain ⟨y, hy, h⟩ := ih h
      exact ⟨y, by simp [hy], h⟩

/-- a character of a decoded text was there before or stood there as an escape -/
theorem mem_decode {c : Char} {s : Str} (h : c ∈ decode s) : c ∈ s ∨
    ∃ a b x y, ['%', a, b] <:+: s ∧ hexVal a = some x ∧ hexVal b = some y ∧ c = Char.ofNat (16 * x + y) := by
  induction s using decode.induct with
  | case1 => simp [decode] at h
  | case2 d => exact .inl (by simpa [decode] using h)
  | case3 d e => exact .inl (by simpa [decode] using h)
  | case4 a b r x y hb ha ih =>
    rw [decode, if_pos rfl] at h
    simp only [ha, hb, List.mem_cons] at h
    rcases h with h | h
    · exact .inr ⟨a, b, x, y, ⟨[], r, by simp⟩, ha, hb, h⟩
    · rcases ih h with h | ⟨a', b', x', y', ⟨u, w, h⟩, h'⟩
      · exact .inl (by simp [h])
      · exact .inr ⟨a', b', x', y', ⟨'%' :: a :: b :: u, w, by rw [← h]; simp⟩, h'⟩
  | case5 a b r hno ih =>
    rw [decode, if_pos rfl] at h
    have h : c = '%' ∨ c ∈ decode (a :: b :: r) := by
      revert h
      split
      · rename_i x y ha hb; exact absurd hb (hno x y ha)
      · intro h; simpa using h
    rcases h with h | h
    · exact .inl (by simp [h])
    · rcases ih h with h | ⟨a', b', x', y', ⟨u, w, h⟩, h'⟩
      · exact .inl (by rw [List.mem_cons]; exact .inr h)
      · exact .inr ⟨a', b', x', y', ⟨'%' :: u, w, by rw [← h]; simp⟩, h'⟩
  | case6 d a b r hd ih =>
    rw [decode, if_neg hd, List.mem_cons] at h
    rcases h with h | h
    · exact .inl (by simp [h])
    · rcases ih h with h | ⟨a', b', x', y', ⟨u, w, h⟩, h'⟩
      · exact .inl (by rw [List.mem_cons]; exact .inr h)
      · exact .inr ⟨a', b', x', y', ⟨d :: u, w, by rw [← h]; simp⟩, h'⟩

theorem hexVal_mem {c : Char} {n : Nat} (h : hexVal c = some n) :
    (c, n) ∈ c!"0123456789abcdef".zipIdx ++ c!"0123456789ABCDEF".zipIdx := by
  unfold hexVal at h
  split at h
  · rename_i m hm
    obtain rfl := Option.some.inj h
    obtain ⟨h1, h2, -⟩ := List.idxOf?_eq_some_iff.1 hm
    simp only [List.mem_append]
    exact .inl (List.mk_mem_zipIdx_iff_getElem?.2 (by rw [List.getElem?_eq_getElem h1, h2]))
  · obtain ⟨h1, h2, -⟩ := List.idxOf?_eq_some_iff.1 h
    simp only [List.mem_append]
    exact .inr (List.mk_mem_zipIdx_iff_getElem?.2 (by rw [List.getElem?_eq_getElem h1, h2]))

theorem escape_line {a b : Char} {x y : Nat} (ha : hexVal a = some x) (hb : hexVal b = some y)
    (h : Char.ofNat (16 * x + y) = '\r' ∨ Char.ofNat (16 * x + y) = '\n') : ['%', a, b] ∈ lineEscapes := by
  have key : ∀ p ∈ c!"0123456789abcdef".zipIdx ++ c!"0123456789ABCDEF".zipIdx,
      ∀ q ∈ c!"0123456789abcdef".zipIdx ++ c!"0123456789ABCDEF".zipIdx,
      (Char.ofNat (16 * p.2 + q.2) = '\r' ∨ Char.ofNat (16 * p.2 + q.2) = '\n') → ['%', p.1, q.1] ∈ lineEscapes := by
    decide +kernel
  exact key _ (hexVal_mem ha) _ (hexVal_mem hb) h

theorem oneLine_decode {s : Str} (h : OneLine s) (he : ∀ e ∈ lineEscapes, ¬ e <:+: s) : OneLine (decode s) := by
  constructor <;> intro hc
  · rcases mem_decode hc with hc | ⟨a, b, x, y, h1, ha, hb, h2⟩
    · exact h.1 hc
    · exact he _ (escape_line ha hb (.inl h2.symm)) h1
  · rcases mem_decode hc with hc | ⟨a, b, x, y, h1, ha, hb, h2⟩
    · exact h.2 hc
    · exact he _ (escape_line ha hb (.inr h2.symm)) h1

/-- What holds of C75 in faithful mode for a request whose path as it was sent has neither CR nor LF nor
one of the four escapes that stand for them: the whole claim, for the names of the parameters too. -/
theorem C75_clean_partial (feat : Features) (allocOk : Nat → Bool) (s : Sock) (req : Request)
    (hf : feat.faithful = true) (h : Reads feat allocOk s req) (hraw : ∀ x ∈ req.requestLine.path, OneLine x)
    (hesc : ∀ x ∈ req.requestLine.path, ∀ e ∈ lineEscapes, ¬ Occurs x e) :
    (∀ k v, req.headers.get k = some v → OneLine v) ∧
    (∀ c ∈ req.cookies, OneLine c.name ∧ OneLine c.value ∧ ∀ a ∈ c.attrs, OneLine a) ∧
    (∀ x ∈ req.requestLine.path, OneLine x) ∧
    ∀ m, req.getQuery feat = .ok m → ∀ k v, m.get k = some v → OneLine k ∧ OneLine v := by
  obtain ⟨a1, a2⟩ := C75_headers_partial feat allocOk s req hf h
  refine ⟨a1, a2, hraw, fun m hm k v hv => ?_⟩
  have hd : OneLine (Path.display req.requestLine.path) := by
    constructor <;> intro hc <;> simp only [Path.display, List.mem_flatMap, List.mem_append] at hc <;>
      obtain ⟨x, hx, hc | hc⟩ := hc
    · exact (hraw x hx).1 hc
    · simp at hc
    · exact (hraw x hx).2 hc
    · simp at hc
  have he : ∀ e ∈ lineEscapes, ¬ e <:+: Path.display req.requestLine.path := by
    intro e hee hi
    have : e ≠ [] ∧ '/' ∉ e := (show ∀ e ∈ lineEscapes, e ≠ [] ∧ '/' ∉ e by decide) e hee
    obtain ⟨x, hx, u, w, hi⟩ := infix_display this.1 this.2 _ hi
    exact hesc x hx e hee ⟨u.length, u, w, hi.symm, rfl⟩
  have part : ∀ t, t <:+: Path.display req.requestLine.path → OneLine (decode t) := fun t ht =>
    oneLine_decode (oneLine_of_infix hd ht) fun e hee hi => he e hee (hi.trans ht)
  obtain ⟨m', h1, -, h3⟩ := C20_last_value feat.faithful (splitChar '&' (Path.display req.requestLine.path))
    (splitChar_ne_nil _ _) (splitChar_not_mem _ _)
  rw [splitChar_intercalate] at h1
  obtain rfl : m = m' := by
    unfold Request.getQuery at hm
    rw [hm] at h1
    injection h1
  rw [h3] at hv
  unfold lastValue at hv
  obtain ⟨p, hp, rfl⟩ := Option.map_eq_some_iff.1 hv
  obtain ⟨hp, hk⟩ := List.mem_filter.1 (List.mem_of_getLast? hp)
  simp only [decide_eq_true_eq] at hk
  obtain ⟨t, ht, htp⟩ := List.mem_filterMap.1 hp
  have hti : t <:+: Path.display req.requestLine.path := by
    have := infix_intercalate ['&'] _ _ ht
    rwa [splitChar_intercalate] at this
  unfold pairOf at htp
  simp only at htp
  split at htp
  · cases htp
  · obtain rfl := Option.some.inj htp
    refine ⟨hk ▸ part _ (List.IsInfix.trans (List.takeWhile_prefix _).isInfix hti), part _ (List.IsInfix.trans ?_ hti)⟩
    exact ((List.drop_suffix _ _).trans (List.dropWhile_suffix _)).isInfix

/-- the request `GET /a?x=1&y=%41%0&z=2` has escapes, but none that stands for CR or LF -/
example : ∃ m, (⟨⟨.get, [c!"a?x=1&y=%41%0&z=2"], .http10⟩, ⟨[(c!"a", c!"b")], [⟨c!"A", c!"b"⟩]⟩, [], []⟩ : Request).getQuery
    .default = .ok m ∧ m.get c!"y" = some c!"A%0" ∧ OneLine c!"A%0" := by
  have h : Reads Features.default (fun _ => true) (sends c!"GET /a?x=1&y=%41%0&z=2 HTTP/1.0\r\nA: b\r\n\r\n")
      ⟨⟨.get, [c!"a?x=1&y=%41%0&z=2"], .http10⟩, ⟨[(c!"a", c!"b")], [⟨c!"A", c!"b"⟩]⟩, [], []⟩ :=
    ⟨c!"A: b", c!"GET /a?x=1&y=%41%0&z=2 HTTP/1.0", [], ⟨[], .eof⟩, ⟨[(c!"a", c!"b")], [⟨c!"A", c!"b"⟩]⟩,
      ⟨.get, [c!"a?x=1&y=%41%0&z=2"], .http10⟩, by rfl, by decide +kernel, by decide +kernel, by decide +kernel⟩
  refine ⟨[(c!"a?x", c!"1"), (c!"y", c!"A%0"), (c!"z", c!"2/")], by decide +kernel, by decide +kernel, ?_⟩
  refine ((C75_clean_partial _ _ _ _ rfl h ?_ ?_).2.2.2 [(c!"a?x", c!"1"), (c!"y", c!"A%0"), (c!"z", c!"2/")]
    (by decide +kernel) c!"y" c!"A%0" (by decide +kernel)).2
  · decide
  · intro x hx e he hi
    rw [occurs_iff_infix] at hi
    revert e
    simp only [List.mem_singleton] at hx
    subst hx
    decide +kernel

/-- How bad it is: through a handler that copies a query parameter into a header, the sender of the
request adds a header of their own to the answer. -/
theorem C75_splits : ∃ bytes v,
    (demo echo).serve () (sends c!"GET /a?x=1&y=1%0D%0AB:c&z=2 HTTP/1.0\r\nA: b\r\n\r\n") = .ok ((), bytes) ∧
      ClientParses bytes v ∧ (c!"X", c!"1") ∈ v.headers ∧ (c!"B", c!"c") ∈ v.headers := by
  let lines : List Str := [c!"X: 1", c!"B:c", c!"Content-Length: 2", c!"Date: Thu, 01 Jan 1970 00:00:00 GMT",
    c!"Content-Type: text/html"]
  refine ⟨utf8 (crlf.intercalate (c!"HTTP/1.1 200 OK" :: lines)) ++ blankLine ++ utf8 c!"hi",
    ⟨c!"1.1", c!"200", c!"OK", [(c!"X", c!"1"), (c!"B", c!"c"), (c!"Content-Length", c!"2"),
      (c!"Date", c!"Thu, 01 Jan 1970 00:00:00 GMT"), (c!"Content-Type", c!"text/html")], utf8 c!"hi"⟩,
    ?_, ⟨c!"HTTP/1.1 200 OK", lines, firstSplit_lines _ _ ?_ _, ?_, ⟨by decide, by decide, by decide⟩, ?_⟩,
    by simp, by simp⟩
  · rw [serve_reads reads]
    have : (demo echo).handle () req = .ok ((), utf8 (crlf.intercalate (c!"HTTP/1.1 200 OK" :: lines)) ++ blankLine ++
        utf8 c!"hi") := by decide +kernel
    rw [this]; rfl
  · decide +kernel
  · have : ∀ l ∈ c!"HTTP/1.1 200 OK" :: lines, '\r' ∉ l := by decide +kernel
    exact fun l hl => no_crlf_of_no_cr (this l hl)
  · refine .cons ⟨[' '], by decide, by decide, by decide, by decide, by decide, by simp⟩
      (.cons ⟨[], by decide, by decide, by decide, by decide, by decide, by simp⟩
      (.cons ⟨[' '], by decide, by decide, by decide, by decide, by decide, by simp⟩
      (.cons ⟨[' '], by decide, by decide, by decide, by decide, by decide, by simp⟩
      (.cons ⟨[' '], by decide, by decide, by decide, by decide, by decide, by simp⟩ .nil))))

end Octane
