import Verif.Props.Robust
/-
C116: the order of the header lines, the case of their names, and values spread over several lines.
-/
namespace Octane
open Spec
variable {W : Type u}

/-- Two requests with the same request line, body and cookies, and the same value for every header name. -/
structure Spec.Alike (r r' : Request) : Prop where
  line : r.requestLine = r'.requestLine
  get : ∀ k, r.headers.get k = r'.headers.get k
  body : r.body = r'.body
  cookies : r.cookies = r'.cookies

/-- The handler looks headers up by name; it does not look at the list of header lines. -/
def Spec.LooksUp (h : Closure S) : Prop :=
  ∀ r r' vars s, Alike r r' → h ⟨r, vars⟩ s = h ⟨r', vars⟩ s

theorem replay_alike (uv : Bool) {r r' : Request} (h : Alike r r') (log : List (Reg S))
    (hl : ∀ e ∈ log, LooksUp e.handler) (s : S) : replay uv r log s = replay uv r' log s := by
  induction log generalizing s with
  | nil => rfl
  | cons e log ih =>
    have ih := fun s => ih (fun e he => hl e (List.mem_cons_of_mem _ he)) s
    simp only [replay, ← h.line, ih]
    rw [hl e List.mem_cons_self r r' _ s h]

theorem validate_alike {r r' : Request} (h : Alike r r') : Http.validate r = Http.validate r' := by
  simp only [Http.validate, Http.http11Check, Http.http10Check, h.get, h.line]

/-- C116: two requests whose header fields have the same values, and which are the same otherwise, are answered the
same, by handlers that look headers up by name: whatever is registered and however the bytes are cut. -/
theorem C116_same (calls : List (Call (W × Response))) (hf : FairL calls) (hn : (logOfL calls).length < 2 ^ 64)
    (sv : Server W) (hsv : execL Router.new calls = .ok sv.router) (hl : ∀ e ∈ logOfL calls, LooksUp e.handler)
    (q : WireReq) (headers' : List (Str × Str)) (hq : q.Framed) (hq' : { q with headers := headers' }.Framed)
    (hj : ∀ k, joined q.headers k = joined headers' k)
    (s s' : Sock) (hb : s.bytes = q.bytes) (hb' : s'.bytes = { q with headers := headers' }.bytes)
    (halloc : ∀ k ≤ q.body.length, sv.allocOk k = true) (hmax : q.body.length ≤ i64Max) (w : W) :
    sv.serve w s = sv.serve w s' := by
  obtain ⟨rem, reader, H, rl, e1, e2, e3, e4, -, -, -, -, -, -, e5⟩ :=
    wire_texts sv.feat sv.allocOk q hq s [] (by simpa using hb) (.inl rfl) halloc hmax
  obtain ⟨rem', reader', H', rl', e1', e2', e3', e4', -, -, -, -, -, -, e5'⟩ :=
    wire_texts sv.feat sv.allocOk _ hq' s' [] (by simpa using hb') (.inl rfl) halloc hmax
  have hrl : rl' = rl := by
    have h : RequestLine.parse sv.feat.faithful q.line = .ok (some rl') := e3'
    rw [e3] at h
    injection h with h; injection h with h
    exact h.symm
  subst hrl
  have hg : ∀ k, H.get k = H'.get k := fun k => by rw [e5, e5', hj]
  unfold Server.serve
  simp only [e1, e1', Io.bind_ok, e2, e2', Res.bind_ok', Res.unwrap_some, Io.ofRes_ok, e3, e3', e4, e4']
  simp only [Request.parse, hg]
  generalize (if sv.feat.cookies = true then
    match H'.get c!"cookie" with
    | some v => Cookie.parse v
    | none => Res.ok []
  else Res.ok []) = C
  cases C with
  | panic => rfl
  | ok cs =>
    simp only [Res.bind_ok', Io.ofRes_ok, Io.bind_ok]
    have ha : Alike ⟨rl', H, q.body, cs⟩ ⟨rl', H', q.body, cs⟩ := ⟨rfl, hg, rfl, rfl⟩
    have hm := C12_parsed_method _ _ _ e3
    obtain ⟨r, hr, hrun⟩ := C12_run_is_replay calls hf hn
    rw [hsv] at hr
    injection hr with hr
    subst hr
    unfold Server.handle
    rw [validate_alike ha, hrun _ _ _ hm, hrun _ _ _ hm, replay_alike _ ha _ hl]

/-- Which header lines give the same values: two neighbours with different names may change places, -/
theorem C116_swap (pre post : List (Str × Str)) (a b : Str × Str) (h : lowered a.1 ≠ lowered b.1) (k : Str) :
    joined (pre ++ a :: b :: post) k = joined (pre ++ b :: a :: post) k := by
  unfold joined
  have : (pre ++ a :: b :: post).filter (fun h => lowered h.1 = k) = (pre ++ b :: a :: post).filter (fun h => lowered h.1 = k) := by
    simp only [List.filter_append, List.filter_cons]
    by_cases ha : lowered a.1 = k
    · have hb : ¬ lowered b.1 = k := fun hb => h (ha.trans hb.symm)
      simp [ha, hb]
    · simp [ha]
  rw [this]

/-- a name may be written in other letters, -/
theorem C116_case (pre post : List (Str × Str)) (n n' v : Str) (h : lowered n = lowered n') (k : Str) :
    joined (pre ++ (n, v) :: post) k = joined (pre ++ (n', v) :: post) k := by
  unfold joined
  have : ((pre ++ (n, v) :: post).filter (fun h => lowered h.1 = k)).map (·.2) =
      ((pre ++ (n', v) :: post).filter (fun h => lowered h.1 = k)).map (·.2) := by
    simp only [List.filter_append, List.filter_cons, h]
    split <;> simp
  rw [this]

/-- and a value may be cut at `, ` and spread over two lines. -/
theorem C116_combine (pre post : List (Str × Str)) (n v v' : Str) (k : Str) :
    joined (pre ++ (n, v) :: (n, v') :: post) k = joined (pre ++ (n, v ++ c!", " ++ v') :: post) k := by
  unfold joined
  simp only [List.filter_append, List.filter_cons, List.map_append]
  by_cases h : lowered n = k
  · simp only [h, decide_true, if_true, List.map_cons]
    have key : ∀ (l m : List Str), c!", ".intercalate (l ++ v :: v' :: m) = c!", ".intercalate (l ++ (v ++ c!", " ++ v') :: m) := by
      intro l m
      induction l with
      | nil => cases m <;> simp [List.intercalate, List.intersperse]
      | cons a l ih =>
        cases l <;> simp_all [List.intercalate, List.intersperse]
    generalize ((pre.filter fun h => lowered h.1 = k).map (·.2)) = l
    generalize ((post.filter fun h => lowered h.1 = k).map (·.2)) = m
    cases hl : l ++ v :: v' :: m with
    | nil => simp at hl
    | cons a l1 =>
      cases hl' : l ++ (v ++ c!", " ++ v') :: m with
      | nil => simp at hl'
      | cons b l2 =>
        simp only [← hl, ← hl', key]
  · simp [h]

namespace FieldsExample
open TargetExample

/-- header lines, and other header lines with the same fields -/
def lines : List (Str × Str) := [(c!"A", c!"1"), (c!"Host", c!"h"), (c!"A", c!"2")]
def lines' : List (Str × Str) := [(c!"HOST", c!"h"), (c!"a", c!"1, 2")]

theorem framed (hs : List (Str × Str)) (h : hs ≠ []) (hl : hs.map (·.1) ⊆ [c!"A", c!"a", c!"Host", c!"HOST"])
    (hv : ∀ x ∈ hs, (∀ c ∈ x.2, ¬ isRefusedControl c) ∧ ∀ c, x.2.head? = some c → ¬ isBlank c) :
    { q [c!"a"] with headers := hs }.Framed := by
  have hq := (good [c!"a"] (by decide) (by decide)).toFramed
  have hn : ∀ x ∈ hs, x.1 ∈ [c!"A", c!"a", c!"Host", c!"HOST"] := fun x hx => hl (List.mem_map_of_mem hx)
  refine ⟨hq.method, hq.pieces, hq.inside, hq.version, ⟨h, fun x hx => ?_⟩, ?_⟩
  · have : ∀ n ∈ [c!"A", c!"a", c!"Host", c!"HOST"], n ≠ [] ∧ ∀ c ∈ n, isTchar c := by decide
    exact ⟨(this _ (hn x hx)).1, (this _ (hn x hx)).2, hv x hx⟩
  · refine .inr ⟨rfl, fun v m hv => ?_⟩
    have : joined hs c!"content-length" = none := (joined_none _ _).2 fun x hx => by
      have : ∀ n ∈ [c!"A", c!"a", c!"Host", c!"HOST"], lowered n ≠ c!"content-length" := by decide +kernel
      exact this _ (hn x hx)
    rw [this] at hv; simp at hv

theorem same (k : Str) : joined lines k = joined lines' k := by
  rw [lines, lines', show [(c!"A", c!"1"), (c!"Host", c!"h"), (c!"A", c!"2")] =
    [] ++ (c!"A", c!"1") :: (c!"Host", c!"h") :: [(c!"A", c!"2")] from rfl,
    C116_swap [] _ _ _ (by decide +kernel) k,
    C116_case [] _ c!"Host" c!"HOST" c!"h" (by decide +kernel) k,
    show [] ++ (c!"HOST", c!"h") :: (c!"A", c!"1") :: [(c!"A", c!"2")] =
      [(c!"HOST", c!"h")] ++ (c!"A", c!"1") :: (c!"A", c!"2") :: [] from rfl,
    C116_combine [(c!"HOST", c!"h")] [] c!"A" c!"1" c!"2" k,
    C116_case [(c!"HOST", c!"h")] [] c!"A" c!"a" _ (by decide +kernel) k]
  rfl

/-- a handler that says what the header `a` is -/
def tells : Closure (Unit × Response) := fun m st =>
  (st.2.send Unicode.asciiOnly 0 (utf8 ((m.request.headers.get c!"a").getD []))).bind fun r => .ok (((), r), .stop)

theorem looksUp : LooksUp tells := by
  intro r r' vars s h
  simp only [tells, h.get]

/-- a handler that says how many header lines there are -/
def numbers : Closure (Unit × Response) := fun m st =>
  (st.2.send Unicode.asciiOnly 0 (utf8 (showNat m.request.headers.raw.length))).bind fun r => .ok (((), r), .stop)

def asks (hs : List (Str × Str)) : Sock := ⟨[{ q [c!"a"] with headers := hs }.bytes], .eof⟩

end FieldsExample

open FieldsExample TargetExample in
/-- the hypotheses of `C116_same` are met, and the handler does tell the field -/
example (router : Router (Unit × Response)) (hr : execL Router.new [.add tells] = .ok router) :
    Server.serve { empty with router } () (asks lines) = Server.serve { empty with router } () (asks lines') :=
  C116_same [.add tells] (by simp [FairL, Fair]) (by simp [logOfL, logOf]) { empty with router } hr
    (by intro e he; simp only [logOfL, logOf, List.append_nil, List.mem_singleton] at he; subst he; exact looksUp)
    { q [c!"a"] with headers := lines } lines' (framed lines (by decide) (by decide) (by decide)) (framed lines' (by decide) (by decide) (by decide))
    same _ _ (by simp [asks, Sock.bytes]) (by simp [asks, Sock.bytes]) (fun _ _ => rfl) (by decide) ()

open FieldsExample in
/-- It is needed that the handlers look the headers up by name: one that looks at the lines can tell the two
requests apart. -/
theorem C116_needed : (Server.serve (demo tells) () (asks lines) = Server.serve (demo tells) () (asks lines')) ∧
    ¬ Server.serve (demo numbers) () (asks lines) = Server.serve (demo numbers) () (asks lines') := by
  constructor <;> decide +kernel

end Octane
