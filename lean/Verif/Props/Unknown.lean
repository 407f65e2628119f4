import Verif.Props.Fields
/-
C130: which headers of a request matter to the server itself, and that the others are ignored.
-/
namespace Octane
open Spec
variable {W : Type u}

/-- Two requests with the same request line, body and cookies, and the same value for every header name in `P`. -/
structure Spec.AlikeOn (P : Str → Prop) (r r' : Request) : Prop where
  line : r.requestLine = r'.requestLine
  get : ∀ k, P k → r.headers.get k = r'.headers.get k
  body : r.body = r'.body
  cookies : r.cookies = r'.cookies

/-- Of the headers, the handler looks only at those with names in `P`. -/
def Spec.LooksOnlyAt (P : Str → Prop) (h : Closure S) : Prop :=
  ∀ r r' vars s, AlikeOn P r r' → h ⟨r, vars⟩ s = h ⟨r', vars⟩ s

theorem replay_alikeOn {P : Str → Prop} (uv : Bool) {r r' : Request} (h : AlikeOn P r r') (log : List (Reg S))
    (hl : ∀ e ∈ log, LooksOnlyAt P e.handler) (s : S) : replay uv r log s = replay uv r' log s := by
  induction log generalizing s with
  | nil => rfl
  | cons e log ih =>
    have ih := fun s => ih (fun e he => hl e (List.mem_cons_of_mem _ he)) s
    simp only [replay, ← h.line, ih]
    rw [hl e List.mem_cons_self r r' _ s h]

theorem http11_text {q : WireReq} {rl : RequestLine} (h1 : ∀ x, (q.version, x) ∈ versionTable → rl.version = x)
    (h2 : (∀ x, (q.version, x) ∉ versionTable) → rl.version = .httpInvalid) (h : rl.version = .http11) :
    q.version = c!"1.1" := by
  by_cases hk : ∃ x, (q.version, x) ∈ versionTable
  · obtain ⟨x, hx⟩ := hk
    have := h1 x hx
    rw [h] at this
    subst this
    have key : ∀ p ∈ versionTable, p.2 = HttpVersion.http11 → p.1 = c!"1.1" := by decide
    exact key _ hx rfl
  · have := h2 fun x hx => hk ⟨x, hx⟩
    rw [h] at this
    cases this

/-- C130: two requests with bodies of the declared length that have the same Cookie header (if cookies are
understood), that both have a Host or both have none (if it is HTTP/1.1), and that agree in all the headers the
handlers look at, are answered the same, with the same effects, whatever else is in their headers: whatever is registered and however
the bytes are cut. -/
theorem C130_same (P : Str → Prop) (calls : List (Call (W × Response))) (hf : FairL calls)
    (hn : (logOfL calls).length < 2 ^ 64) (sv : Server W) (hsv : execL Router.new calls = .ok sv.router)
    (hl : ∀ e ∈ logOfL calls, LooksOnlyAt P e.handler)
    (q : WireReq) (headers' : List (Str × Str)) (hq : q.Framed) (hq' : { q with headers := headers' }.Framed)
    (hj : ∀ k, P k → joined q.headers k = joined headers' k)
    (hcookie : sv.feat.cookies = true → joined q.headers c!"cookie" = joined headers' c!"cookie")
    (hhost : q.version = c!"1.1" →
      ((∃ h ∈ q.headers, lowered h.1 = c!"host") ↔ ∃ h ∈ headers', lowered h.1 = c!"host"))
    (s s' : Sock) (hb : s.bytes = q.bytes) (hb' : s'.bytes = { q with headers := headers' }.bytes)
    (halloc : ∀ k ≤ q.body.length, sv.allocOk k = true) (hmax : q.body.length ≤ i64Max) (w : W) :
    sv.serve w s = sv.serve w s' := by
  obtain ⟨rem, reader, H, rl, e1, e2, e3, e4, -, -, -, v1, v2, -, e5⟩ :=
    wire_texts sv.feat sv.allocOk q hq s [] (by simpa using hb) (.inl rfl) halloc hmax
  obtain ⟨rem', reader', H', rl', e1', e2', e3', e4', -, -, -, -, -, -, e5'⟩ :=
    wire_texts sv.feat sv.allocOk _ hq' s' [] (by simpa using hb') (.inl rfl) halloc hmax
  have hrl : rl' = rl := by
    have h : RequestLine.parse sv.feat.faithful q.line = .ok (some rl') := e3'
    rw [e3] at h
    injection h with h; injection h with h
    exact h.symm
  subst hrl
  obtain ⟨C, hC, hC'⟩ : ∃ C : Res (List Cookie),
      Request.parse sv.feat rl' H q.body = C.bind (fun cs => .ok (some ⟨rl', H, q.body, cs⟩)) ∧
      Request.parse sv.feat rl' H' q.body = C.bind (fun cs => .ok (some ⟨rl', H', q.body, cs⟩)) := by
    refine ⟨_, rfl, ?_⟩
    unfold Request.parse
    by_cases hc : sv.feat.cookies = true
    · simp only [e5, e5', hcookie hc]
    · simp only [if_neg hc]
  unfold Server.serve
  simp only [e1, e1', Io.bind_ok, e2, e2', Res.bind_ok', Res.unwrap_some, Io.ofRes_ok, e3, e3', e4, e4']
  simp only [hC, hC']
  cases C with
  | panic => rfl
  | ok cs =>
    simp only [Res.bind_ok', Io.ofRes_ok, Io.bind_ok]
    have ha : AlikeOn P ⟨rl', H, q.body, cs⟩ ⟨rl', H', q.body, cs⟩ :=
      ⟨rfl, fun k hk => by show H.get k = H'.get k; rw [e5, e5']; exact hj k hk, rfl, rfl⟩
    have hm := C12_parsed_method _ _ _ e3
    obtain ⟨r, hr, hrun⟩ := C12_run_is_replay calls hf hn
    rw [hsv] at hr
    injection hr with hr
    subst hr
    have hh : (rl'.version = .http11 ∧ H.get c!"host" = none) ↔ (rl'.version = .http11 ∧ H'.get c!"host" = none) := by
      refine and_congr_right fun hv => ?_
      have := hhost (http11_text v1 v2 hv)
      rw [e5, e5', joined_none, joined_none]
      constructor
      · intro h x hx he
        obtain ⟨y, hy, he'⟩ := this.2 ⟨x, hx, he⟩
        exact h y hy he'
      · intro h x hx he
        obtain ⟨y, hy, he'⟩ := this.1 ⟨x, hx, he⟩
        exact h y hy he'
    rw [handle_spec, handle_spec, hrun _ ⟨rl', H, q.body, cs⟩ _ hm, hrun _ ⟨rl', H', q.body, cs⟩ _ hm,
      replay_alikeOn _ ha _ hl]
    simp only [hh]

/-- So a header that the server and the handlers do not know is ignored: a request is answered the same with it as
without it, wherever it stands. -/
theorem C130_ignored (P : Str → Prop) (calls : List (Call (W × Response))) (hf : FairL calls)
    (hn : (logOfL calls).length < 2 ^ 64) (sv : Server W) (hsv : execL Router.new calls = .ok sv.router)
    (hl : ∀ e ∈ logOfL calls, LooksOnlyAt P e.handler)
    (q : WireReq) (pre post : List (Str × Str)) (n v : Str) (hp : q.headers = pre ++ post) (hq : q.Framed)
    (hname : n ≠ [] ∧ ∀ c ∈ n, isTchar c) (hvalue : (∀ c ∈ v, ¬ isRefusedControl c) ∧ ∀ c, v.head? = some c → ¬ isBlank c)
    (hP : ¬ P (lowered n)) (hk : lowered n ∉ [c!"content-length", c!"cookie", c!"host"])
    (s s' : Sock) (hb : s.bytes = q.bytes) (hb' : s'.bytes = { q with headers := pre ++ (n, v) :: post }.bytes)
    (halloc : ∀ k ≤ q.body.length, sv.allocOk k = true) (hmax : q.body.length ≤ i64Max) (w : W) :
    sv.serve w s = sv.serve w s' := by
  simp only [List.mem_cons, List.not_mem_nil, or_false, not_or] at hk
  have hj : ∀ k, lowered n ≠ k → joined q.headers k = joined (pre ++ (n, v) :: post) k := by
    intro k h
    unfold joined
    rw [hp]
    simp only [List.filter_append, List.filter_cons]
    rw [if_neg (by simpa using h)]
  refine C130_same P calls hf hn sv hsv hl q _ hq ?_ (fun k hk => hj k ?_) (fun _ => hj _ hk.2.1) ?_ s s' hb hb'
    halloc hmax w
  · refine ⟨hq.method, hq.pieces, hq.inside, hq.version, ⟨by simp, fun h hm => ?_⟩, ?_⟩
    · simp only [List.mem_append, List.mem_cons] at hm
      have hold : ∀ x ∈ pre ++ post, _ := fun x hx => hq.headers.2 x (by rw [hp]; exact hx)
      rcases hm with hm | rfl | hm
      · exact hold h (by simp [hm])
      · exact ⟨hname.1, hname.2, hvalue.1, hvalue.2⟩
      · exact hold h (by simp [hm])
    · have h := hq.length
      unfold DeclaredLength at h ⊢
      simp only [← hj _ hk.1]
      exact h
  · rintro rfl; exact hP hk
  · intro _
    rw [hp]
    constructor
    · rintro ⟨h, hm, he⟩
      refine ⟨h, ?_, he⟩
      simp only [List.mem_append, List.mem_cons] at hm ⊢
      rcases hm with hm | hm
      · exact .inl hm
      · exact .inr (.inr hm)
    · rintro ⟨h, hm, he⟩
      refine ⟨h, ?_, he⟩
      simp only [List.mem_append, List.mem_cons] at hm ⊢
      rcases hm with hm | rfl | hm
      · exact .inl hm
      · exact absurd he hk.2.2
      · exact .inr hm

namespace UnknownExample
open TargetExample FieldsExample

/-- the handler `tells` looks only at the header `a` -/
theorem tells_only : LooksOnlyAt (· = c!"a") tells := by
  intro r r' vars s h
  simp only [tells, h.get c!"a" rfl]

/-- a request of HTTP/1.1 with these headers -/
def asks11 (hs : List (Str × Str)) : Sock := ⟨[{ q [c!"a"] with version := c!"1.1", headers := hs }.bytes], .eof⟩

end UnknownExample

open UnknownExample FieldsExample TargetExample in
/-- a header `Dnt` -/
example (router : Router (Unit × Response)) (hr : execL Router.new [.add tells] = .ok router) :
    Server.serve { empty with router } () (asks [(c!"A", c!"1"), (c!"Host", c!"h")]) =
      Server.serve { empty with router } () (asks [(c!"A", c!"1"), (c!"Dnt", c!"1"), (c!"Host", c!"h")]) :=
  C130_ignored (· = c!"a") [.add tells] (by simp [FairL, Fair]) (by simp [logOfL, logOf]) { empty with router } hr
    (by intro e he; simp only [logOfL, logOf, List.append_nil, List.mem_singleton] at he; subst he; exact tells_only)
    { q [c!"a"] with headers := [(c!"A", c!"1"), (c!"Host", c!"h")] } [(c!"A", c!"1")] [(c!"Host", c!"h")] c!"Dnt" c!"1"
    rfl (framed _ (by decide) (by decide) (by decide)) (by decide) (by decide) (by decide +kernel) (by decide +kernel)
    _ _ (by simp [asks, Sock.bytes]) (by simp [asks, Sock.bytes]) (fun _ _ => rfl) (by decide) ()

open UnknownExample FieldsExample TargetExample in
/-- another value of Host, in another order -/
example (router : Router (Unit × Response)) (hr : execL Router.new [.add tells] = .ok router) :
    Server.serve { empty with router } () (asks [(c!"A", c!"1"), (c!"Host", c!"h")]) =
      Server.serve { empty with router } () (asks [(c!"HOST", c!"i"), (c!"a", c!"1")]) :=
  C130_same (· = c!"a") [.add tells] (by simp [FairL, Fair]) (by simp [logOfL, logOf]) { empty with router } hr
    (by intro e he; simp only [logOfL, logOf, List.append_nil, List.mem_singleton] at he; subst he; exact tells_only)
    { q [c!"a"] with headers := [(c!"A", c!"1"), (c!"Host", c!"h")] } [(c!"HOST", c!"i"), (c!"a", c!"1")]
    (framed _ (by decide) (by decide) (by decide)) (framed _ (by decide) (by decide) (by decide))
    (by rintro k rfl; decide +kernel) (by intro _; decide +kernel) (by decide +kernel)
    _ _ (by simp [asks, Sock.bytes]) (by simp [asks, Sock.bytes]) (fun _ _ => rfl) (by decide) ()

open UnknownExample FieldsExample in
/-- Host, Cookie and Content-Length do matter, also when no handler looks at them. -/
theorem C130_needed : LooksOnlyAt (· = c!"a") tells ∧
    Server.serve (demo tells) () (asks11 [(c!"A", c!"1")]) ≠
      Server.serve (demo tells) () (asks11 [(c!"A", c!"1"), (c!"Host", c!"h")]) ∧
    Server.serve (demo tells) () (asks [(c!"A", c!"1")]) ≠
      Server.serve (demo tells) () (asks [(c!"A", c!"1"), (c!"Cookie", c!"x")]) ∧
    Server.serve (demo tells) () (asks [(c!"A", c!"1")]) ≠
      Server.serve (demo tells) () (asks [(c!"A", c!"1"), (c!"Content-Length", c!"5")]) := by
  refine ⟨tells_only, ?_, ?_, ?_⟩ <;> decide +kernel

end Octane
