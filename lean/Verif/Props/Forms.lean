import Verif.Props.Robust
import Verif.Props.Field
/-
C134: targets of none of the forms of RFC 7230 section 5.3.
-/
namespace Octane
open Spec
variable {W : Type u}

/-- The target (its text cut at the slashes) is of none of the four forms: it does not begin with a slash, does not
begin with a scheme or a host with a port, and is not the asterisk. -/
def Spec.Formless (pieces : List Str) : Prop :=
  ∃ p ps, pieces = p :: ps ∧ p ≠ [] ∧ ':' ∉ p ∧ pieces ≠ [c!"*"]

/-- The full claim of C134 (RFC 7230 sections 3.1.1 and 5.3): a request with such a target is refused with 400. -/
def C134_statement : Prop :=
  ∀ (sv : Server Unit) (q : WireReq) (s : Sock), q.Good → Formless q.pieces → s.bytes = q.bytes →
    (∀ k, sv.allocOk k = true) → q.body.length ≤ i64Max → (∀ w, 0 ≤ sv.clock w) →
    Page sv () s () c!"400" c!"BAD REQUEST"

theorem climbs_slash (ps : List Str) : Climbs ([] :: ps) ↔ Climbs ps := by
  constructor
  · rintro ⟨k, hk⟩
    cases k with
    | zero => simp at hk
    | succ k => exact ⟨k, by simpa [isName, isUp] using hk⟩
  · rintro ⟨k, hk⟩
    exact ⟨k + 1, by simpa [isName, isUp] using hk⟩

/-- a request whose target is written with one more slash in front is well formed too -/
theorem framed_slash {q : WireReq} (hq : q.Framed) : { q with pieces := [] :: q.pieces }.Framed :=
  ⟨hq.method, ⟨by simp, by simpa using hq.pieces.2⟩, fun h => hq.inside ((climbs_slash _).1 h), hq.version, hq.headers,
    hq.length⟩

/-- What happens instead: a target without a slash in front is the target with the slash. So `GET a` is `GET /a`,
and `OPTIONS *` asks about the resource `/*`. -/
theorem C134_same (sv : Server W) (q : WireReq) (hq : q.Framed) (s s' : Sock) (hb : s.bytes = q.bytes)
    (hb' : s'.bytes = { q with pieces := [] :: q.pieces }.bytes)
    (halloc : ∀ k ≤ q.body.length, sv.allocOk k = true) (hmax : q.body.length ≤ i64Max) (w : W) :
    sv.serve w s = sv.serve w s' :=
  C110_same sv q _ hq (framed_slash hq) (C110_spellings [] q.pieces c!"x" (by decide)).1.symm s s' hb hb' halloc hmax w

/-- What holds of C134: if nothing is registered for the path, no handler runs, and the answer is 404. -/
theorem C134_unregistered_partial (sv : Server W) (calls : List (Call (W × Response))) (hf : FairL calls)
    (hn : (logOfL calls).length < 2 ^ 64) (hsetup : execL Router.new calls = .ok sv.router)
    (q : WireReq) (hq : q.Good) (s : Sock) (hb : s.bytes = q.bytes)
    (halloc : ∀ k ≤ q.body.length, sv.allocOk k = true) (hmax : q.body.length ≤ i64Max)
    (m : RequestMethod) (hm : (q.method, m) ∈ methodTable)
    (hhost : q.version = c!"1.1" → ∃ h ∈ q.headers, lowered h.1 = c!"host")
    (hno : ∀ e ∈ logOfL calls, e.target.applies sv.feat.urlVariables m (resolve ([] :: q.pieces)) = false)
    (w : W) (hc : 0 ≤ sv.clock w) :
    ∃ bytes v, sv.serve w s = .ok (w, bytes) ∧ ClientParses bytes v ∧ v.code = c!"404" := by
  rw [show resolve ([] :: q.pieces) = resolve q.pieces from (C110_spellings [] q.pieces c!"x" (by decide)).1] at hno
  obtain ⟨bytes, v, h1, h2, h3, -⟩ := C69_unmatched sv calls hf hn hsetup q hq s hb halloc hmax m hm hhost hno w hc
  exact ⟨bytes, v, h1, h2, h3⟩

namespace FormsExample
open StrictExample

/-- `GET a` -/
def bare : WireReq := { qa with pieces := [c!"a"] }
theorem bare_good : bare.Good :=
  good bare rfl (by decide) (by decide) (by decide) (by decide) (by decide) (by decide +kernel)
    (by decide +kernel) (by decide +kernel)
example : bare.line = c!"GET a HTTP/1.1" := by decide
theorem bare_formless : Formless bare.pieces := ⟨c!"a", [], rfl, by decide, by decide, by decide⟩

/-- `OPTIONS *` -/
def star : WireReq := { qa with method := c!"OPTIONS", pieces := [c!"*"] }
theorem star_good : star.Good :=
  good star rfl (by decide) (by decide) (by decide) (by decide) (by decide) (by decide +kernel)
    (by decide +kernel) (by decide +kernel)
example : star.line = c!"OPTIONS * HTTP/1.1" := by decide

/-- the hypotheses of `C134_same` are met: `GET a` and `GET /a`, `OPTIONS *` and `OPTIONS /*` -/
example (sv : Server Unit) (halloc : ∀ k, sv.allocOk k = true) :
    sv.serve () ⟨[bare.bytes], .eof⟩ = sv.serve () ⟨[qa.bytes], .eof⟩ :=
  C134_same sv bare bare_good.toFramed _ _ (by simp [Sock.bytes]) (by simp [Sock.bytes, bare]; rfl)
    (fun _ _ => halloc _) (by decide) ()
example (sv : Server Unit) (halloc : ∀ k, sv.allocOk k = true) :
    sv.serve () ⟨[star.bytes], .eof⟩ = sv.serve () ⟨[{ star with pieces := [[], c!"*"] }.bytes], .eof⟩ :=
  C134_same sv star star_good.toFramed _ _ (by simp [Sock.bytes]) (by simp [Sock.bytes, star])
    (fun _ _ => halloc _) (by decide) ()

/-- and those of `C134_unregistered_partial`: `OPTIONS *` where there is a handler for `GET /a` -/
example (r : Router (Unit × Response)) (hr : execL Router.new calls = .ok r) :
    ∃ bytes v, ({ StrictExample.sv with router := r } : Server Unit).serve () ⟨[star.bytes], .eof⟩ = .ok ((), bytes) ∧
      ClientParses bytes v ∧ v.code = c!"404" :=
  C134_unregistered_partial { StrictExample.sv with router := r } calls (by simp [calls, FairL, Fair])
    (by decide +kernel) hr star star_good _ (by simp [Sock.bytes]) (fun _ _ => rfl) (by decide) .options (by decide)
    (fun _ => ⟨(c!"Host", c!"b"), by decide, by decide +kernel⟩) (by rw [log_calls]; simp [Target.applies]) ()
    (by simp [StrictExample.sv])

end FormsExample

open FormsExample StrictExample FieldExample in
/-- C134 is false of the code: `GET a` is answered by the handler for `/a`. -/
theorem C134_counterexample : ¬ C134_statement := by
  intro h
  obtain ⟨r, hr⟩ := made
  let sv : Server Unit := { StrictExample.sv with router := r }
  obtain ⟨bytes, v, h1, h2, h3, -⟩ := h sv bare ⟨[bare.bytes], .eof⟩ bare_good bare_formless (by simp [Sock.bytes])
    (fun _ => rfl) (by decide) (by simp [sv, StrictExample.sv])
  rw [C134_same sv bare bare_good.toFramed _ ⟨[qa.bytes], .eof⟩ (by simp [Sock.bytes]) (by simp [Sock.bytes, bare]; rfl)
    (fun _ _ => rfl) (by decide) (), get_hello sv hr _ (by simp [Sock.bytes]; rfl) (fun _ => rfl)] at h1
  simp only [Io.ok.injEq, Prod.mk.injEq, true_and] at h1
  obtain ⟨v', p1, p2, -⟩ := client_all sv.U sv.feat.cookies sv.ord
    { Response.newEmpty with body := .sized 2 (.cursor (utf8 c!"hi")) }
    (AnswerExample.writable (by decide) (by decide +kernel) (by decide +kernel) rfl) (.inr rfl)
  rw [h1] at p1
  rw [h2.unique p1, p2.eq] at h3
  exact absurd h3 (by decide +kernel)

end Octane
