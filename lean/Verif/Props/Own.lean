import Verif.Props.Whole
import Verif.Proof.ProcessRead
import Verif.Check.Cases1
import Verif.Props.Listen
/-
C173: what the server says of itself.
-/
namespace Octane
open Spec
universe u
variable {W : Type u}

/-- what the handlers of the server make of the connection: the request that was read, and the state and response they
leave -/
def Spec.HandlersLeave (sv : Server W) (w : W) (s : Sock) (w' : W) (res : Response) : Prop :=
  ∃ req, Reads sv.feat sv.allocOk s req ∧
    (req.requestLine.version = .http11 → ∃ h ∈ req.headers.raw, lowered h.name = c!"host") ∧
    req.requestLine.method ≠ .none ∧
    Router.run sv.feat.urlVariables sv.router req (w, Response.newEmpty) = .ok (w', res)

/-- The four answers: what the handlers left; the 404 page, because they left no body; the 400 page, because there is no
head or no Host; the 501 page, because the method is not known. In the last two cases the state is what it was. -/
def Spec.OneOfFour (sv : Server W) (w : W) (s : Sock) (w' : W) (bytes : Bytes) : Prop :=
  (∃ res, HandlersLeave sv w s w' res ∧ res.body ≠ .none ∧
    bytes = sendData (res.getData sv.U sv.feat.cookies sv.ord)) ∨
  (∃ res, HandlersLeave sv w s w' res ∧ res.body = .none ∧ Page sv w s w' c!"404" c!"NOT FOUND") ∨
  (w' = w ∧ Page sv w s w c!"400" c!"BAD REQUEST" ∧ (NoHead s.bytes ∨ ∃ req, Reads sv.feat sv.allocOk s req ∧
    req.requestLine.version = .http11 ∧ ∀ h ∈ req.headers.raw, lowered h.name ≠ c!"host")) ∨
  (w' = w ∧ Page sv w s w c!"501" c!"NOT IMPLEMENTED" ∧ ∃ req, Reads sv.feat sv.allocOk s req ∧
    req.requestLine.method = .none)

theorem fromRaw_ne_none (feat : Features) (allocOk : Nat → Bool) (H : Headers) (rl : RequestLine) (rem : Bytes)
    (reader : Sock) : Request.fromRaw feat allocOk H rl rem reader ≠ .ok none := by
  have key : ∀ b : Io Bytes, (b.bind fun body => Io.ofRes (Request.parse feat rl H body)) ≠ .ok none := by
    intro b
    cases b with
    | ok body =>
      intro h
      simp only [Io.bind_ok] at h
      cases hp : Request.parse feat rl H body with
      | panic => rw [hp] at h; simp [Io.ofRes] at h
      | ok o =>
        rw [hp] at h
        simp only [Io.ofRes_ok, Io.ok.injEq] at h
        subst h
        obtain ⟨cs, h1, -⟩ := Request.parse_some feat rl H body hp
        cases h1
    | panic => simp [Io.bind]
    | pending => simp [Io.bind]
    | abort => simp [Io.bind]
  exact key _

/-- C173: whatever is received and however it ends, an answer is what the handlers left, if they left a body; the 404
page, if they left none; the 400 page, because there is no head or no Host, or the 501 page, because the method is not
known, and then no handler has run. -/
theorem C173_answers (sv : Server W) (hc : ∀ w, 0 ≤ sv.clock w) (w w' : W) (s : Sock) (bytes : Bytes)
    (h : sv.serve w s = .ok (w', bytes)) : OneOfFour sv w s w' bytes := by
  have h400 : sv.serve w s = Io.ofRes (sv.declareError w .badRequest) →
      w' = w ∧ Page sv w s w c!"400" c!"BAD REQUEST" := by
    intro e
    have hp := page_of (w' := w) 21 (code := c!"400") (reason := c!"BAD REQUEST") (hc w) e (by decide +kernel)
      (by decide +kernel)
    refine ⟨?_, hp⟩
    obtain ⟨_, _, k, -⟩ := hp
    rw [h] at k
    simp only [Io.ok.injEq, Prod.mk.injEq] at k
    exact k.1
  by_cases hr : ∃ req, Reads sv.feat sv.allocOk s req
  · obtain ⟨req, hr⟩ := hr
    have e := serve_reads hr w
    rw [handle_spec] at e
    by_cases h1 : req.requestLine.version = .http11 ∧ req.headers.get c!"host" = none
    · rw [if_pos h1] at e
      obtain ⟨k1, k2⟩ := h400 e
      refine .inr (.inr (.inl ⟨k1, k2, .inr ⟨req, hr, h1.1, fun hd hm he => ?_⟩⟩))
      have h2 := h1.2
      rw [hr.facts.1.2, joined_none] at h2
      exact h2 _ (List.mem_map_of_mem hm) he
    · rw [if_neg h1] at e
      by_cases h2 : req.requestLine.method = .none
      · rw [if_pos h2] at e
        have hp := page_of (w' := w) 51 (code := c!"501") (reason := c!"NOT IMPLEMENTED") (hc w) e (by decide +kernel)
          (by decide +kernel)
        refine .inr (.inr (.inr ⟨?_, hp, req, hr, h2⟩))
        obtain ⟨_, _, k, -⟩ := hp
        rw [h] at k
        simp only [Io.ok.injEq, Prod.mk.injEq] at k
        exact k.1
      · rw [if_neg h2] at e
        have hhost : req.requestLine.version = .http11 → ∃ hd ∈ req.headers.raw, lowered hd.name = c!"host" := by
          intro hv
          apply Classical.byContradiction
          intro hn
          refine h1 ⟨hv, ?_⟩
          rw [hr.facts.1.2, joined_none]
          intro x hx he
          obtain ⟨hd, hm, rfl⟩ := List.mem_map.1 hx
          exact hn ⟨hd, hm, he⟩
        cases hrun : Router.run sv.feat.urlVariables sv.router req (w, Response.newEmpty) with
        | panic => rw [hrun, h] at e; simp [Res.bind, Io.ofRes] at e
        | ok st =>
          obtain ⟨w1, res⟩ := st
          rw [hrun, Res.bind_ok'] at e
          by_cases hb : res.body = .none
          · have hb' : res.hasBody = false := by simp [Response.hasBody, hb, ResBody.isSome]
            rw [if_pos hb'] at e
            have hp := page_of (w' := w1) 25 (code := c!"404") (reason := c!"NOT FOUND") (hc w1) e (by decide +kernel)
              (by decide +kernel)
            have hw : w1 = w' := by
              obtain ⟨_, _, k, -⟩ := hp
              rw [h] at k
              simp only [Io.ok.injEq, Prod.mk.injEq] at k
              exact k.1.symm
            subst hw
            exact .inr (.inl ⟨res, ⟨req, hr, hhost, h2, hrun⟩, hb, hp⟩)
          · have hb' : ¬ res.hasBody = false := by
              intro hx
              apply hb
              cases hbb : res.body <;> simp_all [Response.hasBody, ResBody.isSome]
            rw [if_neg hb', h] at e
            simp only [Io.ofRes_ok, Io.ok.injEq, Prod.mk.injEq] at e
            obtain ⟨rfl, rfl⟩ := e
            exact .inl ⟨res, ⟨req, hr, hhost, h2, hrun⟩, hb, rfl⟩
  · have hbad : readHead s = .ok .badRequest := by
      unfold Server.serve at h
      cases h1 : readHead s with
      | panic => rw [h1] at h; simp [Io.bind] at h
      | pending => rw [h1] at h; simp [Io.bind] at h
      | abort => rw [h1] at h; simp [Io.bind] at h
      | ok o =>
        rw [h1] at h
        cases o with
        | badRequest => rfl
        | head hdrs line rem reader =>
          simp only [Io.bind_ok] at h
          cases h2 : Headers.parse sv.feat.faithful hdrs with
          | panic => rw [h2] at h; simp [Io.ofRes, Res.bind, Io.bind] at h
          | ok o =>
            rw [h2] at h
            cases o with
            | none => simp [Res.unwrap, Io.ofRes, Io.bind] at h
            | some H =>
              simp only [Res.bind_ok', Res.unwrap_some, Io.ofRes_ok, Io.bind_ok] at h
              cases h3 : RequestLine.parse sv.feat.faithful line with
              | panic => rw [h3] at h; simp [Io.ofRes, Res.bind, Io.bind] at h
              | ok o =>
                rw [h3] at h
                cases o with
                | none => simp [Res.unwrap, Io.ofRes, Io.bind] at h
                | some rl =>
                  simp only [Res.bind_ok', Res.unwrap_some, Io.ofRes_ok, Io.bind_ok] at h
                  cases h4 : Request.fromRaw sv.feat sv.allocOk H rl rem reader with
                  | panic => rw [h4] at h; simp [Io.bind] at h
                  | pending => rw [h4] at h; simp [Io.bind] at h
                  | abort => rw [h4] at h; simp [Io.bind] at h
                  | ok o =>
                    cases o with
                    | none => exact absurd h4 (fromRaw_ne_none _ _ _ _ _ _)
                    | some req => exact absurd ⟨req, hdrs, line, rem, reader, H, rl, h1, h2, h3, h4⟩ hr
    obtain ⟨k1, k2⟩ := h400 (by unfold Server.serve; rw [hbad]; rfl)
    refine .inr (.inr (.inl ⟨k1, k2, .inl ?_⟩))
    apply Classical.byContradiction
    intro hn
    have ho : Occurs s.bytes blankLine := Classical.byContradiction fun ho => hn (.inl ho)
    obtain ⟨head, rest, hs⟩ := FirstSplit.exists ho
    apply hn
    refine .inr ⟨head, rest, hs, fun text ht hoc => ?_⟩
    obtain ⟨a, b, hab⟩ := FirstSplit.exists hoc
    obtain ⟨rem, reader, e, -⟩ := ((C25_head_from_bytes s).2 _ _ hs).1 a b ⟨text, ht, hab⟩
    rw [hbad] at e
    cases e

/-- C173: so an answer with any other code was made by a handler. -/
theorem C173_codes (sv : Server W) (hc : ∀ w, 0 ≤ sv.clock w) (w w' : W) (s : Sock) (bytes : Bytes)
    (h : sv.serve w s = .ok (w', bytes)) (v : ClientView) (hv : ClientParses bytes v)
    (hcode : v.code ∉ [c!"400", c!"404", c!"501"]) :
    ∃ res, HandlersLeave sv w s w' res ∧ res.body ≠ .none ∧
      bytes = sendData (res.getData sv.U sv.feat.cookies sv.ord) := by
  have key : ∀ w1 code reason, Page sv w s w1 code reason → v.code = code := by
    rintro w1 code reason ⟨b, v', k1, k2, k3, -⟩
    rw [h] at k1
    simp only [Io.ok.injEq, Prod.mk.injEq] at k1
    obtain ⟨-, rfl⟩ := k1
    rw [hv.unique k2, k3]
  rcases C173_answers sv hc w w' s bytes h with hx | ⟨_, -, -, hp⟩ | ⟨-, hp, -⟩ | ⟨-, hp, -⟩
  · exact hx
  · exact absurd (key _ _ _ hp) (by simp at hcode; exact hcode.2.1)
  · exact absurd (key _ _ _ hp) (by simp at hcode; exact hcode.1)
  · exact absurd (key _ _ _ hp) (by simp at hcode; exact hcode.2.2)

/-- What a client has been sent: the bytes of a task that has begun to write. -/
def Spec.sentBy : Task → Option Bytes
  | .writing sent _ | .finished sent | .broken sent => some sent
  | _ => none

/-- C173, for all connections of a process: whatever happens, in whatever order, what a client has been sent is the
beginning of one of the four answers to its own bytes, given in some state, and all of it if the connection is
finished. -/
theorem C173_process (sv : Server W) (hc : ∀ w, 0 ≤ sv.clock w) (w0 : W) (tlsFeature tlsOk plainOk : Bool)
    (evs : List (Event W)) (hd : ((Sys.start w0 tlsFeature tlsOk plainOk).run sv evs).dead = false) (i : Nat) (c : Conn)
    (hi : ((Sys.start w0 tlsFeature tlsOk plainOk).run sv evs).conns[i]? = some c) (sent : Bytes)
    (hs : sentBy c.task = some sent) :
    ∃ tls s w w' bytes, (accepted plainOk (tlsFeature && tlsOk) evs)[i]? = some (tls, s) ∧
      sv.serve w s = .ok (w', bytes) ∧ (∃ rest, bytes = sent ++ rest) ∧ (c.task = .finished sent → bytes = sent) ∧
      OneOfFour sv w s w' bytes := by
  obtain ⟨log, -, -, -, h4, -, h6⟩ := C48_sequential sv w0 tlsFeature tlsOk plainOk evs hd
  have ha := h6 i c hi
  obtain ⟨rest, hm, hf⟩ : ∃ rest, (i, Io.ok (sent ++ rest)) ∈ (sequential sv w0 log).2 ∧
      (c.task = .finished sent → rest = []) := by
    cases ht : c.task with
    | writing a b =>
      rw [ht] at ha hs
      simp only [sentBy, Option.some.injEq] at hs
      subst hs
      exact ⟨b, ha, fun h => by cases h⟩
    | finished a =>
      rw [ht] at ha hs
      simp only [sentBy, Option.some.injEq] at hs
      subst hs
      exact ⟨[], by rw [List.append_nil]; exact ha, fun _ => rfl⟩
    | broken a =>
      rw [ht] at ha hs
      simp only [sentBy, Option.some.injEq] at hs
      subst hs
      obtain ⟨b, hb⟩ := ha
      exact ⟨b, hb, fun h => by cases h⟩
    | _ => rw [ht] at hs; cases hs
  obtain ⟨w, s, hl, hv⟩ := sequential_mem sv w0 log i _ hm
  obtain ⟨tls, hacc⟩ := h4 i s hl
  cases hserve : sv.serve w s with
  | ok r =>
    obtain ⟨w', bytes⟩ := r
    rw [hserve] at hv
    simp only [visible, Io.ok.injEq] at hv
    exact ⟨tls, s, w, w', bytes, hacc, hserve, ⟨rest, hv.symm⟩, fun h => by rw [← hv, hf h, List.append_nil],
      C173_answers sv hc w w' s bytes hserve⟩
  | _ => rw [hserve] at hv; cases hv

namespace OwnExample
open Cases

/-- an answer with another code, from a handler -/
example : ∃ bytes v, (demo hello).serve () (sends c!"GET /a HTTP/1.1\r\nHost: b\r\n\r\n") = .ok ((), bytes) ∧
    ClientParses bytes v ∧ v.code ∉ [c!"400", c!"404", c!"501"] ∧
    ∃ res, HandlersLeave (demo hello) () (sends c!"GET /a HTTP/1.1\r\nHost: b\r\n\r\n") () res ∧ res.body ≠ .none ∧
      bytes = sendData (res.getData (demo hello).U (demo hello).feat.cookies (demo hello).ord) := by
  obtain ⟨bytes, v, h1, h2, ⟨-, h3, -⟩, -⟩ := C34_client_partial (demo hello) () _ _ readsGet
    (.inr ⟨_, List.mem_singleton.2 rfl, by decide +kernel⟩) (by decide) () helloResponse hello_run (by decide +kernel)
    hello_writable (.inr (by decide +kernel)) hello_memory
  have hcode : v.code ∉ [c!"400", c!"404", c!"501"] := by
    rw [h3.eq]
    decide +kernel
  exact ⟨bytes, v, h1, h2, hcode, C173_codes _ (fun _ => (show 0 ≤ (demo hello).clock () by decide)) () () _ bytes h1 v h2 hcode⟩

/-- the three pages: nothing but the end of the stream, a method nobody knows, and nothing registered -/
example : ∃ b1 b2 b3, (demo hello).serve () ⟨[], .eof⟩ = .ok ((), b1) ∧
    (demo hello).serve () (sends c!"BREW /a HTTP/1.0\r\nA: b\r\n\r\n") = .ok ((), b2) ∧
    empty.serve () (sends c!"GET /a HTTP/1.0\r\nA: b\r\n\r\n") = .ok ((), b3) := by
  have key : ∀ x : Io (Unit × Bytes), (match x with | .ok _ => true | _ => false) = true → ∃ b, x = .ok ((), b) := by
    intro x hx
    cases x with
    | ok v => exact ⟨v.2, rfl⟩
    | _ => cases hx
  obtain ⟨b1, h1⟩ := key ((demo hello).serve () ⟨[], .eof⟩) (by decide +kernel)
  obtain ⟨b2, h2⟩ := key ((demo hello).serve () (sends c!"BREW /a HTTP/1.0\r\nA: b\r\n\r\n")) (by decide +kernel)
  obtain ⟨b3, h3⟩ := key (empty.serve () (sends c!"GET /a HTTP/1.0\r\nA: b\r\n\r\n")) (by decide +kernel)
  exact ⟨b1, b2, b3, h1, h2, h3⟩

/-- a process that has written three bytes to a client that closed without a word -/
example : ∃ c sent, ((Sys.start () false false true).run (demo hello)
      [.connect false ⟨[], .eof⟩, .poll 0, .write 0 3]).conns[0]? = some c ∧ sentBy c.task = some sent ∧
    ∃ tls s w w' bytes, (accepted (W := Unit) true (false && false)
        [Event.connect false ⟨[], .eof⟩, .poll 0, .write 0 3])[0]? = some (tls, s) ∧
      (demo hello).serve w s = .ok (w', bytes) ∧ (∃ rest, bytes = sent ++ rest) ∧
      (c.task = .finished sent → bytes = sent) ∧ OneOfFour (demo hello) w s w' bytes := by
  have key : ∀ o : Option Conn, ((o.bind fun c => sentBy c.task).isSome) = true →
      ∃ c sent, o = some c ∧ sentBy c.task = some sent := by
    intro o ho
    cases o with
    | none => cases ho
    | some c =>
      obtain ⟨sent, h⟩ := Option.isSome_iff_exists.1 ho
      exact ⟨c, sent, rfl, h⟩
  obtain ⟨c, sent, h1, h2⟩ := key (((Sys.start () false false true).run (demo hello)
      [.connect false ⟨[], .eof⟩, .poll 0, .write 0 3]).conns[0]?) (by decide +kernel)
  exact ⟨c, sent, h1, h2, C173_process (demo hello) (fun _ => (show 0 ≤ (demo hello).clock () by decide)) () false false
    true _ (by decide +kernel) 0 c h1 sent h2⟩

end OwnExample
end Octane
