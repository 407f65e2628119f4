import Verif.Props.Field
import Verif.Props.Strict
import Verif.Props.Robust
import Verif.Props.Listen
/-
C48, C87, C97: exactly when a connection is answered as if it were alone, when an absolute target is
its path (never), and when a client that waits is left waiting.
-/
namespace Octane
open Spec
variable {W : Type u}

/-! ### C97 -/

/-- Exactly when a client that has sent its head, perhaps some of its body, and now waits, is left
without an answer: if any of the body is missing. Nothing else of the request has a say, an `Expect`
among its headers neither. -/
theorem C97_iff (sv : Server W) (w : W) (q : WireReq) (hq : q.Framed) (s : Sock) (got missing : Bytes)
    (hbody : q.body = got ++ missing) (hmax : q.body.length ≤ i64Max) (halloc : ∀ k, sv.allocOk k = true)
    (hb : s.bytes ++ missing = q.bytes) (hfin : s.fin = .silent) :
    sv.serve w s = .pending ↔ missing ≠ [] := by
  refine ⟨fun h hm => ?_, fun hm => C97_waits sv w q hq s got missing hbody hm hmax halloc hb hfin⟩
  subst hm
  obtain ⟨hdrs, line, rem, reader, H, rl, h1, h2, h3, h4, -⟩ :=
    wire_parts sv.feat sv.allocOk q hq s [] (by simpa using hb) (.inl rfl) (fun k _ => halloc k) hmax
  unfold Server.serve at h
  simp only [h1, Io.bind_ok, h2, Res.bind_ok', Res.unwrap_some, Io.ofRes_ok, h3, h4] at h
  cases hp : Request.parse sv.feat rl H q.body with
  | panic => rw [hp] at h; simp [Io.ofRes, Io.bind] at h
  | ok r =>
    rw [hp] at h
    simp only [Io.ofRes_ok, Io.bind_ok] at h
    cases r with
    | none => cases hd : sv.declareError w .badRequest <;> simp [hd, Io.ofRes] at h
    | some r => cases hd : sv.handle w r <;> simp [hd, Io.ofRes] at h

open FieldExample in
/-- The client that asks first waits for ever; it would not if it had sent its five bytes. -/
example : empty.serve () ⟨[utf8 asks], .silent⟩ = .pending ∧
    empty.serve () ⟨[utf8 asks, utf8 c!"hello"], .silent⟩ ≠ .pending := by
  constructor
  · refine (C97_iff empty () expecting expecting_good.1 _ [] expecting.body rfl (by decide) (fun _ => rfl) ?_ rfl).2
      (by decide)
    rw [← asks_bytes]; simp [Sock.bytes]
  · intro h
    refine (C97_iff empty () expecting expecting_good.1 _ expecting.body [] (by simp) (by decide) (fun _ => rfl) ?_
      rfl).1 h rfl
    rw [← asks_bytes]; simp [Sock.bytes, expecting]

/-! ### C87 -/

/-- Never is a request with `http://authority/path` given to handlers as the request with `/path` is:
the second path is the first with the scheme and the authority before it. -/
theorem C87_never (feat : Features) (allocOk : Nat → Bool) (q : WireReq) (authority : Str) (ps : List Str)
    (hp : q.pieces = [] :: ps) (ha : isName authority = true) (hq : q.Good)
    (hq' : { q with pieces := absoluteForm authority ps }.Good) (s s' : Sock) (hb : s.bytes = q.bytes)
    (hb' : s'.bytes = { q with pieces := absoluteForm authority ps }.bytes)
    (halloc : ∀ k ≤ q.body.length, allocOk k = true) (hmax : q.body.length ≤ i64Max) :
    ∃ req req', Reads feat allocOk s req ∧ Reads feat allocOk s' req' ∧ req ≠ req' ∧
      req'.requestLine.path = c!"http:" :: authority :: req.requestLine.path := by
  have hcl : ¬ Climbs ps := by
    have h := hq.inside
    rw [hp] at h
    rintro ⟨k, hk⟩
    refine h ⟨k + 1, ?_⟩
    simpa [isUp, isName] using hk
  obtain ⟨req, g, -, -, g4, -⟩ := reads_wire feat allocOk q hq s [] (by simpa using hb) (.inl rfl) halloc hmax
  obtain ⟨req', g', -, -, g4', -⟩ :=
    reads_wire feat allocOk _ hq' s' [] (by simpa using hb') (.inl rfl) halloc hmax
  have hpath : req'.requestLine.path = c!"http:" :: authority :: req.requestLine.path := by
    rw [g4', g4, hp]; exact C87_path authority ps ha hcl
  refine ⟨req, req', g, g', fun h => ?_, hpath⟩
  rw [h] at hpath
  have := congrArg List.length hpath
  simp only [List.length_cons] at this
  omega

open StrictExample in
/-- `GET http://b/a` and `GET /a` -/
example : ∃ req req', Reads .default (fun _ => true) ⟨[qa.bytes], .eof⟩ req ∧
    Reads .default (fun _ => true) ⟨[qb.bytes], .eof⟩ req' ∧ req ≠ req' ∧
    req'.requestLine.path = c!"http:" :: c!"b" :: req.requestLine.path :=
  C87_never .default (fun _ => true) qa c!"b" [c!"a"] rfl (by decide) qa_good qb_good _ _ (by simp [Sock.bytes])
    (by simp [Sock.bytes, qb]) (fun _ _ => rfl) (by decide)

/-! ### C48 -/

/-- Exactly when a connection that would be answered alone can still be: it is answered already, or the
process lives. -/
theorem C48_iff (sv : Server W) (w0 : W) (tlsFeature tlsOk plainOk : Bool) (evs : List (Event W))
    (i : Nat) (tls : Bool) (s : Sock) (bs : Bytes)
    (hi : (accepted plainOk (tlsFeature && tlsOk) evs)[i]? = some (tls, s))
    (hbs : ∀ w, visible (sv.serve w s) = .ok bs) (hh : ∀ e ∈ evs, Healthy i e) :
    (∃ more, (∀ e ∈ more, About i e) ∧ ∃ c,
      ((Sys.start w0 tlsFeature tlsOk plainOk).run sv (evs ++ more)).conns[i]? = some c ∧ c.task = .finished bs) ↔
    ((Sys.start w0 tlsFeature tlsOk plainOk).run sv evs).dead = false ∨
      ∃ c, ((Sys.start w0 tlsFeature tlsOk plainOk).run sv evs).conns[i]? = some c ∧ c.task = .finished bs := by
  constructor
  · rintro ⟨more, -, c, hc, ht⟩
    cases hd : ((Sys.start w0 tlsFeature tlsOk plainOk).run sv evs).dead with
    | false => exact .inl rfl
    | true =>
      rw [run_append, run_dead _ hd] at hc
      exact .inr ⟨c, hc, ht⟩
  · rintro (hd | ⟨c, hc, ht⟩)
    · exact C48_alone_partial sv w0 tlsFeature tlsOk plainOk evs hd i tls s bs hi hbs hh
    · exact ⟨[], by simp, c, by simpa using hc, ht⟩

/-- a client that has connected, and nothing else has happened: it can be answered -/
example : ∃ bs more, (∀ e ∈ more, About 0 e) ∧ ∃ c,
    ((Sys.start () false false true).run (demo sayHi) ([.connect false request] ++ more)).conns[0]? = some c ∧
      c.task = .finished bs := by
  obtain ⟨bs, hbs⟩ := Io.answered_iff (x := visible ((demo sayHi).serve () request)) (by decide +kernel)
  exact ⟨bs, (C48_iff (demo sayHi) () false false true [.connect false request] 0 false request bs rfl (fun _ => hbs)
    (by simp [Healthy])).2 (.inl (by decide +kernel))⟩

end Octane
