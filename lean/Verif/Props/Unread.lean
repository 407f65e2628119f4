import Verif.Proof.Unread
import Verif.Props.Field
/-
C103: what the client has sent is read before the connection is closed. A socket that is closed with
bytes in its receive buffer is reset by the kernel, and the reset can overtake the answer (RFC 7230
section 6.6). The kernel is not part of the model; the bytes that are left unread are.
-/
namespace Octane
open Spec
variable {W : Type u}

/-- the answer is being sent, or has been -/
def Spec.Answering : Task → Prop
  | .writing _ _ | .finished _ | .broken _ => True
  | _ => False

/-- The full claim of C103: whenever an answer is being sent, or has been, nothing that the client has
sent is left unread. -/
def C103_statement : Prop :=
  ∀ (sv : Server Unit) (tlsFeature tlsOk plainOk : Bool) (evs : List (Event Unit)) (i : Nat) (c : Conn),
    ((Sys.start () tlsFeature tlsOk plainOk).run sv evs).conns[i]? = some c → Answering c.task → c.sock.bytes = []

/-- What is left, exactly, in every execution and for every connection: `LeftUnread`. -/
theorem C103_exact (sv : Server W) (w : W) (tlsFeature tlsOk plainOk : Bool) (evs : List (Event W)) (i : Nat)
    (c : Conn) (hc : ((Sys.start w tlsFeature tlsOk plainOk).run sv evs).conns[i]? = some c)
    (ha : Answering c.task) :
    ∃ s0, (accepted plainOk (tlsFeature && tlsOk) evs)[i]? = some (c.tls, s0) ∧
      LeftUnread sv.feat.faithful s0.bytes c.sock.bytes := by
  obtain ⟨s0, h1, h2⟩ := run_taken w tlsFeature tlsOk plainOk evs i c hc
  refine ⟨s0, h1, ?_⟩
  generalize hct : c.task = t at ha h2
  cases t <;> first | exact h2 | exact absurd ha id

/-- for a request and more -/
theorem left_extra {faithful : Bool} {q : WireReq} (hq : q.Framed) {extra left : Bytes}
    (h : LeftUnread faithful (q.bytes ++ extra) left) :
    ∃ taken, q.body ++ extra = taken ++ left ∧ q.body.length ≤ taken.length ∧
      (taken.length = q.body.length ∨ taken.length < 512) := by
  obtain ⟨p1, p2, -⟩ := hq.parts faithful
  have p1 := p1 (q.body ++ extra)
  rw [show utf8 (crlf.intercalate (q.line :: q.headers.map wireHeader)) ++ blankLine ++ (q.body ++ extra) =
    q.bytes ++ extra by simp [WireReq.bytes]] at p1
  have hinj : ∀ a b : Str, utf8 a = utf8 b → a = b := by
    intro a b he
    have := congrArg fromUtf8 he
    rw [fromUtf8_utf8, fromUtf8_utf8] at this
    exact Option.some.inj this
  rcases h with ⟨-, h⟩ | ⟨head, taken, h1, -, h3⟩ | ⟨text, line, hdrs, hs, n, taken, h1, h2, h3, h4, h5, h6⟩
  · exact absurd p1.occurs h
  · obtain ⟨e1, -⟩ := h1.unique p1
    exact absurd p2.occurs (h3 _ e1)
  · obtain ⟨e1, e2⟩ := h1.unique p1
    have e1 := hinj _ _ e1
    subst e1
    obtain ⟨e3, e4⟩ := h2.unique p2
    subst e3 e4
    have hb := hq.block faithful
    obtain ⟨H, k1, -, k3⟩ := Headers.parse_block h3
    obtain ⟨H', k1', -, k3'⟩ := Headers.parse_block hb
    rw [k1] at k1'
    simp only [Res.ok.injEq, Option.some.injEq] at k1'
    subst k1'
    have hn : n = q.body.length := by
      have e : joined hs = joined q.headers := funext fun k => (k3 k).symm.trans (k3' k)
      rw [e] at h4
      exact DeclaredLength.unique h4 hq.length
    subst hn
    exact ⟨taken, e2.symm, h5, h6⟩

/-- What holds of C103: of a client that sends one request and nothing else, nothing is left unread.
Missing: clients that send more. -/
theorem C103_single_partial (sv : Server W) (w : W) (tlsFeature tlsOk plainOk : Bool) (evs : List (Event W))
    (i : Nat) (c : Conn) (hc : ((Sys.start w tlsFeature tlsOk plainOk).run sv evs).conns[i]? = some c)
    (ha : Answering c.task) (q : WireReq) (hq : q.Framed) (tls : Bool) (s0 : Sock)
    (hs : (accepted plainOk (tlsFeature && tlsOk) evs)[i]? = some (tls, s0)) (hb : s0.bytes = q.bytes) :
    c.sock.bytes = [] := by
  obtain ⟨s1, h1, h2⟩ := C103_exact sv w tlsFeature tlsOk plainOk evs i c hc ha
  rw [hs] at h1
  simp only [Option.some.injEq, Prod.mk.injEq] at h1
  obtain ⟨-, rfl⟩ := h1
  rw [hb, ← List.append_nil q.bytes] at h2
  obtain ⟨taken, e1, e2, -⟩ := left_extra hq h2
  have := congrArg List.length e1
  simp only [List.append_nil, List.length_append] at this
  exact List.length_eq_zero_iff.1 (by omega)

/-- What happens otherwise: of what the client sends after its request, all but at most 511 bytes are
left; and if the body did not arrive with the head, everything. -/
theorem C103_left (sv : Server W) (w : W) (tlsFeature tlsOk plainOk : Bool) (evs : List (Event W))
    (i : Nat) (c : Conn) (hc : ((Sys.start w tlsFeature tlsOk plainOk).run sv evs).conns[i]? = some c)
    (ha : Answering c.task) (q : WireReq) (hq : q.Framed) (extra : Bytes) (tls : Bool) (s0 : Sock)
    (hs : (accepted plainOk (tlsFeature && tlsOk) evs)[i]? = some (tls, s0)) (hb : s0.bytes = q.bytes ++ extra) :
    (∃ n, c.sock.bytes = extra.drop n ∧ q.body.length + n < 512) ∨ c.sock.bytes = extra := by
  obtain ⟨s1, h1, h2⟩ := C103_exact sv w tlsFeature tlsOk plainOk evs i c hc ha
  rw [hs] at h1
  simp only [Option.some.injEq, Prod.mk.injEq] at h1
  obtain ⟨-, rfl⟩ := h1
  rw [hb] at h2
  obtain ⟨taken, e1, e2, e3⟩ := left_extra hq h2
  have hdrop : c.sock.bytes = extra.drop (taken.length - q.body.length) := by
    have := congrArg (List.drop taken.length) e1
    rw [List.drop_append, List.drop_left, List.drop_of_length_le (by omega), List.nil_append] at this
    exact this.symm
  rcases e3 with e3 | e3
  · right; rw [hdrop, e3]; simp
  · left; exact ⟨_, hdrop, by omega⟩

namespace UnreadExample
open StrictExample

/-- two requests, one after the other -/
def twice : Sock := ⟨[qa.bytes, qa.bytes], .eof⟩
def twiceEvents : List (Event Unit) := [.connect false twice, .poll 0, .write 0 10000]

/-- the first connection has been answered, and this is what is left of it -/
def answeredLeaving (evs : List (Event Unit)) (left : Bytes) : Bool :=
  match (((Sys.start () false false true).run empty evs).conns[0]? : Option Conn) with
  | some ⟨_, .finished _, s⟩ => s.bytes == left
  | _ => false

theorem answeredLeaving_spec {evs : List (Event Unit)} {left : Bytes} (h : answeredLeaving evs left = true) :
    ∃ c, ((Sys.start () false false true).run empty evs).conns[0]? = some c ∧ Answering c.task ∧
      c.sock.bytes = left := by
  unfold answeredLeaving at h
  split at h
  · rename_i tls sent s hc
    exact ⟨_, hc, trivial, by simpa using h⟩
  · simp at h

theorem twice_state : ∃ c, ((Sys.start () false false true).run empty twiceEvents).conns[0]? = some c ∧
    Answering c.task ∧ c.sock.bytes = qa.bytes := answeredLeaving_spec (by decide +kernel)

/-- a request with a body that arrives with the head, and nothing else -/
def once : Sock := ⟨[FieldExample.expecting.bytes], .eof⟩
def onceEvents : List (Event Unit) := [.connect false once, .poll 0, .write 0 10000]


/-- the hypotheses of `C103_single_partial` are met -/
example : ∃ c, ((Sys.start () false false true).run empty onceEvents).conns[0]? = some c ∧
    Answering c.task ∧ c.sock.bytes = [] := by
  obtain ⟨c, h1, h2, -⟩ := answeredLeaving_spec (evs := onceEvents) (left := []) (by decide +kernel)
  exact ⟨c, h1, h2, C103_single_partial empty () false false true onceEvents 0 c h1 h2 _
    FieldExample.expecting_good.1 false once rfl (by simp [once, Sock.bytes])⟩

/-- and those of `C103_left` -/
example : ∃ c, ((Sys.start () false false true).run empty twiceEvents).conns[0]? = some c ∧
    ((∃ n, c.sock.bytes = qa.bytes.drop n ∧ 0 + n < 512) ∨ c.sock.bytes = qa.bytes) := by
  obtain ⟨c, h1, h2, -⟩ := twice_state
  exact ⟨c, h1, C103_left empty () false false true twiceEvents 0 c h1 h2 qa qa_good.1 qa.bytes false twice rfl
    (by simp [twice, Sock.bytes])⟩

end UnreadExample

open UnreadExample in
/-- C103 is false of the code: a second request is not read. -/
theorem C103_counterexample : ¬ C103_statement := by
  intro h
  obtain ⟨c, h1, h2, h3⟩ := twice_state
  have := h empty false false true twiceEvents 0 c h1 h2
  rw [h3] at this
  exact absurd this (by decide +kernel)

end Octane
