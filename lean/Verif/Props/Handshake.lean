import Verif.Proof.Handshake
import Verif.Props.Process
/-
C106: TLS connections before and after their handshake.
-/
namespace Octane
open Spec
universe u
variable {W : Type u}

/-- C106: nothing is read from a TLS connection, no handler runs for it and nothing is sent on it, before its
handshake has succeeded, and never if it fails: a TLS connection either still waits for its handshake
with all that its client will send unread, or its handshake has ended at one time before which that
was so, and it is refused if it failed and never refused if it succeeded. -/
theorem C106_handshake_first (sv : PServer W) (allocOk : Nat → Bool) (w0 : W) (workers : Nat)
    (tlsFeature tlsOk plainOk : Bool) (evs : List (Happening W)) :
    let y0 := Process.start w0 workers tlsFeature tlsOk plainOk
    ∀ (i : Nat) (c : PConn W), (y0.run sv allocOk evs).conns[i]? = some c → c.tls = true →
      ∃ s, Happening.connect true s ∈ evs ∧
        ((c.task = .handshake ∧ c.sock = s) ∨
         (c.task ≠ .handshake ∧ AfterHandshake sv allocOk y0 evs i s c)) :=
  handshake_inv w0 workers tlsFeature tlsOk plainOk evs

/-- So without a successful handshake of its own, no request of a TLS connection is ever handled or
answered. -/
theorem C106_never_served (sv : PServer W) (allocOk : Nat → Bool) (w0 : W) (workers : Nat)
    (tlsFeature tlsOk plainOk : Bool) (evs : List (Happening W)) (i : Nat) (hno : Happening.handshake i true ∉ evs)
    (c : PConn W)
    (hc : ((Process.start w0 workers tlsFeature tlsOk plainOk).run sv allocOk evs).conns[i]? = some c)
    (ht : c.tls = true) :
    (c.task = .handshake ∨ c.task = .refused) ∧ Happening.connect true c.sock ∈ evs := by
  obtain ⟨s, h1, ⟨h2, rfl⟩ | ⟨h2, before, ok, after, e1, e2, e3, e4⟩⟩ :=
    handshake_inv w0 workers tlsFeature tlsOk plainOk evs i c hc ht
  · exact ⟨.inl h2, h1⟩
  · cases ok with
    | true => exact absurd (by rw [e1]; simp) hno
    | false => exact ⟨.inr (e3.1 rfl), by rw [e4 rfl]; exact h1⟩

/-- And without the `ssl` feature, or when the TLS listener could not be set up, there are no TLS
connections. -/
theorem C106_no_tls (sv : PServer W) (allocOk : Nat → Bool) (w0 : W) (workers : Nat)
    (tlsFeature tlsOk plainOk : Bool) (h : (tlsFeature && tlsOk) = false) (evs : List (Happening W)) (i : Nat)
    (c : PConn W)
    (hc : ((Process.start w0 workers tlsFeature tlsOk plainOk).run sv allocOk evs).conns[i]? = some c) :
    c.tls = false := by
  have key : ∀ (evs : List (Happening W)) (y : Process W), y.tls ≠ .listening → (∀ c ∈ y.conns, c.tls = false) →
      ∀ c ∈ (y.run sv allocOk evs).conns, c.tls = false := by
    intro evs
    induction evs with
    | nil => intro y _ h; exact h
    | cons e evs ih =>
      intro y hy hall
      rw [Process.run_cons]
      refine ih _ ?_ ?_
      · by_cases he : ∃ tls, e = .acceptErr tls
        · obtain ⟨tls, rfl⟩ := he
          unfold Process.step
          split
          · exact hy
          · simp only
            split
            · split
              · simp
              · exact hy
            · exact hy
        · rw [(Process.step_listeners y e fun tls hx => he ⟨tls, hx⟩).2]
          exact hy
      · intro x hx
        obtain ⟨k, hk⟩ := List.getElem?_of_mem hx
        cases hold : y.conns[k]? with
        | none =>
          obtain ⟨s, rfl, h2⟩ := conn_new y e k x hold hk
          cases ht : x.tls with
          | false => rfl
          | true =>
            rw [ht] at hk
            have : y.step sv allocOk (.connect true s) = y := by
              simp only [Process.step, Process.listener, if_true, if_neg hy]
              split <;> rfl
            rw [this, hold] at hk
            cases hk
        | some x0 =>
          have h0 := hall x0 (List.mem_of_getElem? hold)
          rcases conn_step (sv := sv) (allocOk := allocOk) y e k x0 hold with h | ⟨ok, -, -, h⟩ | ⟨t, s', h, -⟩ <;>
            rw [h] at hk <;> injection hk with hk <;> subst hk <;> exact h0
  refine key evs _ ?_ (by simp [Process.start]) c (List.mem_of_getElem? hc)
  cases tlsFeature <;> cases tlsOk <;> simp_all [Process.start]

namespace HandshakeExample
open ParallelExample ProcessExample

/-- Two TLS clients with the same request; the handshake of the first fails, that of the second succeeds.
The first is refused with its bytes unread, whatever is polled, and the second is read. -/
def two : List (Happening Nat) :=
  [.connect true asksP, .poll 0, .connect true asksP, .handshake 0 false, .poll 0, .handshake 1 true, .handshake 0 true]

example : ((Process.start 0 2 true true true).run (server sometimes) (fun _ => true) two).conns =
    [⟨true, .refused, asksP⟩, ⟨true, .reading (.head []), asksP⟩] := by rfl

/-- The hypotheses of `C106_never_served` are met by a client that never completes its handshake. -/
example : (⟨true, .handshake, asksP⟩ : PConn Nat).task = .handshake ∨ (⟨true, .handshake, asksP⟩ : PConn Nat).task = .refused :=
  (C106_never_served (server sometimes) (fun _ => true) 0 2 true true true [.connect true asksP, .poll 0] 0 (by simp) _ rfl rfl).1

/-- Without the feature the same events open no connection at all. -/
example : ((Process.start 0 2 false true true).run (server sometimes) (fun _ => true) two).conns = [] := by rfl

end HandshakeExample

namespace HandshakeExample
open ParallelExample ProcessExample

/-- `C106_handshake_first` of the second of the two clients: its handshake has ended -/
example : ∃ s, Happening.connect true s ∈ two ∧
    (((⟨true, .reading (.head []), asksP⟩ : PConn Nat).task = .handshake ∧ asksP = s) ∨
     ((⟨true, .reading (.head []), asksP⟩ : PConn Nat).task ≠ .handshake ∧
       AfterHandshake (server sometimes) (fun _ => true) (Process.start 0 2 true true true) two 1 s
         ⟨true, .reading (.head []), asksP⟩)) :=
  C106_handshake_first (server sometimes) (fun _ => true) 0 2 true true true two 1 _ rfl rfl

end HandshakeExample

end Octane
