import Verif.Check.Decide
import Verif.Spec.Wire
import Verif.Proof.Request
import Verif.Proof.Server
/-
A check that a written request is well formed, for the cases in `Check/Cases*.lean`.
-/
namespace Octane.Cases
open Octane Spec

/-- everything that `WireReq.Framed` asks, but computed -/
def framedB (q : WireReq) : Bool :=
  decide (' ' ∉ q.method ∧ '\r' ∉ q.method) &&
  decide (q.pieces ≠ [] ∧ ∀ p ∈ q.pieces, ' ' ∉ p ∧ '/' ∉ p ∧ '\r' ∉ p) &&
  decide (¬ Climbs q.pieces) &&
  decide (' ' ∉ q.version ∧ '\r' ∉ q.version) &&
  decide (q.headers ≠ [] ∧ ∀ h ∈ q.headers, h.1 ≠ [] ∧ (∀ c ∈ h.1, isTchar c) ∧ (∀ c ∈ h.2, ¬ isRefusedControl c) ∧
    (h.2.head?.map fun c => decide (isBlank c)) ≠ some true) &&
  match joined q.headers c!"content-length" with
  | none => q.body.length == 0
  | some v => parseU64 v == some q.body.length

theorem framed_of {q : WireReq} (h : framedB q = true) : q.Framed := by
  unfold framedB at h
  simp only [Bool.and_eq_true, decide_eq_true_eq] at h
  obtain ⟨⟨⟨⟨⟨h1, h2⟩, h3⟩, h4⟩, h5, h6⟩, h7⟩ := h
  refine ⟨h1, h2, h3, h4, ⟨h5, fun x hx => ?_⟩, ?_⟩
  · obtain ⟨a, b, c, d⟩ := h6 x hx
    exact ⟨a, b, c, fun e he hb => d (by rw [he]; simp [hb])⟩
  · split at h7
    · rename_i hj
      exact .inr ⟨by simpa using h7, by intro v m hv; rw [hj] at hv; cases hv⟩
    · rename_i v hj
      exact .inl ⟨v, hj, (parseU64_iff _ _).1 (by simpa using h7)⟩

/-- and without a Cookie header it is good -/
theorem good_of {q : WireReq} (h : framedB q = true) (hc : joined q.headers c!"cookie" = none) : q.Good :=
  ⟨framed_of h, by intro v hv; rw [hc] at hv; cases hv⟩

/-- one segment, then the end -/
def closed (b : Bytes) : Sock := ⟨[b], .eof⟩
theorem closed_bytes (b : Bytes) : (closed b).bytes = b := by simp [closed, Sock.bytes]

end Octane.Cases
