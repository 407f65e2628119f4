import Verif.Props.Waiting
import Verif.Proof.Live
/-
C76: under a fair scheduler every connection comes to an end.
-/
namespace Octane
open Spec

section
variable {W : Type u}

/-- Under a fair scheduler, for as long as the process lives, every accepted connection ends and stays
so, unless its peer falls silent in the middle of a request (C68). -/
theorem C76_ends (sv : Server W) (w0 : W) (tlsFeature tlsOk plainOk : Bool) (σ : Nat → Event W)
    (alive : ∀ n, ((Sys.start w0 tlsFeature tlsOk plainOk).run sv (upTo σ n)).dead = false)
    (i : Nat) (tls : Bool) (s : Sock) (n0 : Nat)
    (hi : (accepted plainOk (tlsFeature && tlsOk) (upTo σ n0))[i]? = some (tls, s))
    (fair : FairTo sv (Sys.start w0 tlsFeature tlsOk plainOk) σ i)
    (hs : s.fin ≠ .silent ∨ ¬ Incomplete sv.feat.faithful s.bytes) :
    ∃ t n, Over t ∧ Stays sv (Sys.start w0 tlsFeature tlsOk plainOk) σ i (· = t) n := by
  refine ends_core sv w0 tlsFeature tlsOk plainOk σ alive i tls s n0 hi fair fun w h => ?_
  obtain ⟨h1, h2⟩ := C68_waits_only_partial sv w s h
  exact hs.elim (· h1) (· h2)

/-- If moreover no write and no handshake of the connection fails, it ends with the whole response that
serving its bytes alone gives in the shared state of some moment, or with a panic if that panics. -/
theorem C76_answered (sv : Server W) (w0 : W) (tlsFeature tlsOk plainOk : Bool) (σ : Nat → Event W)
    (alive : ∀ n, ((Sys.start w0 tlsFeature tlsOk plainOk).run sv (upTo σ n)).dead = false)
    (i : Nat) (tls : Bool) (s : Sock) (n0 : Nat)
    (hi : (accepted plainOk (tlsFeature && tlsOk) (upTo σ n0))[i]? = some (tls, s))
    (fair : FairTo sv (Sys.start w0 tlsFeature tlsOk plainOk) σ i)
    (hs : s.fin ≠ .silent ∨ ¬ Incomplete sv.feat.faithful s.bytes) (hh : ∀ n, Healthy i (σ n)) :
    let y := Sys.start w0 tlsFeature tlsOk plainOk
    ∃ n k, (∃ bs, Stays sv y σ i (· = .finished bs) n ∧
        visible (sv.serve (y.run sv (upTo σ k)).world s) = .ok bs) ∨
      (Stays sv y σ i (· = .panicked) n ∧ visible (sv.serve (y.run sv (upTo σ k)).world s) = .panic) := by
  refine answered_core sv w0 tlsFeature tlsOk plainOk σ alive i tls s n0 hi fair (fun w h => ?_) hh
  obtain ⟨h1, h2⟩ := C68_waits_only_partial sv w s h
  exact hs.elim (· h1) (· h2)

/-- So a connection whose answer does not depend on the shared state gets the very answer it would get
alone, whatever else happens. -/
theorem C76_alone (sv : Server W) (w0 : W) (tlsFeature tlsOk plainOk : Bool) (σ : Nat → Event W)
    (alive : ∀ n, ((Sys.start w0 tlsFeature tlsOk plainOk).run sv (upTo σ n)).dead = false)
    (i : Nat) (tls : Bool) (s : Sock) (n0 : Nat)
    (hi : (accepted plainOk (tlsFeature && tlsOk) (upTo σ n0))[i]? = some (tls, s))
    (fair : FairTo sv (Sys.start w0 tlsFeature tlsOk plainOk) σ i) (hh : ∀ n, Healthy i (σ n))
    (bs : Bytes) (hbs : ∀ w, visible (sv.serve w s) = .ok bs) :
    ∃ n, Stays sv (Sys.start w0 tlsFeature tlsOk plainOk) σ i (· = .finished bs) n := by
  obtain ⟨n, k, ⟨bs', h1, h2⟩ | ⟨-, h2⟩⟩ := answered_core sv w0 tlsFeature tlsOk plainOk σ alive i tls s n0
    hi fair (fun w h => by have := hbs w; rw [h] at this; cases this) hh
  · rw [hbs] at h2
    injection h2 with h2
    exact ⟨n, h2 ▸ h1⟩
  · rw [hbs] at h2; cases h2

end

namespace LiveExample

/-- an infinite execution: a connection, then in turn a handshake, a read, and a write of one byte -/
def turns (s : Sock) (n : Nat) : Event Unit :=
  if n = 0 then .connect false s
  else if n % 3 = 0 then .handshake 0 true
  else if n % 3 = 1 then .poll 0
  else .write 0 1

theorem turns_fair (s : Sock) (y : Sys Unit) : FairTo (demo sayHi) y (turns s) 0 := by
  refine ⟨fun n _ => ⟨3 * (n + 1), true, by omega, ?_⟩, fun n _ => ⟨3 * (n + 1) + 1, by omega, ?_⟩,
    fun n _ => ⟨3 * (n + 1) + 2, by omega, .inr ⟨1, Nat.le_refl 1, ?_⟩⟩⟩
  · rw [turns, if_neg (by omega), if_pos (by omega)]
  · rw [turns, if_neg (by omega), if_neg (by omega), if_pos (by omega)]
  · rw [turns, if_neg (by omega), if_neg (by omega), if_neg (by omega)]

theorem turns_ne (s : Sock) (n : Nat) : turns s n ≠ .exit ∧ Healthy 0 (turns s n) := by
  unfold turns Healthy
  repeat' split
  all_goals simp

theorem turns_alive (s : Sock) (n : Nat) :
    ((Sys.start () false false true).run (demo sayHi) (upTo (turns s) n)).dead = false :=
  C48_alive _ (fun _ => rfl) () false false true _ (by
    intro e he
    obtain ⟨k, -, rfl⟩ := List.mem_map.1 he
    exact (turns_ne s k).1)

/-- Half a request, and then the peer closes the connection: it ends; ... -/
example := C76_ends (demo sayHi) () false false true (turns ⟨[utf8 c!"GET / HTTP/1.0\r\nA: "], .eof⟩)
  (turns_alive _) 0 false _ 1 (by rfl) (turns_fair _ _) (.inl (by decide))

/-- ... and what is sent is what serving those bytes alone gives. -/
example := C76_answered (demo sayHi) () false false true (turns ⟨[utf8 c!"GET / HTTP/1.0\r\nA: "], .eof⟩)
  (turns_alive _) 0 false _ 1 (by rfl) (turns_fair _ _) (.inl (by decide)) (fun n => (turns_ne _ n).2)

/-- The request that comes in two halves is answered, although the peer never closes the connection. -/
example : ∃ bs n, visible ((demo sayHi).serve () halves) = .ok bs ∧
    Stays (demo sayHi) (Sys.start () false false true) (turns halves) 0 (· = .finished bs) n := by
  obtain ⟨bs, hbs⟩ := Io.answered_iff (x := visible ((demo sayHi).serve () halves)) (by decide +kernel)
  obtain ⟨n, hn⟩ := C76_alone (demo sayHi) () false false true (turns halves) (turns_alive halves)
    0 false halves 1 (by rfl) (turns_fair _ _) (fun n => (turns_ne _ n).2) bs (fun _ => hbs)
  exact ⟨bs, n, hbs, hn⟩

end LiveExample
end Octane
