import Verif.Spec.Whole

/-!
# Where the reads of the head end (C156)

The bytes of a connection come in pieces. The head is read 512 bytes at a time
(`octane_http/src/http1x/mod.rs:21-31`), and one read never goes over the end of a piece.
-/

namespace Octane.Spec

/-- After `b` bytes of the stream a read ends: they end where a piece ends, or a multiple of 512 bytes
into a piece. -/
def ReadEnd (segs : List Bytes) (b : Nat) : Prop :=
  ∃ pre seg post m, segs = pre ++ seg :: post ∧ b = pre.flatten.length + m ∧ 0 < m ∧ m ≤ seg.length ∧
    (m = seg.length ∨ 512 ∣ m)

/-- `b` is the end of the read that brings the byte at position `h - 1`. -/
def ReadUpTo (segs : List Bytes) (h b : Nat) : Prop :=
  ReadEnd segs b ∧ h ≤ b ∧ ∀ b', ReadEnd segs b' → h ≤ b' → b ≤ b'

/-- `body` is the body of the request `q`, of which the stream consists in these pieces: nothing if no length
is declared, and otherwise what follows the head up to the end of the read that completes the head, and at
least the declared `n` bytes. -/
def Asked.BodyIs (q : Asked) (segs : List Bytes) (n : Nat) (body : Bytes) : Prop :=
  ∃ b, ReadUpTo segs (segs.flatten.length - q.after.length) b ∧
    body = if n = 0 then [] else q.after.take (max n (b - (segs.flatten.length - q.after.length)))

end Octane.Spec
