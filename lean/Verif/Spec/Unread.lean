import Verif.Spec.Wire
/-
What of a client's bytes has been read when the server begins to answer.
-/
namespace Octane.Spec

/-- The server answers a client that has sent `bytes`, and has not read `left`: either there is no head
and it has read everything; or the head cannot be read and it has taken less than 512 bytes after it; or
it has taken at least the declared body, and either exactly that or less than 512 bytes. -/
def LeftUnread (faithful : Bool) (bytes left : Bytes) : Prop :=
  (left = [] ∧ ¬ Occurs bytes blankLine) ∨
  (∃ head taken, FirstSplit bytes blankLine head (taken ++ left) ∧ taken.length < 512 ∧
    ∀ text, head = utf8 text → ¬ Occurs text crlf) ∨
  ∃ text line hdrs hs n taken, FirstSplit bytes blankLine (utf8 text) (taken ++ left) ∧
    FirstSplit text crlf line hdrs ∧ BlockOk faithful hdrs hs ∧ DeclaredLength (joined hs) n ∧
    n ≤ taken.length ∧ (taken.length = n ∨ taken.length < 512)

end Octane.Spec
