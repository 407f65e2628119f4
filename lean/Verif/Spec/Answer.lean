import Verif.Spec.Tables
import Verif.Spec.Wire
/-
What RFC 7230 wants of an answer besides its being readable, and what the documentation of `with_type`
promises. Independent of the model.
-/
namespace Octane.Spec

/-- the media type a short name or a full type stands for (`src/responder.rs:185-187`): a text with a
slash is a type itself, otherwise the type tabulated for that extension -/
def TypeNamed (t m : Str) : Prop := ('/' ∈ t ∧ m = t) ∨ ('/' ∉ t ∧ (t, m) ∈ mediaRows)

/-- RFC 7230 section 3.3.3: an answer with such a status ends with its head -/
def Bodiless (code : Int) : Prop := (100 ≤ code ∧ code < 200) ∨ code = 204 ∨ code = 304

/-- RFC 7230 section 3.3.2: an answer with such a status has no Content-Length header -/
def Lengthless (code : Int) : Prop := (100 ≤ code ∧ code < 200) ∨ code = 204

/-- there is no header of this (lower-case) name -/
def NoField (hs : List (Str × Str)) (name : Str) : Prop := ∀ h ∈ hs, lowered h.1 ≠ name

end Octane.Spec
