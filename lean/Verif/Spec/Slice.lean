/-
Specifications for searching and splitting slices. Independent of the model.
-/
namespace Octane.Spec
variable {T : Type u}

/-- `needle` occurs in `haystack` at position `i`. -/
def OccursAt (haystack needle : List T) (i : Nat) : Prop :=
  ∃ a b, haystack = a ++ needle ++ b ∧ a.length = i

/-- `needle` occurs somewhere in `haystack`. -/
def Occurs (haystack needle : List T) : Prop := ∃ i, OccursAt haystack needle i

end Octane.Spec
