import Verif.Spec.Text
import Verif.Spec.Tables
import Verif.Spec.Quoted
import Verif.Model.StatusMacro
/-
What `status_codes!` ought to make of its arguments (C81), without the definitions of the macro.
-/
namespace Octane.Spec

/-- the texts of the literals among the arguments, in order -/
def literals : List MacroTok → List Str
  | [] => []
  | .literal s :: toks => s :: literals toks
  | .other :: toks => literals toks

/-- `name` is the Pascal case of the words of `phrase` -/
def PascalOf (phrase name : Str) : Prop :=
  ∃ words, phrase = [' '].intercalate words ∧ (∀ w ∈ words, ' ' ∉ w) ∧ name = words.flatMap pascalWord

/-- the value of a decimal `i32`: an optional sign and digits, in range -/
def IsI32 (s : Str) (n : Int) : Prop :=
  ∃ ds, ds ≠ [] ∧ (∀ c ∈ ds, '0' ≤ c ∧ c ≤ '9') ∧
    ((s = ds ∨ s = '+' :: ds) ∧ n = (ds.foldl (fun a c => 10 * a + (c.toNat - 48)) 0 : Nat) ∨
      s = '-' :: ds ∧ n = -((ds.foldl (fun a c => 10 * a + (c.toNat - 48)) 0 : Nat) : Int)) ∧
    -(2 ^ 31) ≤ n ∧ n < 2 ^ 31

/-- an arm gives the number and the string, on the variant named after the string -/
structure ArmFor (arm : StatusArm) (n : Int) (phrase : Str) : Prop where
  named : PascalOf phrase arm.variant
  code : IntNumeral n arm.code
  phrase : RustLiteral arm.phrase phrase

/-- the two lists have the same length and corresponding members -/
inductive Each {α β : Type} (R : α → β → Prop) : List α → List β → Prop
  | nil : Each R [] []
  | cons {a b l m} : R a b → Each R l m → Each R (a :: l) (b :: m)

/-- one variant and one arm for each pair, in order, under the same names -/
def EnumFor (out : StatusEnum) (pairs : List (Int × Str)) : Prop :=
  out.variants = out.arms.map (·.variant) ∧ Each (fun a p => ArmFor a p.1 p.2) out.arms pairs

/-- the literals are a decimal number and a string literal for each pair -/
inductive Declares : List Str → List (Int × Str) → Prop
  | nil : Declares [] []
  | cons {num lit n phrase rest ps} : IsI32 num n → RustLiteral lit phrase → (∃ c ∈ phrase, isLetter c) →
      Declares rest ps → Declares (num :: lit :: rest) ((n, phrase) :: ps)

/-- What the macro takes its arguments for, whatever they are: a number and a text between two ASCII
characters, taken as it stands, for each pair; a number alone at the end is ignored. -/
inductive Takes : List Str → List (Int × Str) → Prop
  | nil : Takes [] []
  | number {num n} : IsI32 num n → Takes [num] []
  | cons {num a name b n rest ps} : IsI32 num n → a.toNat < 128 → b.toNat < 128 →
      (∃ c ∈ name, isLetter c) → Takes rest ps →
      Takes (num :: (a :: name ++ [b]) :: rest) ((n, name) :: ps)

end Octane.Spec
