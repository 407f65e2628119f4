import Verif.Spec.ResOps
/-
Which operation decides which setting of a response.
-/
namespace Octane.Spec

/-- the status an operation chooses -/
def ResOp.statusSet : ResOp → Option StatusCode
  | .status c => some c
  | .redirect _ => some .found
  | _ => none

/-- the version text an operation chooses -/
def ResOp.versionSet : ResOp → Option Str
  | .httpVersion .http11 => some c!"1.1"
  | .httpVersion .http10 => some c!"1.0"
  | .httpVersion .http09 => some c!"0.9"
  | .httpVersion .http02 => some c!"0.2"
  | .httpVersion .httpInvalid => some []
  | .writeVersion v => some v
  | _ => none

/-- the charset an operation chooses (or takes away) -/
def ResOp.charsetSet : ResOp → Option (Option Str)
  | .charset c => some (some c)
  | .writeCharset c => some c
  | _ => none

/-- the cookie an operation adds -/
def ResOp.cookieAdded : ResOp → Option Cookie
  | .cookie c => some c
  | _ => none

/-- does the operation replace all cookies? -/
def ResOp.replacesCookies : ResOp → Prop
  | .writeCookies _ => True
  | _ => False

/-- does the operation leave the body alone? `send_file` does when there is no such regular file. -/
def ResOp.leavesBody : ResOp → Prop
  | .send .. => False
  | .sendFile fs path => ∀ contents len, fs path ≠ .regular contents len
  | _ => True

/-- `a` is what the last operation with a choice chose, or `a0` if none had -/
def LastSet {α : Type} (choice : ResOp → Option α) (ops : List ResOp) (a0 a : α) : Prop :=
  (∃ pre op post, ops = pre ++ op :: post ∧ choice op = some a ∧ ∀ o ∈ post, choice o = none) ∨
    ((∀ o ∈ ops, choice o = none) ∧ a = a0)

/-- the text of a cookie: `name=value` and its attributes, each after `; ` -/
def cookieText (c : Cookie) : Str :=
  c!"; ".intercalate ((c.name ++ '=' :: c.value) :: c.attrs)

end Octane.Spec
