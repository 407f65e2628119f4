import Verif.Model.Status
import Verif.Model.Unicode
/-
Model of the code that `status_codes!` generates, `octane_macros/src/status.rs:20-26,43-51`, for any
arguments. `Model/Status.lean` has the entries the generated code is made from.
-/
namespace Octane

/-- One arm of the generated `match`, as `format!("StatusCode::{} => ({:?}, {:?}),", …)` writes it
(`octane_macros/src/status.rs:45-49`): the three texts put in the holes. -/
structure StatusArm where
  variant : Str
  code : Str
  phrase : Str
  deriving DecidableEq

/-- The output of the macro that depends on its arguments: the variants of the enum without the last
one, `Other(i32, &'static str)`, and the arms of `fetch` without the last one,
`StatusCode::Other(n, s) => (*n, s)`. -/
structure StatusEnum where
  variants : List Str
  arms : List StatusArm
  deriving DecidableEq

/-- `octane_macros/src/status.rs:24`: `Ident::new(&cased, …)` for each entry; it panics on the empty
string. (Other names are letters only, see `C58_shape`, and so are identifiers.) Simplification: the
identifiers are made after the loop over the arguments and not in it. -/
def statusVariants : List StatusEntry → Res (List Str)
  | [] => .ok []
  | e :: es =>
    if e.cased.isEmpty then .panic
    else (statusVariants es).bind fun vs => .ok (e.cased :: vs)

/-- `octane_macros/src/status.rs:43-51`: the arms. -/
def statusArms (U : Unicode) (es : List StatusEntry) : List StatusArm :=
  es.map fun e => { variant := e.cased, code := showInt e.code, phrase := U.debug e.name }

/-- `octane_macros/src/status.rs:4-72` `status_codes`. -/
def statusMacro (U : Unicode) (toks : List MacroTok) : Res StatusEnum :=
  (statusCodes toks).bind fun es =>
    (statusVariants es).bind fun vs => .ok { variants := vs, arms := statusArms U es }

end Octane
