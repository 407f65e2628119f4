import Verif.Model.Macros
import Verif.Model.Unicode
/-
Model of the function-like macro `path!` in `octane_macros/src/lib.rs`.
-/
namespace Octane

/-- `octane_macros/src/lib.rs:201-220` `path`. `cwd` is the compiler's working directory, `none` if
`current_dir` fails or is not UTF-8; `exists_` is `Path::exists`. A panic is a compile error. The text
that `{:?}` prints is parsed back as one literal token. -/
def expandPath (U : Unicode) (cwd : Option Str) (exists_ : Str → Bool) (input : List Tok) :
    Res (List Tok) :=
  match input.head? with
  | some (.lit value) =>
    match cwd with
    | none => .panic
    | some dir =>
      let path := dir ++ value.filter (· != '"')
      if !exists_ path then .panic else .ok [.lit (U.debug path)]
  | _ => .panic

end Octane
