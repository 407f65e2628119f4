import Verif.Model.Basic
/-
Model of `octane_macros/src/stream_parser.rs` and of the attribute macros `main` and `test` in
`octane_macros/src/lib.rs`.

Tokens carry no spans and no punctuation spacing (the code looks at neither). `proc_macro` and
`proc_macro2` token trees are the same type here.
-/
namespace Octane

/-- `proc_macro::Delimiter`. -/
inductive Delim where
  | paren | brace | bracket | none
  deriving DecidableEq

/-- `proc_macro::TokenTree`. A raw identifier has `r#` as part of its text, as `to_string` prints it. -/
inductive Tok where
  | ident (s : Str)
  | punct (c : Char)
  | lit (s : Str)
  | group (d : Delim) (stream : List Tok)

/-- `octane_macros/src/stream_parser.rs:2-8` `struct StreamParser`. -/
structure StreamParser where
  items : List Tok
  isAsync : Bool
  rest : List Tok
  signature : List Tok

namespace StreamParser

/-- `octane_macros/src/stream_parser.rs:11-18` `StreamParser::new`. -/
def new (items : List Tok) : StreamParser := ⟨items, false, [], []⟩

/-- `octane_macros/src/stream_parser.rs:22-43`: the loop; `toks` is what the iterator still holds,
`signature` the vector built so far. -/
def loop (self : StreamParser) (signature : List Tok) : List Tok → StreamParser × List Tok
  | [] => (self, signature)
  | .group .brace stream :: _ => ({ self with rest := stream }, signature)
  | .ident x :: toks =>
    if x = c!"async" then loop { self with isAsync := true } signature toks
    else loop self (signature ++ [.ident x]) toks
  | tt :: toks => loop self (signature ++ [tt]) toks

/-- `octane_macros/src/stream_parser.rs:19-47` `StreamParser::parse`. -/
def parse (self : StreamParser) : StreamParser :=
  let r := loop self [] self.items
  { r.1 with signature := r.2 }

end StreamParser

/-- the text of a decimal `usize` literal as `quote!` interpolates it -/
def usizeLit (n : Nat) : Tok := .lit (showNat n ++ c!"usize")

/-- `octane_macros/src/lib.rs:121-128`: `compile_error!("…");` unless the function is async. -/
def compileErrorToks (isAsync : Bool) : List Tok :=
  if isAsync then []
  else [.ident c!"compile_error", .punct '!', .group .paren
    [.lit c!"\"the async keyword is missing from function declaration\""], .punct ';']

/-- `let mut builder = tokio::runtime::Builder::<ctor>();` -/
def newBuilder (ctor : Str) : List Tok :=
  [.ident c!"let", .ident c!"mut", .ident c!"builder", .punct '=', .ident c!"tokio", .punct ':',
    .punct ':', .ident c!"runtime", .punct ':', .punct ':', .ident c!"Builder", .punct ':', .punct ':',
    .ident ctor, .group .paren [], .punct ';']

/-- `.<method>(<args>)` -/
def call (method : Str) (args : List Tok) : List Tok := [.punct '.', .ident method, .group .paren args]

/-- `let mut runtime = builder.build().expect("…"); runtime.block_on(async { #rest })` -/
def blockOn (rest : List Tok) : List Tok :=
  [.ident c!"let", .ident c!"mut", .ident c!"runtime", .punct '=', .ident c!"builder"]
    ++ call c!"build" [] ++ call c!"expect" [.lit c!"\"Unable to build tokio runtime\""] ++ [.punct ';']
    ++ [.ident c!"runtime"] ++ call c!"block_on" [.ident c!"async", .group .brace rest]

/-- `octane_macros/src/lib.rs:116-148` `main`; `cpus` is `num_cpus::get()`. -/
def expandMain (cpus : Nat) (item : List Tok) : List Tok :=
  let properties := (StreamParser.new item).parse
  let numCpus := cpus * 2
  properties.signature ++
    [.group .brace
      (compileErrorToks properties.isAsync ++ newBuilder c!"new_multi_thread" ++ [.ident c!"builder"]
        ++ call c!"enable_io" [] ++ call c!"thread_stack_size" [.lit c!"10485760"]
        ++ call c!"thread_name" [.lit c!"\"octane-main\""] ++ call c!"worker_threads" [usizeLit numCpus]
        ++ [.punct ';'] ++ blockOn properties.rest)]

/-- `octane_macros/src/lib.rs:156-186` `test`. -/
def expandTest (item : List Tok) : List Tok :=
  let properties := (StreamParser.new item).parse
  [.punct '#', .group .bracket [.ident c!"test"]] ++ properties.signature ++
    [.group .brace
      (compileErrorToks properties.isAsync ++ newBuilder c!"new_current_thread" ++ [.ident c!"builder"]
        ++ call c!"enable_io" [] ++ call c!"thread_name" [.lit c!"\"octane-test\""]
        ++ [.punct ';'] ++ blockOn properties.rest)]

end Octane
