import Verif.Model.Macros
/-
Model of `octane_macros/src/json.rs` (the derive macros `FromJSON` and `ToJSON`): which tokens are
taken for fields and generic parameters, the header of the generated `impl`, and what the generated
functions do. The traits `FromJSON`, `ToJSON` and the type `Value` the generated code names are not
part of the repository; they are taken to be what the generated code needs them to be.
-/
namespace Octane

/-- `tok.to_string() == s` for the short texts the code compares with. (A group with invisible
delimiters around such a token prints the same; it is not considered.) -/
def Tok.isText (s : Str) : Tok → Bool
  | .ident x => x == s
  | .punct c => [c] == s
  | _ => false

/-- `octane_macros/src/json.rs:4-9` `struct StructInfo`. -/
structure StructInfo where
  name : Tok
  genBetween : List Tok
  whereBetween : List Tok
  generics : List Str

/-- what `handle_derive` ends with -/
inductive Derive where
  | notStruct -- `compile_error!("Only structs are supported.");`
  | panic
  | braces (stream : List Tok) (info : StructInfo)
  | parens (stream : List Tok) (info : StructInfo)

/-- the local variables of the loop in `handle_derive` (`octane_macros/src/json.rs:31-36`) -/
structure DeriveState where
  gen : List Tok
  whr : List Tok
  inWhere : Bool -- `cur` is `&mut where_between`
  level : Int
  generics : List Str
  isGenName : Bool

/-- `extend(cur, tok)` -/
def DeriveState.extend (st : DeriveState) (tok : Tok) : DeriveState :=
  if st.inWhere then { st with whr := st.whr ++ [tok] } else { st with gen := st.gen ++ [tok] }

/-- `octane_macros/src/json.rs:38-53`: counting `<` and `>` and collecting the parameter names. -/
def DeriveState.count (st : DeriveState) (tok : Tok) : DeriveState :=
  let st := if tok.isText c!"<" then { st with level := st.level + 1 } else st
  let st :=
    if st.level = 1 then
      if st.isGenName then
        match tok with
        | .ident i => { st with generics := st.generics ++ [i], isGenName := false }
        | _ => st
      else if tok.isText c!"," then { st with isGenName := true }
      else st
    else st
  if tok.isText c!">" then { st with level := st.level - 1 } else st

/-- `octane_macros/src/json.rs:37-93`: the loop. At its end the text handed to `parse().unwrap()` has
an unclosed string, which is a panic. -/
def deriveLoop (name : Tok) : DeriveState → List Tok → Derive
  | _, [] => .panic
  | st, tok :: toks =>
    let st := st.count tok
    if st.level ≠ 0 then deriveLoop name (st.extend tok) toks
    else
      let info : StructInfo := ⟨name, st.gen, st.whr, st.generics⟩
      match tok with
      | .group .brace stream => .braces stream info
      | .group .paren stream => .parens stream info
      | _ =>
        if tok.isText c!"where" then deriveLoop name { st with inWhere := true } toks
        else deriveLoop name (st.extend tok) toks

/-- `octane_macros/src/json.rs:20-25`: not the identifier `struct`. -/
def Tok.notStruct : Tok → Bool
  | .ident i => i != c!"struct"
  | _ => true

/-- `octane_macros/src/json.rs:11-94` `handle_derive`, up to the call of `process_braces` or
`process_parens`. -/
def handleDerive (toks : List Tok) : Derive :=
  match toks.dropWhile Tok.notStruct with
  | [] => .notStruct
  | _ :: [] => .panic -- `tok_iter.next().unwrap()`
  | _ :: name :: rest => deriveLoop name ⟨[], [], false, 0, [], true⟩ rest

/-- `octane_macros/src/json.rs:101-114` and `:257-270`: the field scanner of the brace forms. -/
def scanFields : Bool → List Tok → List Str
  | _, [] => []
  | isField, tok :: toks =>
    match tok with
    | .ident ident => if isField then ident :: scanFields false toks else scanFields isField toks
    | .punct p => if p = ',' then scanFields true toks else scanFields isField toks
    | _ => scanFields isField toks

/-- `octane_macros/src/json.rs:178-191` and `:323-336`: the field counter of the parenthesis forms. -/
def countFields : Bool → List Tok → Nat
  | _, [] => 0
  | isField, tok :: toks =>
    match tok with
    | .ident _ => if isField then countFields false toks + 1 else countFields isField toks
    | .punct p => if p = ',' then countFields true toks else countFields isField toks
    | _ => countFields isField toks

/-- `octane_macros/src/json.rs:122-134`: the generic arguments `<A,B>`. -/
def genList : List Str → List Tok
  | [] => []
  | g :: gs => [.punct '<', .ident g] ++ gs.flatMap (fun h => [.punct ',', .ident h]) ++ [.punct '>']

/-- The comma put after the declared where clause when it has no trailing one. -/
def whereComma (between : List Tok) : List Tok :=
  match between.getLast? with
  | some t => if t.isText c!"," then [] else [.punct ',']
  | none => []

/-- `octane_macros/src/json.rs:135-153`: the where clause with one bound per parameter added. -/
def whereClause (trait : Str) (info : StructInfo) : List Tok :=
  let bound (g : Str) : List Tok :=
    [.ident g, .punct ':', .ident c!"crate", .punct ':', .punct ':', .ident trait]
  match info.generics with
  | [] => info.whereBetween
  | g :: gs => info.whereBetween ++ whereComma info.whereBetween ++ bound g ++ gs.flatMap fun h => .punct ',' :: bound h

/-- `octane_macros/src/json.rs:154-174` and the three like it: the generated item,
`impl… crate::<trait> for <name><…> where … { body }`. -/
def implItem (trait : Str) (info : StructInfo) (body : List Tok) : List Tok :=
  [.ident c!"impl"] ++ info.genBetween ++ [.ident c!"crate", .punct ':', .punct ':', .ident trait,
    .ident c!"for", info.name] ++ genList info.generics ++ [.ident c!"where"] ++ whereClause trait info
    ++ [.group .brace body]

/-- The JSON values the generated code handles: `Value::Object(HashMap<String, Value>)`,
`Value::Array(Vec<Value>)` and the rest. -/
inductive Value where
  | object (obj : List (Str × Value))
  | array (arr : List Value)
  | other (s : Str)

/-- `octane_macros/src/json.rs:115-121`: `f: FromJSON::from_json(obj.remove("f")?)?` for each field,
in order; the values and what remains of `obj`. `dec f` is `from_json` of the type of field `f`. -/
def takeFields {V : Type u} (dec : Str → Value → Option V) :
    List Str → HMap Str Value → Option (List (Str × V) × HMap Str Value)
  | [], obj => some ([], obj)
  | f :: fs, obj =>
    match HMap.get obj f with
    | none => none
    | some j =>
      match dec f j with
      | none => none
      | some x => (takeFields dec fs (HMap.remove obj f)).map fun r => ((f, x) :: r.1, r.2)

/-- `octane_macros/src/json.rs:154-174`: the generated `from_json` of a brace struct. -/
def fromJsonBraces {V : Type u} (fields : List Str) (dec : Str → Value → Option V) :
    Value → Option (List (Str × V))
  | .object obj =>
    match takeFields dec fields obj with
    | none => none
    | some (ret, rest) => if rest.isEmpty then some ret else none
  | _ => none

/-- `octane_macros/src/json.rs:271-277`: `obj.insert("f".to_owned(), ToJSON::to_json(self.f)?);` for
each field, in order. -/
def putFields {V : Type u} (enc : Str → V → Option Value) (self : Str → V) :
    List Str → HMap Str Value → Option (HMap Str Value)
  | [], obj => some obj
  | f :: fs, obj =>
    match enc f (self f) with
    | none => none
    | some j => putFields enc self fs (HMap.insert obj f j)

/-- `octane_macros/src/json.rs:307-319`: the generated `to_json` of a brace struct. -/
def toJsonBraces {V : Type u} (fields : List Str) (enc : Str → V → Option Value) (self : Str → V) :
    Option Value :=
  (putFields enc self fields []).map .object

/-- `octane_macros/src/json.rs:192-195`: `FromJSON::from_json(it.next()?)?` `n` times, starting with
element `i`; the values and the rest of the iterator. -/
def takeElems {V : Type u} (dec : Nat → Value → Option V) :
    Nat → Nat → List Value → Option (List V × List Value)
  | 0, _, it => some ([], it)
  | n + 1, i, it =>
    match it with
    | [] => none
    | j :: it' =>
      match dec i j with
      | none => none
      | some x => (takeElems dec n (i + 1) it').map fun r => (x :: r.1, r.2)

/-- `octane_macros/src/json.rs:228-249`: the generated `from_json` of a tuple struct. -/
def fromJsonParens {V : Type u} (fields : Nat) (dec : Nat → Value → Option V) : Value → Option (List V)
  | .array arr =>
    match takeElems dec fields 0 arr with
    | none => none
    | some (ret, rest) => if rest.isEmpty then some ret else none
  | _ => none

/-- `octane_macros/src/json.rs:337-340`: `arr.push(ToJSON::to_json(self.i)?);` for `i` from `i` on. -/
def putElems {V : Type u} (enc : Nat → V → Option Value) (self : Nat → V) :
    Nat → Nat → List Value → Option (List Value)
  | 0, _, arr => some arr
  | n + 1, i, arr =>
    match enc i (self i) with
    | none => none
    | some j => putElems enc self n (i + 1) (arr ++ [j])

/-- `octane_macros/src/json.rs:370-382`: the generated `to_json` of a tuple struct. -/
def toJsonParens {V : Type u} (fields : Nat) (enc : Nat → V → Option Value) (self : Nat → V) :
    Option Value :=
  (putElems enc self fields 0 []).map .array

end Octane
