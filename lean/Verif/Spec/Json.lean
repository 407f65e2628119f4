import Verif.Model.Json
/-
Specification for the derive macros: struct declarations as token streams, when the generated code
compiles, and what round-tripping means.
-/
namespace Octane.Spec

/-- tokens separated by commas, with or without one at the end -/
def commaSep (trailing : Bool) : List (List Tok) → List Tok
  | [] => []
  | [c] => c ++ (if trailing then [.punct ','] else [])
  | c :: cs => c ++ .punct ',' :: commaSep trailing cs

/-- attributes `#[…]` -/
def attrToks (attrs : List (List Tok)) : List Tok :=
  attrs.flatMap fun a => [.punct '#', .group .bracket a]

/-- nothing, `pub` or `pub(…)` -/
inductive IsVis : List Tok → Prop where
  | priv : IsVis []
  | pub : IsVis [.ident c!"pub"]
  | pubIn (g : List Tok) : IsVis [.ident c!"pub", .group .paren g]

/-- a field of a brace struct -/
structure FieldDecl where
  attrs : List (List Tok)
  vis : List Tok
  name : Str
  ty : List Tok

def FieldDecl.toks (f : FieldDecl) : List Tok :=
  attrToks f.attrs ++ f.vis ++ [.ident f.name, .punct ':'] ++ f.ty

/-- a field of a tuple struct -/
structure ElemDecl where
  attrs : List (List Tok)
  vis : List Tok
  ty : List Tok

def ElemDecl.toks (f : ElemDecl) : List Tok := attrToks f.attrs ++ f.vis ++ f.ty

/-- A list of fields that can be declared together: different names, none of them the keyword `pub`. -/
def FieldsOk (fields : List FieldDecl) : Prop :=
  (fields.map (·.name)).Nodup ∧ ∀ f ∈ fields, IsVis f.vis ∧ f.name ≠ c!"pub"

/-- `Self { f: …, }` compiles: every declared field once and nothing else. -/
def FromCompiles (declared generated : List Str) : Prop :=
  generated.Nodup ∧ ∀ f, f ∈ generated ↔ f ∈ declared

/-- the uses `self.f` compile: declared fields only, none moved twice -/
def ToCompiles (declared generated : List Str) : Prop :=
  generated.Nodup ∧ ∀ f ∈ generated, f ∈ declared

/-- the field types themselves round-trip -/
def Codec {I : Type} {V : Type u} (enc : I → V → Option Value) (dec : I → Value → Option V) : Prop :=
  ∀ i x j, enc i x = some j → dec i j = some x

/-- What is claimed of a brace struct with the declared field names when the generated code works on
the fields `gen`. -/
structure NamedOk (declared gen : List Str) : Prop where
  from_compiles : FromCompiles declared gen
  to_compiles : ToCompiles declared gen
  /-- converting there and back gives every field its value -/
  roundtrip : ∀ {V : Type} (enc : Str → V → Option Value) (dec : Str → Value → Option V),
    Codec enc dec → ∀ (self : Str → V) v, toJsonBraces gen enc self = some v →
      ∃ back, fromJsonBraces gen dec v = some back ∧ (back.map (·.1)).Nodup ∧
        ∀ f x, (f, x) ∈ back ↔ f ∈ declared ∧ self f = x
  /-- conversion fails only if that of a field does -/
  total : ∀ {V : Type} (enc : Str → V → Option Value) (self : Str → V),
    (∀ f ∈ declared, (enc f (self f)).isSome) → (toJsonBraces gen enc self).isSome
  /-- the object has exactly the declared fields, with their values -/
  written : ∀ {V : Type} (enc : Str → V → Option Value) (self : Str → V) v,
    toJsonBraces gen enc self = some v → ∃ obj, v = .object obj ∧ (obj.map (·.1)).Nodup ∧
      ∀ f j, (f, j) ∈ obj ↔ f ∈ declared ∧ enc f (self f) = some j
  /-- what is accepted is an object with exactly the declared fields (a `HashMap` has no key twice) -/
  refuses : ∀ {V : Type} (dec : Str → Value → Option V) v back, fromJsonBraces gen dec v = some back →
    ∃ obj, v = .object obj ∧ ((obj.map (·.1)).Nodup → ∀ f, f ∈ obj.map (·.1) ↔ f ∈ declared)

/-- What is claimed of a tuple struct of `n` elements when the generated code works on `gen`. -/
structure TupleOk (n gen : Nat) : Prop where
  /-- `Self(…)` has one argument per element -/
  from_compiles : gen = n
  roundtrip : ∀ {V : Type} (enc : Nat → V → Option Value) (dec : Nat → Value → Option V),
    Codec enc dec → ∀ (self : Nat → V) v, toJsonParens gen enc self = some v →
      fromJsonParens gen dec v = some ((List.range n).map self)
  total : ∀ {V : Type} (enc : Nat → V → Option Value) (self : Nat → V),
    (∀ i < n, (enc i (self i)).isSome) → (toJsonParens gen enc self).isSome
  refuses : ∀ {V : Type} (dec : Nat → Value → Option V) v back, fromJsonParens gen dec v = some back →
    ∃ arr, v = .array arr ∧ arr.length = n

end Octane.Spec

namespace Octane.Spec

/-- tokens in which every `<` has its `>` -/
inductive Balanced : List Tok → Prop where
  | nil : Balanced []
  | tok {t : Tok} {ts : List Tok} : t ≠ .punct '<' → t ≠ .punct '>' → Balanced ts → Balanced (t :: ts)
  | angle {inner ts : List Tok} : Balanced inner → Balanced ts →
      Balanced (.punct '<' :: inner ++ .punct '>' :: ts)

/-- what follows the name of a type parameter: balanced tokens without a comma outside angle brackets -/
inductive Bounds : List Tok → Prop where
  | nil : Bounds []
  | tok {t : Tok} {ts : List Tok} : t ≠ .punct '<' → t ≠ .punct '>' → t ≠ .punct ',' → Bounds ts →
      Bounds (t :: ts)
  | angle {inner ts : List Tok} : Balanced inner → Bounds ts →
      Bounds (.punct '<' :: inner ++ .punct '>' :: ts)

/-- the kinds of generic parameters: `T: …`, `'a: …`, `const N: …` -/
inductive ParamKind where
  | type | lifetime | const
  deriving DecidableEq

/-- a generic parameter; `bounds` is everything after its name -/
structure GenParam where
  kind : ParamKind
  name : Str
  bounds : List Tok

def GenParam.toks (p : GenParam) : List Tok :=
  match p.kind with
  | .type => .ident p.name :: p.bounds
  | .lifetime => .punct '\'' :: .ident p.name :: p.bounds
  | .const => .ident c!"const" :: .ident p.name :: p.bounds

/-- the parameter as an argument -/
def GenParam.arg (p : GenParam) : List Tok :=
  match p.kind with
  | .lifetime => [.punct '\'', .ident p.name]
  | _ => [.ident p.name]

/-- no identifier is printed like a bracket or a comma -/
def RealIdents (ts : List Tok) : Prop := ∀ s c, Tok.ident s ∈ ts → c ∈ ['<', '>', ','] → s ≠ [c]

/-- the parameter list of a struct, without the angle brackets -/
def paramToks (tr : Bool) (ps : List GenParam) : List Tok := commaSep tr (ps.map GenParam.toks)

/-- parameters as they can be declared -/
def ParamsOk (ps : List GenParam) : Prop := ∀ p ∈ ps, Bounds p.bounds ∧ RealIdents p.toks

/-- A where clause that can be told from the body: no parentheses, braces, angle brackets and no second
`where` among its own tokens. -/
def PlainWhere (ws : List Tok) : Prop :=
  (∀ s, Tok.group .brace s ∉ ws ∧ Tok.group .paren s ∉ ws) ∧ Tok.punct '<' ∉ ws ∧ Tok.punct '>' ∉ ws ∧
    Tok.ident c!"where" ∉ ws

/-- `pre struct Name <params> where ws { body }`; the where clause may be missing -/
def structToks (pre : List Tok) (name : Str) (tr : Bool) (ps : List GenParam) (ws : Option (List Tok))
    (body : List Tok) : List Tok :=
  pre ++ [.ident c!"struct", .ident name, .punct '<'] ++ paramToks tr ps ++ [.punct '>']
    ++ (match ws with | none => ([] : List Tok) | some ws => .ident c!"where" :: ws) ++ [.group .brace body]

/-- one bound `T: crate::Trait` -/
def boundToks (trait : Str) (g : Str) : List Tok :=
  [.ident g, .punct ':', .ident c!"crate", .punct ':', .punct ':', .ident trait]

/-- does the where clause need a comma before more bounds? -/
def needsComma : List Tok → Bool
  | [] => false
  | [.punct ','] => false
  | [_] => true
  | _ :: ts => needsComma ts

/-- `impl<params> crate::Trait for Name<T, U> where ws, T: crate::Trait, U: crate::Trait {` up to the
brace; only types are bounded -/
def implToks (trait : Str) (name : Str) (tr : Bool) (ps : List GenParam) (ws : List Tok) : List Tok :=
  let types := ps.filter fun p => p.kind = .type
  [.ident c!"impl", .punct '<'] ++ paramToks tr ps ++ [.punct '>', .ident c!"crate", .punct ':', .punct ':',
    .ident trait, .ident c!"for", .ident name]
  ++ (if ps.isEmpty then [] else .punct '<' :: commaSep false (ps.map GenParam.arg) ++ [.punct '>'])
  ++ [.ident c!"where"] ++ ws ++ (if !types.isEmpty && needsComma ws then [.punct ','] else [])
  ++ commaSep false (types.map fun p => boundToks trait p.name)

end Octane.Spec
