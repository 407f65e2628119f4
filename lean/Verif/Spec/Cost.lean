import Verif.Spec.Wire
import Verif.Spec.Router
/-
What the cost properties count, said without the code.
-/
namespace Octane.Spec

/-- The bytes written when, after each header of a list, the values seen so far under its name are written
out again, joined: `seen` are the headers before. -/
def rewritten : List (Str × Str) → List (Str × Str) → Nat
  | _, [] => 0
  | seen, h :: rest =>
    (utf8 ((joined (seen ++ [h]) (lowered h.1)).getD [])).length + rewritten (seen ++ [h]) rest

/-- The bytes of the values of a list of headers. -/
def valueBytes (hs : List (Str × Str)) : Nat := (hs.map fun h => (utf8 h.2).length).sum

/-- The bytes hold a complete head that can be understood, declaring a body of `n` bytes. -/
def AsksBody (faithful : Bool) (bytes : Bytes) (n : Nat) : Prop :=
  ∃ head rest text line hdrs hs, FirstSplit bytes blankLine head rest ∧ head = utf8 text ∧
    FirstSplit text crlf line hdrs ∧ BlockOk faithful hdrs hs ∧ LineOk faithful line ∧
    DeclaredLength (joined hs) n

/-- A pattern without the names of its variables: `none` stands for a variable, `some s` for the literal
segment `s`. -/
def generic (p : PathBuf) : List (Option Str) :=
  p.map fun s => if s.head? = some ':' then none else some s

/-- The beginning `ks` of a pattern permits the path `q`: `q` has at least as many segments, every literal
equals the segment at its place, and variables are in use (`uv`). -/
def Permits (uv : Bool) : List (Option Str) → PathBuf → Prop
  | [], _ => True
  | none :: ks, _ :: q => uv = true ∧ Permits uv ks q
  | some s :: ks, c :: q => s = c ∧ Permits uv ks q
  | _ :: _, [] => False

/-- `ks` is the empty beginning or the beginning of one of the patterns `ps`, and permits `q`. -/
def Reached (uv : Bool) (ps : List PathBuf) (q : PathBuf) (ks : List (Option Str)) : Prop :=
  (ks = [] ∨ ∃ p ∈ ps, ks <+: generic p) ∧ Permits uv ks q

/-- `n` is the number of different beginnings of the patterns `ps` that permit `q`. -/
def ReachedCount (uv : Bool) (ps : List PathBuf) (q : PathBuf) (n : Nat) : Prop :=
  ∃ l : List (List (Option Str)), l.Nodup ∧ (∀ ks, ks ∈ l ↔ Reached uv ps q ks) ∧ l.length = n

variable {S : Type u}

/-- The patterns registered for one method. -/
def patternsOf (m : RequestMethod) (L : List (Reg S)) : List PathBuf :=
  L.filterMap fun e =>
    match e.target with
    | .on m' p => if m' = m then some p else none
    | _ => none

/-- The patterns registered for every method. -/
def patternsOfAny (L : List (Reg S)) : List PathBuf :=
  L.filterMap fun e =>
    match e.target with
    | .anyMethod p => some p
    | _ => none

/-- How many registrations of a log apply to a request. -/
def applicableCount (uv : Bool) (method : RequestMethod) (q : PathBuf) (L : List (Reg S)) : Nat :=
  (L.filter fun e => e.target.applies uv method q).length

end Octane.Spec
