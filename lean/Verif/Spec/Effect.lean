import Verif.Spec.ResOps
/-
When two sequences of operations on a response do the same, and the four responses it takes to find out.
-/
namespace Octane.Spec

/-- Two responses that a handler cannot tell apart, and that differ at most in where a hash map keeps its entries: the
same fields, and the same value under every header name. -/
structure SameResponse (a b : Response) : Prop where
  body : a.body = b.body
  status : a.statusCode = b.statusCode
  len : a.contentLen = b.contentLen
  version : a.httpVersion = b.httpVersion
  charset : a.charset = b.charset
  cookies : a.cookies = b.cookies
  header : ∀ k, a.get k = b.get k

/-- the same outcome: both panic, or both leave the same response -/
def SameOutcome : Res Response → Res Response → Prop
  | .ok a, .ok b => SameResponse a b
  | .panic, .panic => True
  | _, _ => False

/-- Two sequences of operations do the same, whatever the response they start from (any response that can exist: a
hash map has no key twice). -/
def SameWork (U : Unicode) (ops ops' : List ResOp) : Prop :=
  ∀ r : Response, HMap.Uniq r.headers → SameOutcome (execOps U r ops) (execOps U r ops')

/-- a map with the value `x` under each of the names -/
def everyX (names : List Str) : HMap Str Str := names.foldl (fun m k => HMap.insert m k c!"x") []

/-- Four responses to try the operations on: one with every one of the names present, and three with no headers at
all; two without a length and two with one; with and without a character set. -/
def probes (names : List Str) : List Response :=
  [{ body := .none, statusCode := .ok, contentLen := none, httpVersion := c!"1.1", headers := everyX names,
     charset := none, cookies := [] },
   { body := .sized 0 (.cursor []), statusCode := .found, contentLen := none, httpVersion := c!"1.0", headers := [],
     charset := none, cookies := [⟨c!"a", c!"b", []⟩] },
   { body := .none, statusCode := .ok, contentLen := some 0, httpVersion := c!"1.1", headers := [],
     charset := some c!"c", cookies := [] },
   { body := .none, statusCode := .ok, contentLen := some 1, httpVersion := c!"1.1", headers := [],
     charset := some c!"c", cookies := [] }]

/-- the header names two sequences of operations may store or remove -/
def namesOf (ops ops' : List ResOp) : List Str := (ops ++ ops').flatMap ResOp.touches

end Octane.Spec
