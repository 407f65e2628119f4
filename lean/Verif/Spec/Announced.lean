import Verif.Spec.ResOps
/-
What a sequence of operations on a response says about its length, and what it sends. The operations are given newest
first, so each function looks at the last one that matters.
-/
namespace Octane.Spec

/-- the bytes that follow the head, and the length that was noted for them: those of the last `send` or of the last
`send_file` of a file that can be served, and a file is never sent. -/
def lastBody : List ResOp → Option (Bytes × Nat)
  | [] => none
  | .send _ body :: _ => some (body, body.length)
  | .sendFile fs path :: older =>
    match fs path with
    | .regular _ len => some ([], len)
    | _ => lastBody older
  | _ :: older => lastBody older

/-- the length that the head announces: that of the last `send`, or that noted when the default headers were last set;
`send_file` announces nothing. -/
def announced : List ResOp → Option Nat
  | [] => none
  | .send _ body :: _ => some body.length
  | .defaultHeaders _ :: older => (lastBody older).map (·.2)
  | _ :: older => announced older

/-- the bytes that follow the head -/
def sentBytes (ops : List ResOp) : Bytes := ((lastBody ops).map (·.1)).getD []

end Octane.Spec
