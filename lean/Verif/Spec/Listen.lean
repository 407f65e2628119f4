import Verif.Model.Listen
/-
What concurrent connections should amount to: the connections the listeners were given, and serving
them one after the other with the sequential `Server.serve`.
-/
namespace Octane.Spec
variable {W : Type u}

/-- The connections that are accepted, in order: those that arrive at a listener that is open and has
had no accept error. -/
def accepted (plainOn tlsOn : Bool) : List (Event W) → List (Bool × Sock)
  | [] => []
  | .connect tls s :: es =>
    if (if tls then tlsOn else plainOn) then (tls, s) :: accepted plainOn tlsOn es
    else accepted plainOn tlsOn es
  | .acceptErr tls :: es => if tls then accepted plainOn false es else accepted false tlsOn es
  | _ :: es => accepted plainOn tlsOn es

/-- All connections that arrive. -/
def arriving : List (Event W) → List (Bool × Sock)
  | [] => []
  | .connect tls s :: es => (tls, s) :: arriving es
  | _ :: es => arriving es

/-- One step of a sequential execution: serve a whole connection, or a change of the shared state. -/
inductive SeqStep (W : Type u) where
  | serve (i : Nat) (s : Sock)
  | env (f : W → W)

/-- What the peer gets to see of serving a connection. -/
def visible : Io (W × Bytes) → Io Bytes
  | .ok (_, bs) => .ok bs
  | .panic => .panic
  | .pending => .pending
  | .abort => .abort

/-- Execute the steps one after the other: the final state and what each connection was answered. -/
def sequential (sv : Server W) : W → List (SeqStep W) → W × List (Nat × Io Bytes)
  | w, [] => (w, [])
  | w, .env f :: l => sequential sv (f w) l
  | w, .serve i s :: l =>
    let w' := match sv.serve w s with
      | .ok (w', _) => w'
      | _ => w
    let r := sequential sv w' l
    (r.1, (i, visible (sv.serve w s)) :: r.2)

/-- The changes of the shared state and the reads, in order. -/
def Event.key : Event W → Option ((W → W) ⊕ Nat)
  | .env f => some (.inl f)
  | .poll i => some (.inr i)
  | _ => none

def SeqStep.key : SeqStep W → (W → W) ⊕ Nat
  | .env f => .inl f
  | .serve i _ => .inr i

def SeqStep.env? : SeqStep W → Option (W → W)
  | .env f => some f
  | _ => none

def Event.env? : Event W → Option (W → W)
  | .env f => some f
  | _ => none

def SeqStep.conn? : SeqStep W → Option Nat
  | .serve i _ => some i
  | _ => none

/-- The state of a task agrees with what a sequential execution answered: what has been sent is a
prefix of the answer, and all of it if the task has finished; nothing has been sent before. -/
def Agrees (outs : List (Nat × Io Bytes)) (i : Nat) : Task → Prop
  | .writing sent rest => (i, .ok (sent ++ rest)) ∈ outs
  | .finished sent => (i, .ok sent) ∈ outs
  | .broken sent => ∃ rest, (i, .ok (sent ++ rest)) ∈ outs
  | .panicked => (i, .panic) ∈ outs
  | .handshake | .head _ | .body _ _ _ _ | .refused => ∀ o, (i, o) ∉ outs

/-- The event is about connection `i`. -/
def About (i : Nat) : Event W → Prop
  | .handshake j _ | .poll j | .write j _ | .writeErr j => j = i
  | _ => False

/-- The task waits for more of the request. -/
def Waiting : Task → Prop
  | .head _ | .body _ _ _ _ => True
  | _ => False

/-- `y'` is `y` after connection `i` has been served with this outcome: only that connection's task and
the shared state are different. -/
def Outcome (y y' : Sys W) (i : Nat) (tls : Bool) : Io (W × Bytes) → Prop
  | .ok (w', bs) => ∃ s', y' = { y with world := w', conns := y.conns.set i ⟨tls, .writing [] bs, s'⟩ }
  | .panic => ∃ s', y' = { y with conns := y.conns.set i ⟨tls, .panicked, s'⟩ }
  | .pending => ∃ t' s', Waiting t' ∧ y' = { y with conns := y.conns.set i ⟨tls, t', s'⟩ }
  | .abort => y'.dead = true

/-- Nothing goes wrong at connection `i` itself: no failed write, no failed handshake. -/
def Healthy (i : Nat) (e : Event W) : Prop :=
  e ≠ .writeErr i ∧ e ≠ .handshake i false

end Octane.Spec
