import Verif.Model.Config
/-
Specification of the configuration methods: every setting has the value last written to it.
-/
namespace Octane.Spec

/-- what the caller does with the `&mut Ssl` returned by `ssl(port)` -/
inductive SslEdit where
  | key (path : Str)
  | cert (path : Str)

/-- the configuration calls a user can make on a server -/
inductive AppOp where
  | withConfig (c : OctaneConfig)
  | setKeepalive (nanos : Nat)
  | withSslConfig (s : Ssl)
  | ssl (port : Nat) (edits : List SslEdit)
  | workerThreads (n : Nat) -- `app.settings.worker_threads(n)`

/-- the last of `xs` that `f` reads as a write, or `init` -/
def lastWrite {α : Type u} {β : Type v} (f : α → Option β) (init : β) (xs : List α) : β :=
  (xs.reverse.findSome? f).getD init

def SslEdit.key? : SslEdit → Option Str
  | .key p => some p
  | _ => none

def SslEdit.cert? : SslEdit → Option Str
  | .cert p => some p
  | _ => none

def AppOp.keepAlive? : AppOp → Option (Option Nat)
  | .withConfig c => some c.keepAlive
  | .setKeepalive d => some (some d)
  | _ => none

def AppOp.key? : AppOp → Option Str
  | .withConfig c => some c.ssl.key
  | .withSslConfig s => some s.key
  | .ssl _ edits => edits.reverse.findSome? SslEdit.key?
  | _ => none

def AppOp.cert? : AppOp → Option Str
  | .withConfig c => some c.ssl.cert
  | .withSslConfig s => some s.cert
  | .ssl _ edits => edits.reverse.findSome? SslEdit.cert?
  | _ => none

def AppOp.port? : AppOp → Option Nat
  | .withConfig c => some c.ssl.port
  | .ssl port _ => some port
  | _ => none

def AppOp.workers? : AppOp → Option (Option Nat)
  | .workerThreads n => some (some n)
  | _ => none

end Octane.Spec
