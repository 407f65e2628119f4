import Verif.Model.Process
import Verif.Model.Startup
/-
Model of a whole application, from the call of `listen` (`src/server.rs:125`) on: the two tasks that open the
listeners (`Model/Startup.lean`) together with the connections and their handlers (`Model/Process.lean`).

The TLS listener is opened by a spawned task, so its clients may be served at any time after that, whatever
the caller's task does meanwhile. The program may end when `listen` has returned or its callback has
panicked; what is spawned goes on until then.
-/
namespace Octane
variable {W : Type u}

/-- Where the start-up stands, and the process. -/
structure Life (W : Type u) where
  boot : Boot
  proc : Process W

/-- A step of the start-up, or anything else that happens. -/
inductive LifeEvent (W : Type u) where
  | boot (e : BootEvent)
  | happens (e : Happening W)

namespace Life

/-- The plain listener after a step of the caller's task: open when the task gets to its accept loop
(`src/server_builder.rs:38-45`), over when `listen` returns an error (`src/server.rs:157`) or `exec()` panics. -/
def plainAfter (was now : MainAt) (l : Listener) : Listener :=
  if was = now then l
  else match now with
    | .accepting => .listening
    | .failed | .panicked => .ended
    | _ => l

/-- The TLS listener after a step of its task (`src/server.rs:138-153`). -/
def tlsAfter (was now : TlsAt) (l : Listener) : Listener :=
  if was = now then l
  else match now with
    | .accepting => .listening
    | .warned | .panicked => .ended
    | _ => l

/-- A listener whose accept loop has ended is dropped, and its port is free. -/
def release (b : Boot) (was now : Process W) : Boot :=
  { b with mainHas := b.mainHas && !(was.plain == .listening && now.plain == .ended)
           tlsHas := b.tlsHas && !(was.tls == .listening && now.tls == .ended) }

/-- `listen` is called, with this shared state and so many worker threads. -/
def start (w0 : W) (workers : Nat) : Life W := ⟨Boot.init, ⟨w0, workers, .off, .off, [], false⟩⟩

/-- One event. A process that has ended does nothing. -/
def step (cfg : BootCfg) (sv : PServer W) (allocOk : Nat → Bool) (y : Life W) (e : LifeEvent W) : Life W :=
  if y.proc.dead then y
  else match e with
    | .boot e =>
      let b := y.boot.step cfg e
      ⟨b, { y.proc with plain := plainAfter y.boot.main b.main y.proc.plain
                        tls := tlsAfter y.boot.tls b.tls y.proc.tls }⟩
    | .happens e =>
      let p := y.proc.step sv allocOk e
      ⟨release y.boot y.proc p, p⟩

/-- An execution. -/
def run (cfg : BootCfg) (sv : PServer W) (allocOk : Nat → Bool) (y : Life W) (evs : List (LifeEvent W)) : Life W :=
  evs.foldl (step cfg sv allocOk) y

end Life

/-- What the start-up depends on in the application (`src/server.rs:125-165`): the port given to `listen`, and of
the settings the TLS port and, by the acceptor (`src/tls/rustls.rs:13-26`), the two file names. `tls` is whether
`rustls` is compiled in. -/
def bootCfg {Key Cert : Type} (L : TlsLib Key Cert) (settings : OctaneConfig) (tls : Bool) (port : Nat) : BootCfg :=
  ⟨port, settings.ssl.port, tls, (L.rustlsAcceptor settings).bind fun a => .ok a.isSome⟩

end Octane
