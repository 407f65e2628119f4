import Verif.Model.Config
/-
Model of the start-up of the server: `Octane::listen` (`src/server.rs:125-165`) up to the first accept,
`ServerBuilder::new` (`src/server_builder.rs:20-31`), the TLS acceptors (`src/tls/rustls.rs`,
`src/tls/openssl.rs`) and the loading of key and certificates (`src/config.rs:229-241`).

The two listeners are opened by two tasks that run concurrently: an event is one step of one of them.
Whether a call to the operating system succeeds is part of the event; a `bind` also fails when the other
task holds the port (no socket sets `SO_REUSEADDR` before its `bind`). Port 0 stands for a free port the
system chooses and never collides.
-/
namespace Octane

/-- What the TLS libraries and the file system do: reading a file, decoding PEM text, and checking a
certificate chain against a key. The keys and certificates are opaque. -/
structure TlsLib (Key Cert : Type) where
  file : Str → Option Bytes
  rsaKeys : Bytes → Option (List Key)
  certs : Bytes → Option (List Cert)
  fits : List Cert → Key → Bool

namespace TlsLib
variable {Key Cert : Type}

/-- `src/config.rs:229-233` `get_cert`; `none` is `Err`. -/
def getCert (L : TlsLib Key Cert) (settings : OctaneConfig) : Option (List Cert) :=
  (L.file settings.ssl.cert).bind L.certs

/-- `src/config.rs:237-241` `get_key`; `none` is `Err`. -/
def getKey (L : TlsLib Key Cert) (settings : OctaneConfig) : Option (List Key) :=
  (L.file settings.ssl.key).bind L.rsaKeys

/-- `src/tls/rustls.rs:13-26` `acceptor`; the result is the chain and the key it uses. -/
def rustlsAcceptor (L : TlsLib Key Cert) (settings : OctaneConfig) : Res (Option (List Cert × Key)) :=
  match L.getKey settings with
  | none => .ok none
  | some key =>
    match key with
    | [] => .panic
    | k :: _ =>
      match L.getCert settings with
      | none => .ok none
      | some chain => if L.fits chain k then .ok (some (chain, k)) else .ok none

end TlsLib

/-- `src/tls/openssl.rs:9-16` `acceptor`: `method` is whether the acceptor can be made, `useKey` and
`useChain` whether OpenSSL takes the files. The result is the two file names. -/
def opensslAcceptor (method : Bool) (useKey useChain : Str → Bool) (settings : OctaneConfig) :
    Option (Str × Str) :=
  if !method then none
  else if !useKey settings.ssl.key then none
  else if !useChain settings.ssl.cert then none
  else some (settings.ssl.key, settings.ssl.cert)

/-- The fallible calls of `src/server_builder.rs:20-31` `ServerBuilder::new`, in order. -/
inductive SysCall where
  | socket | nonblocking | bind | listen | reuse | fromStd
  deriving DecidableEq

/-- the call after this one -/
def SysCall.next : SysCall → Option SysCall
  | .socket => some .nonblocking
  | .nonblocking => some .bind
  | .bind => some .listen
  | .listen => some .reuse
  | .reuse => some .fromStd
  | .fromStd => none

/-- Where the caller's task stands in `listen`. -/
inductive MainAt where
  | begin -- nothing done
  | callback -- before `exec()`, `src/server.rs:155`
  | opening (c : SysCall) -- before this call of `ServerBuilder::new(port)`
  | accepting -- in the accept loop
  | failed -- `listen` has returned `Err`
  | panicked -- the callback panicked
  deriving DecidableEq

/-- Where the spawned TLS task stands. -/
inductive TlsAt where
  | off -- not spawned
  | opening (c : SysCall)
  | acceptor -- before `acceptor(&server.settings)?`
  | accepting
  | warned -- ended with `WARNING: …`
  | panicked
  deriving DecidableEq

/-- The state of the start-up: how often the callback was called, the two tasks, and whether each
holds its port. -/
structure Boot where
  calls : Nat
  main : MainAt
  tls : TlsAt
  mainHas : Bool
  tlsHas : Bool
  deriving DecidableEq

/-- What is fixed: the two ports, whether a TLS feature is compiled in, and how making the acceptor ends
(`panic`, `Err`, `Ok`). -/
structure BootCfg where
  port : Nat
  sslPort : Nat
  tls : Bool
  acceptor : Res Bool

/-- One step of the caller's task or of the TLS task; `ok` is the answer of the operating system (for
`exec()`: whether it returns). -/
inductive BootEvent where
  | main (ok : Bool)
  | tls (ok : Bool)
  deriving DecidableEq

namespace Boot

/-- `src/server.rs:125`: `listen` is called. -/
def init : Boot := ⟨0, .begin, .off, false, false⟩

/-- do the two listeners want the same port? -/
def clash (cfg : BootCfg) : Bool := cfg.port == cfg.sslPort && cfg.port != 0

/-- does this call succeed, when the other task holds its port or not? -/
def succeeds (cfg : BootCfg) (otherHas : Bool) (c : SysCall) (ok : Bool) : Bool :=
  ok && !(c == .bind && otherHas && clash cfg)

/-- One step of the caller's task, `src/server.rs:130-165`. A failed call drops the socket and thereby
frees the port. -/
def stepMain (cfg : BootCfg) (b : Boot) (ok : Bool) : Boot :=
  match b.main with
  | .begin => { b with main := .callback, tls := if cfg.tls then .opening .socket else .off }
  | .callback =>
    { b with calls := b.calls + 1, main := if ok then .opening .socket else .panicked }
  | .opening c =>
    if succeeds cfg b.tlsHas c ok then
      { b with main := (match c.next with | some c' => .opening c' | none => .accepting),
               mainHas := b.mainHas || c == .bind }
    else { b with main := .failed, mainHas := false }
  | _ => b

/-- One step of the TLS task, `src/server.rs:138-153`: bind, make the acceptor, accept. -/
def stepTls (cfg : BootCfg) (b : Boot) (ok : Bool) : Boot :=
  match b.tls with
  | .opening c =>
    if succeeds cfg b.mainHas c ok then
      { b with tls := (match c.next with | some c' => .opening c' | none => .acceptor),
               tlsHas := b.tlsHas || c == .bind }
    else { b with tls := .warned, tlsHas := false }
  | .acceptor =>
    match cfg.acceptor with
    | .ok true => { b with tls := .accepting }
    | .ok false => { b with tls := .warned, tlsHas := false }
    | .panic => { b with tls := .panicked, tlsHas := false }
  | _ => b

/-- One event. -/
def step (cfg : BootCfg) (b : Boot) : BootEvent → Boot
  | .main ok => stepMain cfg b ok
  | .tls ok => stepTls cfg b ok

/-- An execution of the start-up. -/
def run (cfg : BootCfg) (evs : List BootEvent) : Boot := evs.foldl (step cfg) init

end Boot
end Octane
