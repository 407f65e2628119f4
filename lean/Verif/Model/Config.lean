import Verif.Model.Basic
/-
Model of `src/config.rs` and of the configuration methods of `src/server.rs`.
`PathBuf` is its text; `Duration` is a number of nanoseconds; `u16`/`usize` are `Nat`.
Loading certificates (`get_cert`, `get_key`) is in `Model/Startup.lean`.
-/
namespace Octane

/-- `src/config.rs:30-37` `struct Ssl`. -/
structure Ssl where
  key : Str
  cert : Str
  port : Nat
  deriving DecidableEq

/-- `src/config.rs:42-48` `Ssl::new`. -/
def Ssl.new : Ssl := ⟨[], [], 443⟩

/-- `src/config.rs:61-64` `Ssl::key`. -/
def Ssl.setKey (s : Ssl) (path : Str) : Ssl := { s with key := path }

/-- `src/config.rs:77-80` `Ssl::cert`. -/
def Ssl.setCert (s : Ssl) (path : Str) : Ssl := { s with cert := path }

/-- `src/config.rs:103-109` `struct OctaneConfig`. -/
structure OctaneConfig where
  keepAlive : Option Nat
  ssl : Ssl
  workerThreads : Option Nat
  deriving DecidableEq

namespace OctaneConfig

/-- `src/config.rs:204-210` `OctaneConfig::new`: keep-alive 5 s. -/
def new : OctaneConfig := ⟨some 5000000000, Ssl.new, none⟩

/-- `src/config.rs:212-215` `append`. -/
def append (self settings : OctaneConfig) : OctaneConfig :=
  { self with ssl := settings.ssl, keepAlive := settings.keepAlive }

/-- `src/config.rs:221-224` `worker_threads`. -/
def setWorkerThreads (self : OctaneConfig) (threads : Nat) : OctaneConfig :=
  { self with workerThreads := some threads }

/-- `src/config.rs:248-250` `Config::set_keepalive` for `OctaneConfig`. -/
def setKeepalive (self : OctaneConfig) (duration : Nat) : OctaneConfig :=
  { self with keepAlive := some duration }

/-- `src/config.rs:252-255` `Config::with_ssl_config` for `OctaneConfig`. -/
def withSslConfig (self : OctaneConfig) (ssl : Ssl) : OctaneConfig :=
  { self with ssl := { self.ssl with key := ssl.key, cert := ssl.cert } }

/-- `src/config.rs:256-259` `Config::ssl` for `OctaneConfig`; the caller goes on with the returned
`&mut Ssl`, here the function `f`. -/
def sslWith (self : OctaneConfig) (port : Nat) (f : Ssl → Ssl) : OctaneConfig :=
  { self with ssl := f { self.ssl with port := port } }

end OctaneConfig

/-- `src/server.rs:47-51` `struct Octane`, its settings. -/
structure OctaneSettings where
  settings : OctaneConfig
  deriving DecidableEq

namespace OctaneSettings

/-- `src/server.rs:55-60` `Octane::new`, the settings. -/
def new : OctaneSettings := ⟨OctaneConfig.new⟩

/-- `src/server.rs:81-83` `Octane::with_config`. -/
def withConfig (self : OctaneSettings) (config : OctaneConfig) : OctaneSettings :=
  ⟨self.settings.append config⟩

/-- `src/server.rs:261-263` `Config::set_keepalive` for `Octane`. -/
def setKeepalive (self : OctaneSettings) (duration : Nat) : OctaneSettings :=
  ⟨{ self.settings with keepAlive := some duration }⟩

/-- `src/server.rs:264-267` `Config::with_ssl_config` for `Octane`. -/
def withSslConfig (self : OctaneSettings) (ssl : Ssl) : OctaneSettings :=
  ⟨{ self.settings with ssl := { self.settings.ssl with key := ssl.key, cert := ssl.cert } }⟩

/-- `src/server.rs:268-271` `Config::ssl` for `Octane`. -/
def sslWith (self : OctaneSettings) (port : Nat) (f : Ssl → Ssl) : OctaneSettings :=
  ⟨{ self.settings with ssl := f { self.settings.ssl with port := port } }⟩

end OctaneSettings
end Octane
