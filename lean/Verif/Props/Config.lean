import Verif.Spec.Config
/-
C50: configuration replacement.
-/
namespace Octane
open Spec

/-- what an edit of the returned `&mut Ssl` does -/
def runEdit (s : Ssl) : SslEdit → Ssl
  | .key p => s.setKey p
  | .cert p => s.setCert p

/-- a call on the server -/
def runApp (a : OctaneSettings) : AppOp → OctaneSettings
  | .withConfig c => a.withConfig c
  | .setKeepalive d => a.setKeepalive d
  | .withSslConfig s => a.withSslConfig s
  | .ssl port edits => a.sslWith port fun s => edits.foldl runEdit s
  | .workerThreads n => ⟨a.settings.setWorkerThreads n⟩

/-- the same call on an independent configuration (which has no public `append`) -/
def runConfig (c : OctaneConfig) : AppOp → OctaneConfig
  | .withConfig d => c.append d
  | .setKeepalive d => c.setKeepalive d
  | .withSslConfig s => c.withSslConfig s
  | .ssl port edits => c.sslWith port fun s => edits.foldl runEdit s
  | .workerThreads n => c.setWorkerThreads n

theorem lastWrite_snoc {α : Type u} {β : Type v} (f : α → Option β) (init : β) (xs : List α) (x : α) :
    lastWrite f init (xs ++ [x]) = (f x).getD (lastWrite f init xs) := by
  unfold lastWrite
  rw [List.reverse_append]
  simp only [List.reverse_cons, List.reverse_nil, List.nil_append, List.cons_append, List.findSome?_cons]
  cases f x <;> rfl

theorem edits_spec (edits : List SslEdit) (s : Ssl) :
    (edits.foldl runEdit s).key = (edits.reverse.findSome? SslEdit.key?).getD s.key ∧
    (edits.foldl runEdit s).cert = (edits.reverse.findSome? SslEdit.cert?).getD s.cert ∧
    (edits.foldl runEdit s).port = s.port := by
  induction edits generalizing s with
  | nil => exact ⟨rfl, rfl, rfl⟩
  | cons e es ih =>
    obtain ⟨h1, h2, h3⟩ := ih (runEdit s e)
    rw [List.foldl_cons, h1, h2, h3]
    cases e <;>
      simp [List.findSome?_append, runEdit, SslEdit.key?, SslEdit.cert?, Ssl.setKey, Ssl.setCert]

theorem C50_step (a : OctaneSettings) (op : AppOp) :
    (runApp a op).settings.keepAlive = op.keepAlive?.getD a.settings.keepAlive ∧
    (runApp a op).settings.ssl.key = op.key?.getD a.settings.ssl.key ∧
    (runApp a op).settings.ssl.cert = op.cert?.getD a.settings.ssl.cert ∧
    (runApp a op).settings.ssl.port = op.port?.getD a.settings.ssl.port ∧
    (runApp a op).settings.workerThreads = op.workers?.getD a.settings.workerThreads := by
  cases op with
  | ssl port edits =>
    obtain ⟨h1, h2, h3⟩ := edits_spec edits { a.settings.ssl with port := port }
    exact ⟨rfl, h1, h2, h3, rfl⟩
  | _ => exact ⟨rfl, rfl, rfl, rfl, rfl⟩

theorem runConfig_eq (c : OctaneConfig) (op : AppOp) : runConfig c op = (runApp ⟨c⟩ op).settings := by
  cases op <;> rfl

/-- After any history of calls on a new server every setting has the value last written to it:
`with_config` writes keep-alive, key, certificate and port; `with_ssl_config` key and certificate;
`ssl(port)` the port and whatever is edited through its result. -/
theorem C50_history (ops : List AppOp) :
    let s := (ops.foldl runApp OctaneSettings.new).settings
    s.keepAlive = lastWrite AppOp.keepAlive? (some 5000000000) ops ∧
    s.ssl.key = lastWrite AppOp.key? [] ops ∧
    s.ssl.cert = lastWrite AppOp.cert? [] ops ∧
    s.ssl.port = lastWrite AppOp.port? 443 ops ∧
    s.workerThreads = lastWrite AppOp.workers? none ops := by
  suffices h : ∀ rops : List AppOp,
      let s := (rops.reverse.foldl runApp OctaneSettings.new).settings
      s.keepAlive = lastWrite AppOp.keepAlive? (some 5000000000) rops.reverse ∧
      s.ssl.key = lastWrite AppOp.key? [] rops.reverse ∧
      s.ssl.cert = lastWrite AppOp.cert? [] rops.reverse ∧
      s.ssl.port = lastWrite AppOp.port? 443 rops.reverse ∧
      s.workerThreads = lastWrite AppOp.workers? none rops.reverse by
    simpa using h ops.reverse
  intro rops
  induction rops with
  | nil => exact ⟨rfl, rfl, rfl, rfl, rfl⟩
  | cons op rops ih =>
    simp only [List.reverse_cons, List.foldl_append, List.foldl_cons, List.foldl_nil, lastWrite_snoc]
    obtain ⟨h1, h2, h3, h4, h5⟩ := C50_step (rops.reverse.foldl runApp OctaneSettings.new) op
    rw [h1, h2, h3, h4, h5]
    obtain ⟨i1, i2, i3, i4, i5⟩ := ih
    rw [i1, i2, i3, i4, i5]
    exact ⟨rfl, rfl, rfl, rfl, rfl⟩

/-- The same for an independent configuration. -/
theorem C50_config_history (ops : List AppOp) :
    let s := ops.foldl runConfig OctaneConfig.new
    s.keepAlive = lastWrite AppOp.keepAlive? (some 5000000000) ops ∧
    s.ssl.key = lastWrite AppOp.key? [] ops ∧
    s.ssl.cert = lastWrite AppOp.cert? [] ops ∧
    s.ssl.port = lastWrite AppOp.port? 443 ops ∧
    s.workerThreads = lastWrite AppOp.workers? none ops := by
  have : ∀ (ops : List AppOp) a, ops.foldl runConfig a.settings = (ops.foldl runApp a).settings := by
    intro ops
    induction ops with
    | nil => intro a; rfl
    | cons op ops ih => intro a; simp only [List.foldl_cons, runConfig_eq]; exact ih _
  have h := C50_history ops
  rw [← this ops OctaneSettings.new] at h
  exact h

/-- Handing a configuration over: keep-alive and all SSL settings of the server are those of the
configuration, whatever was set before. -/
theorem C50_with_config (a : OctaneSettings) (c : OctaneConfig) :
    (a.withConfig c).settings.keepAlive = c.keepAlive ∧ (a.withConfig c).settings.ssl = c.ssl ∧
    (a.withConfig c).settings.workerThreads = a.settings.workerThreads := ⟨rfl, rfl, rfl⟩

/-- In particular the number of worker threads of the configuration is dropped. -/
theorem C50_worker_threads_dropped (ops : List AppOp) (h : ∀ n, AppOp.workerThreads n ∉ ops) :
    (ops.foldl runApp OctaneSettings.new).settings.workerThreads = none := by
  rw [(C50_history ops).2.2.2.2]
  unfold lastWrite
  rw [List.findSome?_eq_none_iff.2]
  · rfl
  · intro op hop
    cases op with
    | workerThreads n => exact absurd (List.mem_reverse.1 hop) (h n)
    | _ => rfl

example :
    let c := [AppOp.ssl 8443 [.key c!"k", .cert c!"c", .key c!"k2"], .workerThreads 4,
      .setKeepalive 7].foldl runConfig OctaneConfig.new
    let s := ([AppOp.setKeepalive 1, .withConfig c, .withSslConfig ⟨c!"x", c!"y", 1⟩,
      .ssl 9 [.cert c!"z"]].foldl runApp OctaneSettings.new).settings
    s = ⟨some 7, ⟨c!"x", c!"z", 9⟩, none⟩ := by decide

end Octane
