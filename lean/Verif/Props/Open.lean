import Verif.Proof.Open
import Verif.Props.Process
/-
C128: how many connections the server holds open.
-/
namespace Octane
open Spec
universe u
variable {W : Type u}

/-- The full claim of C128: there is a limit to the connections that are open at the same time. -/
def C128_statement : Prop :=
  ∃ N, ∀ (sv : PServer Unit) (allocOk : Nat → Bool) (workers : Nat) (evs : List (Happening Unit)),
    openCount ((Process.start () workers false false true).run sv allocOk evs) ≤ N

/-- However many connections are open, the next client is accepted as long as the process lives and listens. -/
theorem C128_accepts (sv : PServer W) (allocOk : Nat → Bool) (y : Process W) (tls : Bool) (s : Sock)
    (hd : y.dead = false) (hl : (if tls then y.tls else y.plain) = .listening) :
    openCount (y.step sv allocOk (.connect tls s)) = openCount y + 1 ∧
      (y.step sv allocOk (.connect tls s)).conns.length = y.conns.length + 1 := by
  have h : y.step sv allocOk (.connect tls s) =
      { y with conns := y.conns ++ [⟨tls, if tls then .handshake else .reading (.head []), s⟩] } := by
    simp [Process.step, hd, Process.listener, hl]
  rw [h]
  cases tls <;> simp [openCount, isOpen]

/-- A client that has gone silent is never given up: whatever else happens, its task stays as it is, with
everything it has received so far. -/
theorem C128_idle (sv : PServer W) (allocOk : Nat → Bool) (y : Process W) (i : Nat) (c : PConn W) (r : Reading)
    (hc : y.conns[i]? = some c) (hr : c.task = .reading r) (hi : Idle c.sock) (evs : List (Happening W)) :
    (y.run sv allocOk evs).conns[i]? = some c :=
  run_idle evs y hc hr hi

private theorem connects (sv : PServer W) (allocOk : Nat → Bool) (s : Sock) (n : Nat) (y : Process W)
    (hd : y.dead = false) (hl : y.plain = .listening) :
    y.run sv allocOk (List.replicate n (.connect false s)) =
      { y with conns := y.conns ++ List.replicate n ⟨false, .reading (.head []), s⟩ } := by
  induction n generalizing y with
  | zero => simp [Process.run]
  | succ n ih =>
    rw [List.replicate_succ, Process.run_cons]
    have h : y.step sv allocOk (.connect false s) =
        { y with conns := y.conns ++ [⟨false, .reading (.head []), s⟩] } := by
      simp [Process.step, hd, Process.listener, hl]
    rw [h, ih { y with conns := y.conns ++ [⟨false, .reading (.head []), s⟩] } hd hl]
    simp [List.replicate_succ]

/-- So any number of silent clients is held for ever: `n` clients connect and send nothing; after any further
events all `n` tasks are there and wait. -/
theorem C128_held (sv : PServer W) (allocOk : Nat → Bool) (w : W) (workers : Nat) (tlsFeature tlsOk : Bool) (s : Sock)
    (hi : Idle s) (n : Nat) (evs : List (Happening W)) :
    n ≤ openCount ((Process.start w workers tlsFeature tlsOk true).run sv allocOk
      (List.replicate n (.connect false s) ++ evs)) := by
  rw [Process.run_append, connects sv allocOk s n _ rfl rfl]
  have h : ∀ i < n, (Process.run sv allocOk
      { Process.start w workers tlsFeature tlsOk true with
        conns := [] ++ List.replicate n (⟨false, .reading (.head []), s⟩ : PConn W) } evs).conns[i]? =
        some ⟨false, .reading (.head []), s⟩ := by
    intro i hin
    refine C128_idle sv allocOk _ i _ (.head []) ?_ rfl hi evs
    simp [hin]
  revert h
  show (∀ i < n, (Process.run sv allocOk
      { Process.start w workers tlsFeature tlsOk true with
        conns := [] ++ List.replicate n (⟨false, .reading (.head []), s⟩ : PConn W) } evs).conns[i]? = _) →
    n ≤ openCount (Process.run sv allocOk
      { Process.start w workers tlsFeature tlsOk true with
        conns := [] ++ List.replicate n (⟨false, .reading (.head []), s⟩ : PConn W) } evs)
  generalize Process.run sv allocOk
      { Process.start w workers tlsFeature tlsOk true with
        conns := [] ++ List.replicate n (⟨false, .reading (.head []), s⟩ : PConn W) } evs = y
  intro h
  unfold openCount
  generalize y.conns = l at h
  clear y
  induction n generalizing l with
  | zero => omega
  | succ n ih =>
    cases l with
    | nil => simpa using h 0 (by omega)
    | cons c l =>
      have h0 := h 0 (by omega)
      simp only [List.getElem?_cons_zero, Option.some.injEq] at h0
      have := ih l fun i hi => by simpa using h (i + 1) (by omega)
      rw [List.countP_cons]
      subst h0
      have hop : isOpen (⟨false, .reading (.head []), s⟩ : PConn W).task = true := rfl
      rw [if_pos hop]
      omega

/-- The part of C128 that holds: no connection is open that no client has made, and all of them together keep no
more than was sent. Missing: a limit to either. -/
theorem C128_bound_partial (sv : PServer W) (allocOk : Nat → Bool) (w : W) (workers : Nat)
    (tlsFeature tlsOk plainOk : Bool) (evs : List (Happening W)) :
    let y := (Process.start w workers tlsFeature tlsOk plainOk).run sv allocOk evs
    openCount y ≤ (clients evs).length ∧
      keptInAll y ≤ ((clients evs).map fun s => s.bytes.length).sum := by
  refine ⟨?_, ?_⟩
  · have := run_length (sv := sv) (allocOk := allocOk) evs (Process.start w workers tlsFeature tlsOk plainOk)
    refine Nat.le_trans (List.countP_le_length) (Nat.le_trans this ?_)
    simp [Process.start]
  · have := run_held (sv := sv) (allocOk := allocOk) evs (Process.start w workers tlsFeature tlsOk plainOk)
    refine Nat.le_trans (kept_le_held _) (Nat.le_trans this ?_)
    simp [heldSum, Process.start]

/-- Nor is a client given up that does not read its answer: as long as nothing can be written to it and its
connection does not fail, its task stays as it is, with all that is left of the answer. -/
theorem C128_unread (sv : PServer W) (allocOk : Nat → Bool) (y : Process W) (i : Nat) (c : PConn W) (sent rest : Bytes)
    (hc : y.conns[i]? = some c) (ht : c.task = .writing sent rest) (evs : List (Happening W))
    (h : ∀ e ∈ evs, (∀ n, e ≠ .write i n) ∧ e ≠ .writeErr i) : (y.run sv allocOk evs).conns[i]? = some c := by
  induction evs generalizing y with
  | nil => exact hc
  | cons e evs ih =>
    rw [Process.run_cons]
    have he := h e (by simp)
    exact ih _ (step_unread y e hc ht he.1 he.2) fun x hx => h x (List.mem_cons_of_mem _ hx)

namespace OpenExample
open ParallelExample

/-- a client that says nothing -/
def mute : Sock := ⟨[], .silent⟩
theorem mute_idle : Idle mute := ⟨rfl, rfl⟩

/-- a client that has sent half of a request line and is silent from then on: two tasks, eight bytes kept -/
def half : Sock := ⟨[utf8 c!"GET / HT"], .silent⟩

def twoSilent : Process Nat := (Process.start 0 2 false false true).run (server fetchAdd) (fun _ => true)
  [.connect false half, .connect false mute, .poll 0]

example : let y := twoSilent
    openCount y = 2 ∧ keptInAll y = 8 ∧ y.dead = false ∧ y.plain = .listening ∧
      (y.conns[0]?.map fun c => c.sock.bytes) = some [] := by
  refine ⟨rfl, rfl, rfl, rfl, rfl⟩

/-- the hypotheses of `C128_idle` hold of the first -/
example : twoSilent.conns[0]? = some ⟨false, .reading (.head (utf8 c!"GET / HT")), ⟨[], .silent⟩⟩ ∧ Idle ⟨[], .silent⟩ :=
  ⟨rfl, rfl, rfl⟩

/-- a client that has sent nonsense and whose answer is to be written: the hypotheses of `C128_unread` -/
def toWrite : Process Nat := (Process.start 0 2 false false true).run (server fetchAdd) (fun _ => true)
  [.connect false ⟨[[13, 10, 13, 10]], .silent⟩, .poll 0, .connect false mute]

example : ∃ c rest, toWrite.conns[0]? = some c ∧ c.task = .writing [] rest ∧ rest ≠ [] ∧
    (toWrite.run (server fetchAdd) (fun _ => true) [.poll 1, .write 1 7, .env (· + 1)]).conns[0]? = some c := by
  obtain ⟨b, hb, hne⟩ : ∃ b, (server fetchAdd).write 0 (.page .badRequest) = .ok b ∧ b ≠ [] := by
    obtain ⟨b, v, hb, hv, -⟩ := C55_error_pages .asciiOnly true MapOrder.id 0 21 (by decide)
    refine ⟨b, hb, ?_⟩
    rintro rfl
    obtain ⟨_, _, ⟨h, _⟩, _⟩ := hv
    simp [blankLine] at h
  have h : toWrite.conns[0]? = some ⟨false, .writing [] b, ⟨[], .silent⟩⟩ := by
    have h0 : toWrite.conns[0]? = some ⟨false, .respond ((server fetchAdd).write 0 (.page .badRequest)), ⟨[], .silent⟩⟩ := rfl
    rw [h0, hb]
    rfl
  exact ⟨_, b, h, rfl, hne, C128_unread _ _ _ 0 _ [] b h rfl _ (by simp)⟩

end OpenExample

/-- C128 is false. -/
theorem C128_counterexample : ¬ C128_statement := by
  rintro ⟨N, h⟩
  let sv : PServer Unit := ⟨.default, .asciiOnly, .id, fun _ => 0, Router.new⟩
  have h1 := h sv (fun _ => true) 1 (List.replicate (N + 1) (.connect false OpenExample.mute) ++ [])
  have h2 := C128_held sv (fun _ => true) () 1 false false OpenExample.mute OpenExample.mute_idle (N + 1) []
  omega

end Octane
