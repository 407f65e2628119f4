import Verif.Proof.Alone
import Verif.Props.Process
/-
C114: what a client is sent depends on the other clients only through what its handlers read.
-/
namespace Octane
open Spec
universe u v
variable {W : Type u}

/-- The program can end like this, for some values of the shared state at its accesses. -/
inductive Prog.CanEnd {α : Type v} : Prog W α → Ending α → Prop
  | ret (a : α) : CanEnd (.ret a) (.ret a)
  | panic : CanEnd .panic .panic
  | hang : CanEnd .hang .hang
  | act {upd : W → W} {next : W → Prog W α} {e : Ending α} (w : W) : CanEnd (next w) e → CanEnd (.act upd next) e

/-- It ends in the same way whatever the shared state is at its accesses: it may change the shared state, but
nothing it reads there matters to its result. -/
def Prog.Blind {α : Type v} (p : Prog W α) : Prop := ∀ e e', p.CanEnd e → p.CanEnd e' → e = e'

namespace Spec

/-- The task stands on the way to the ending `out`: what is sent is the reply written out (the world only gives
the time), and a panic is one of the handlers or of writing out. -/
def Toward (sv : PServer W) (out : Ending Reply) : PTask W → Prop
  | .writing sent rest => ∃ r w, out = .ret r ∧ sv.write w r = .ok (sent ++ rest)
  | .finished sent => ∃ r w, out = .ret r ∧ sv.write w r = .ok sent
  | .broken sent => ∃ r w rest, out = .ret r ∧ sv.write w r = .ok (sent ++ rest)
  | .panicked => out = .panic ∨ ∃ r w, out = .ret r ∧ sv.write w r = .panic
  | _ => True

/-- The task stands on the way to sending `answer` (or to a panic). -/
def Sends (answer : Res Bytes) : PTask W → Prop
  | .writing sent rest => answer = .ok (sent ++ rest)
  | .finished sent => answer = .ok sent
  | .broken sent => ∃ rest, answer = .ok (sent ++ rest)
  | .panicked => answer = .panic
  | _ => True

end Spec

theorem Prog.CanEnd.of_after {α : Type v} {p : Prog W α} {ws : List W} {e : Ending α} (h : (p.after ws).1.CanEnd e) :
    p.CanEnd e := by
  induction p generalizing ws with
  | act upd next ih =>
    cases ws with
    | nil => exact h
    | cons w ws => exact .act w (ih w h)
  | ret a => exact h
  | panic => exact h
  | hang => exact h

/-- where a connection stands on the way to `out` -/
private def Way (sv : PServer W) (allocOk : Nat → Bool) (out : Ending Reply) (s0 sock : Sock) : PTask W → Prop
  | .handshake => sock = s0
  | .reading r => r.Ok ∧ readRest sv.feat allocOk sock r = readRest sv.feat allocOk s0 (.head [])
  | .handling req _ => readRest sv.feat allocOk s0 (.head []) = .ok (some req)
  | t => Toward sv out t

private theorem way_rule {sv : PServer W} {log : List (PReg W)} (hs : SetUp sv log) (allocOk : Nat → Bool) (s : Sock)
    (out : Ending Reply)
    (hbad : readRest sv.feat allocOk s (.head []) = .ok none → out = .ret (.page .badRequest))
    (hpan : readRest sv.feat allocOk s (.head []) = .panic → out = .panic)
    (hreq : ∀ req e, readRest sv.feat allocOk s (.head []) = .ok (some req) →
      (requestProg sv.feat.urlVariables log req).CanEnd e → out = e) :
    ConnRule sv allocOk fun s0 sock t => s0 = s → Way sv allocOk out s0 sock t := by
  have hresp : ∀ (s0 sock : Sock) (r : Reply) (w : W), out = .ret r →
      Way sv allocOk out s0 sock (.respond (sv.write w r)) := by
    intro s0 sock r w h
    cases hw : sv.write w r with
    | ok bytes => exact ⟨r, w, h, by rw [hw]; rfl⟩
    | panic => exact .inr ⟨r, w, h, hw⟩
  have hstage : ∀ (req : Request) (reads : List W), readRest sv.feat allocOk s (.head []) = .ok (some req) →
      Stands (sv.stage req reads) ((requestProg sv.feat.urlVariables log req).after reads).1 := by
    intro req reads h
    exact stage_spec hs req (Received.method (readRest_received h)) reads
  refine ⟨fun s' _ => ⟨trivial, rfl⟩, fun s' _ => rfl, ?_, ?_, ?_, ?_, ?_, ?_, ?_⟩
  · rintro s0 sock t ok h rfl
    cases t with
    | handshake =>
      have e : sock = s0 := h rfl
      subst e
      cases ok
      · exact trivial
      · exact ⟨trivial, rfl⟩
    | _ => exact h rfl
  · intro s0 sock r h
    have ht := fun e : s0 = s => turn_spec sv.feat allocOk r sock (h e).1
    cases hx : r.turn sv.feat allocOk sock with
    | waits r' s' =>
      rintro rfl
      have := ht rfl
      rw [hx] at this
      exact ⟨this.1, this.2.1.trans (h rfl).2⟩
    | request req s' =>
      rintro rfl
      have := ht rfl
      rw [hx] at this
      exact (h rfl).2.symm.trans this
    | bad s' =>
      rintro w rfl
      have := ht rfl
      rw [hx] at this
      exact hresp _ _ _ _ (hbad ((h rfl).2.symm.trans this))
    | panicked s' =>
      rintro rfl
      have := ht rfl
      rw [hx] at this
      exact .inl (hpan ((h rfl).2.symm.trans this))
    | abort => trivial
  · rintro s0 sock req reads upd w h - rfl
    exact h rfl
  · rintro s0 sock req reads r w h hst rfl
    have h1 := hstage req reads (h rfl)
    rw [hst] at h1
    refine hresp _ _ _ _ (hreq req _ (h rfl) (Prog.CanEnd.of_after (ws := reads) ?_))
    revert h1
    cases ((requestProg sv.feat.urlVariables log req).after reads).1 with
    | ret r' => intro h1; cases h1; exact .ret _
    | _ => intro h1; exact h1.elim
  · rintro s0 sock req reads h hst rfl
    have h1 := hstage req reads (h rfl)
    rw [hst] at h1
    refine .inl (hreq req _ (h rfl) (Prog.CanEnd.of_after (ws := reads) ?_))
    revert h1
    cases ((requestProg sv.feat.urlVariables log req).after reads).1 with
    | panic => intro _; exact .panic
    | _ => intro h1; exact h1.elim
  · rintro s0 sock t n h rfl
    cases t with
    | writing sent rest =>
      obtain ⟨r, w, h1, h2⟩ := h rfl
      simp only [PTask.writeStep]
      split
      · exact ⟨r, w, h1, h2⟩
      · exact ⟨r, w, h1, by rw [List.append_assoc, List.take_append_drop]; exact h2⟩
    | _ => exact h rfl
  · rintro s0 sock t h rfl
    cases t with
    | writing sent rest =>
      obtain ⟨r, w, h1, h2⟩ := h rfl
      exact ⟨r, w, rest, h1, h2⟩
    | _ => exact h rfl

/-- C114: if the handlers of the requests that a client's bytes can be read as end in the same way whatever they
find in the shared state, there is one outcome for this client, whatever the shared state is at the beginning,
whoever else connects, whatever the others send and in whatever order things happen: at every time of every
execution its connection is on the way to this outcome. -/
theorem C114_outcome (sv : PServer W) (log : List (PReg W)) (hs : SetUp sv log) (allocOk : Nat → Bool) (s : Sock)
    (hblind : ∀ req, Received sv.feat.faithful sv.feat.cookies s req →
      (requestProg sv.feat.urlVariables log req).Blind) :
    ∃ out : Ending Reply, ∀ (w0 : W) (workers : Nat) (tlsFeature tlsOk plainOk : Bool) (evs : List (Happening W)),
      let y := (Process.start w0 workers tlsFeature tlsOk plainOk).run sv allocOk evs
      y.dead = false → ∀ (i : Nat) (tls : Bool) (c : PConn W),
        (taken plainOk (tlsFeature && tlsOk) evs)[i]? = some (tls, s) → y.conns[i]? = some c →
        Toward sv out c.task := by
  have hex : ∃ out : Ending Reply,
      (readRest sv.feat allocOk s (.head []) = .ok none → out = .ret (.page .badRequest)) ∧
      (readRest sv.feat allocOk s (.head []) = .panic → out = .panic) ∧
      (∀ req e, readRest sv.feat allocOk s (.head []) = .ok (some req) →
        (requestProg sv.feat.urlVariables log req).CanEnd e → out = e) := by
    have hq : ∀ req, readRest sv.feat allocOk s (.head []) = .ok (some req) →
        (requestProg sv.feat.urlVariables log req).Blind := fun req h => hblind req (readRest_received h)
    revert hq
    generalize readRest sv.feat allocOk s (.head []) = R
    intro hq
    rcases R with (_ | req) | _ | _ | _
    · exact ⟨.ret (.page .badRequest), fun _ => rfl, fun h => (by cases h), fun _ _ h => (by cases h)⟩
    · by_cases h : ∃ e, (requestProg sv.feat.urlVariables log req).CanEnd e
      · obtain ⟨e, he⟩ := h
        refine ⟨e, fun h => (by cases h), fun h => (by cases h), fun req' e' h he' => ?_⟩
        cases h
        exact hq req rfl _ _ he he'
      · refine ⟨.hang, fun h => (by cases h), fun h => (by cases h), fun req' e' h' he' => ?_⟩
        cases h'
        exact absurd ⟨e', he'⟩ h
    · exact ⟨.panic, fun h => (by cases h), fun _ => rfl, fun _ _ h => (by cases h)⟩
    · exact ⟨.hang, fun h => (by cases h), fun h => (by cases h), fun _ _ h => (by cases h)⟩
    · exact ⟨.hang, fun h => (by cases h), fun h => (by cases h), fun _ _ h => (by cases h)⟩
  obtain ⟨out, h1, h2, h3⟩ := hex
  refine ⟨out, fun w0 workers tlsFeature tlsOk plainOk evs hd i tls c hi hc => ?_⟩
  obtain ⟨s0, g1, g2⟩ := (all_conns (way_rule hs allocOk s out h1 h2 h3) w0 workers tlsFeature tlsOk plainOk evs hd).conns i c hc
  rw [hi] at g1
  injection g1 with g1
  injection g1 with g0 g1
  have g := g2 g1.symm
  cases ht : c.task <;> rw [ht] at g <;> first | exact trivial | exact g

/-- So while the clock stands still there is one answer, byte for byte: at every time of every execution, what the
client has been sent is a beginning of this answer, all of it when its connection is finished; or no
connection of such a client is ever sent anything, and its task panics. -/
theorem C114_bytes (sv : PServer W) (log : List (PReg W)) (hs : SetUp sv log) (allocOk : Nat → Bool) (s : Sock)
    (hclock : ∀ w w', sv.clock w = sv.clock w')
    (hblind : ∀ req, Received sv.feat.faithful sv.feat.cookies s req →
      (requestProg sv.feat.urlVariables log req).Blind) :
    ∃ answer : Res Bytes, ∀ (w0 : W) (workers : Nat) (tlsFeature tlsOk plainOk : Bool) (evs : List (Happening W)),
      let y := (Process.start w0 workers tlsFeature tlsOk plainOk).run sv allocOk evs
      y.dead = false → ∀ (i : Nat) (tls : Bool) (c : PConn W),
        (taken plainOk (tlsFeature && tlsOk) evs)[i]? = some (tls, s) → y.conns[i]? = some c →
        Sends answer c.task := by
  have hw : ∀ w w' r, sv.write w r = sv.write w' r := by
    intro w w' r
    cases r with
    | page kind => simp only [PServer.write, hclock w w']
    | sent res => rfl
  obtain ⟨out, h⟩ := C114_outcome sv log hs allocOk s hblind
  have key : ∃ answer : Res Bytes, (out = .panic → answer = .panic) ∧ ∀ r w, out = .ret r → answer = sv.write w r := by
    cases out with
    | ret r =>
      by_cases hne : Nonempty W
      · obtain ⟨w⟩ := hne
        refine ⟨sv.write w r, nofun, fun r' w' e => ?_⟩
        injection e with e
        subst e
        exact hw _ _ _
      · exact ⟨.panic, nofun, fun _ w _ => absurd ⟨w⟩ hne⟩
    | panic => exact ⟨.panic, fun _ => rfl, nofun⟩
    | hang => exact ⟨.panic, nofun, nofun⟩
  obtain ⟨answer, k1, k2⟩ := key
  refine ⟨answer, fun w0 workers tlsFeature tlsOk plainOk evs hd i tls c hi hc => ?_⟩
  have g := h w0 workers tlsFeature tlsOk plainOk evs hd i tls c hi hc
  cases ht : c.task <;> rw [ht] at g
  case writing sent rest => obtain ⟨r, w, e1, e2⟩ := g; exact (k2 r w e1).trans e2
  case finished sent => obtain ⟨r, w, e1, e2⟩ := g; exact (k2 r w e1).trans e2
  case broken sent => obtain ⟨r, w, rest, e1, e2⟩ := g; exact ⟨rest, (k2 r w e1).trans e2⟩
  case panicked =>
    rcases g with g | ⟨r, w, e1, e2⟩
    · exact k1 g
    · exact (k2 r w e1).trans e2
  all_goals exact trivial

namespace AloneExample
open ParallelExample ProcessExample

/-- a handler that counts its calls and says the same every time -/
def counts : PClosure Nat := fun _ _ => .act (· + 1) fun _ => .ret (said 7, .stop)

theorem blind (q : Request) : (requestProg true [⟨.everywhere, counts⟩] q).Blind := by
  have one : ∀ (r : Reply) (e : Ending Reply), (Prog.ret r : Prog Nat Reply).CanEnd e → e = .ret r := by
    intro r e h; cases h; rfl
  unfold requestProg
  split
  · intro e e' h h'
    cases h; cases h'; rfl
  · split
    · intro e e' h h'
      rw [one _ _ h, one _ _ h']
    · split
      · intro e e' h h'
        simp only [chain, Target.applies, if_true, counts, Prog.bind] at h h'
        cases h with
        | act w h =>
          cases h' with
          | act w' h' => rw [one _ _ h, one _ _ h']
      · intro e e' h h'
        rw [one _ _ h, one _ _ h']

/-- the client alone -/
def alone : List (Happening Nat) :=
  [.connect false asksP, .poll 0, .access 0, .finish 0, .write 0 1000]

/-- the client after another one -/
def second : List (Happening Nat) :=
  [.connect false asksH, .connect false asksP, .poll 0, .access 0, .finish 0, .write 0 1000,
    .poll 1, .access 1, .finish 1, .write 1 1000]

/-- the client beside another one whose handler runs at the same time -/
def beside : List (Happening Nat) :=
  [.connect false asksH, .connect false asksP, .poll 1, .poll 0, .access 0, .access 1, .finish 1, .write 1 3]

/-- what a task has sent, and whether that is all -/
def sentBy : PTask Nat → Option (Bool × Bytes)
  | .finished sent => some (true, sent)
  | .writing sent _ => some (false, sent)
  | _ => none

/-- what the client of connection `i` has been sent -/
def sentTo (y : Process Nat) (i : Nat) : Option (Bool × Bytes) := (y.conns[i]?).bind fun c => sentBy c.task

theorem sentTo_finished {y : Process Nat} {i : Nat} {x : Bytes} (h : sentTo y i = some (true, x)) :
    (y.conns[i]?).map (·.task) = some (.finished x) := by
  unfold sentTo at h
  cases hc : y.conns[i]? with
  | none => rw [hc] at h; cases h
  | some c =>
    rw [hc] at h
    simp only [Option.bind_some] at h
    cases ht : c.task <;> rw [ht] at h <;> simp [sentBy] at h
    simp [ht, h]

end AloneExample

open ParallelExample ProcessExample AloneExample in
/-- the hypotheses of `C114_outcome` and `C114_bytes`: a handler that counts, and three executions in which the same
client is sent something, with different values of the counter -/
example : SetUp (server counts) [⟨.everywhere, counts⟩] ∧ (∀ w w', (server counts).clock w = (server counts).clock w') ∧
    (∀ req, Received true true asksP req → (requestProg true [⟨.everywhere, counts⟩] req).Blind) ∧
    ((Process.start 0 1 false false true).run (server counts) (fun _ => true) alone).world = 1 ∧
    ((Process.start 5 1 false false true).run (server counts) (fun _ => true) second).world = 7 ∧
    sentTo ((Process.start 0 1 false false true).run (server counts) (fun _ => true) alone) 0 =
      sentTo ((Process.start 5 1 false false true).run (server counts) (fun _ => true) second) 1 ∧
    sentTo ((Process.start 5 2 false false true).run (server counts) (fun _ => true) beside) 1 =
      some (false, utf8 c!"HTT") :=
  ⟨setUp counts, fun _ _ => rfl, fun q _ => blind q, by decide +kernel, by decide +kernel, by decide +kernel,
    by decide +kernel⟩

open ParallelExample ProcessExample AloneExample in
/-- It is needed that what the handlers read does not matter: with a counter whose value is told, the same client
is sent one thing when it is alone, and another thing when somebody else was there before. -/
theorem C114_needed : ∃ (a b : List (Happening Nat)) (x z : Bytes),
    (taken true false a)[0]? = some (false, asksP) ∧ (taken true false b)[1]? = some (false, asksP) ∧
    (((Process.start 0 1 false false true).run (server fetchAdd) (fun _ => true) a).conns[0]?).map (·.task) =
      some (.finished x) ∧
    (((Process.start 0 1 false false true).run (server fetchAdd) (fun _ => true) b).conns[1]?).map (·.task) =
      some (.finished z) ∧ x ≠ z := by
  refine ⟨alone, second,
    ((sentTo ((Process.start 0 1 false false true).run (server fetchAdd) (fun _ => true) alone) 0).getD (true, [])).2,
    ((sentTo ((Process.start 0 1 false false true).run (server fetchAdd) (fun _ => true) second) 1).getD (true, [])).2,
    rfl, rfl, sentTo_finished (by decide +kernel), sentTo_finished (by decide +kernel), by decide +kernel⟩

end Octane
