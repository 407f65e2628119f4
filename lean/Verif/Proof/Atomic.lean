import Verif.Proof.ProcessRun
import Verif.Proof.ProcessLive
/-
The model of all connections with handlers that are one step each (`Model/Listen.lean`) as a special case of
the model of the whole process.
-/
namespace Octane
open Spec
universe u
variable {W : Type u}

/-- the same task in the model of the whole process -/
def Spec.Task.inProcess : Task → PTask W
  | .handshake => .handshake
  | .head data => .reading (.head data)
  | .body headers line got need => .reading (.body headers line got need)
  | .writing sent rest => .writing sent rest
  | .finished sent => .finished sent
  | .broken sent => .broken sent
  | .panicked => .panicked
  | .refused => .refused

def Spec.Conn.inProcess (c : Conn) : PConn W := ⟨c.tls, Task.inProcess c.task, c.sock⟩

/-- the same state in the model of the whole process -/
def Spec.Sys.inProcess (workers : Nat) (y : Sys W) : Process W :=
  { world := y.world, workers, plain := y.plain, tls := y.tls, conns := y.conns.map Conn.inProcess, dead := y.dead }

/-- what a client does to the accept loops -/
def Spec.Happening.arrival? : Happening W → Option (Bool × Option Sock)
  | .connect tls s => some (tls, some s)
  | .acceptErr tls => some (tls, none)
  | _ => none

def Spec.arrivalOf : Octane.Event W → Option (Bool × Option Sock)
  | .connect tls s => some (tls, some s)
  | .acceptErr tls => some (tls, none)
  | _ => none

/-- the event of the larger model -/
def Spec.eventInProcess : Octane.Event W → Happening W
  | .connect tls s => .connect tls s
  | .acceptErr tls => .acceptErr tls
  | .handshake i ok => .handshake i ok
  | .poll i => .poll i
  | .write i n => .write i n
  | .writeErr i => .writeErr i
  | .env f => .env f
  | .exit => .exit

theorem accepted_cons' (p t : Bool) (e : Octane.Event W) (es : List (Octane.Event W)) : accepted p t (e :: es) =
    match arrivalOf e with
    | some (tls, some s) => if (if tls then t else p) then (tls, s) :: accepted p t es else accepted p t es
    | some (tls, none) => if tls then accepted p false es else accepted false t es
    | none => accepted p t es := by
  cases e <;> rfl

theorem taken_cons' (p t : Bool) (e : Happening W) (es : List (Happening W)) : taken p t (e :: es) =
    match Happening.arrival? e with
    | some (tls, some s) => if (if tls then t else p) then (tls, s) :: taken p t es else taken p t es
    | some (tls, none) => if tls then taken p false es else taken false t es
    | none => taken p t es := by
  cases e <;> rfl

/-- only the arrivals decide which connections are accepted -/
theorem taken_eq_accepted (evs : List (Octane.Event W)) (evs' : List (Happening W))
    (h : evs'.filterMap Happening.arrival? = evs.filterMap arrivalOf) (p t : Bool) : taken p t evs' = accepted p t evs := by
  induction evs' generalizing evs p t with
  | nil =>
    induction evs generalizing p t with
    | nil => rfl
    | cons e evs ih =>
      rw [List.filterMap_nil, List.filterMap_cons] at h
      rw [accepted_cons']
      cases he : arrivalOf e with
      | none => rw [he] at h; exact ih h p t
      | some a => rw [he] at h; cases h
  | cons e' evs' ih =>
    rw [List.filterMap_cons] at h
    rw [taken_cons']
    cases he' : Happening.arrival? e' with
    | none => rw [he'] at h; exact ih evs h p t
    | some a =>
      rw [he'] at h
      simp only at h
      clear he'
      induction evs generalizing p t with
      | nil => cases h
      | cons e evs ih2 =>
        rw [List.filterMap_cons] at h
        rw [accepted_cons']
        cases he : arrivalOf e with
        | none => rw [he] at h; exact ih2 p t h
        | some b =>
          rw [he] at h
          simp only [List.cons.injEq] at h
          obtain ⟨rfl, h⟩ := h
          obtain ⟨tls, o⟩ := a
          cases o with
          | some s => simp only; rw [ih evs h p t]
          | none => simp only; rw [ih evs h p false, ih evs h false t]

/-- the task that awaits a read -/
def Spec.Reading.task : Reading → Task
  | .head data => .head data
  | .body headers line got need => .body headers line got need

/-- what a completed read leads to -/
def settle (sv : Server W) (w : W) : Turn → Server.StepOut W
  | .waits r' s' => some (w, Reading.task r', s')
  | .request req s' => Server.respond w s' (sv.handle w req)
  | .bad s' => Server.respond w s' (sv.declareError w .badRequest)
  | .panicked s' => some (w, .panicked, s')
  | .abort => none

theorem poll_turn (sv : Server W) (w : W) (r : Reading) (s : Sock) :
    sv.poll w (Reading.task r) s = settle sv w (r.turn sv.feat sv.allocOk s) := by
  have hb : ∀ hs l b s, sv.withBody w hs l b s = settle sv w (Reading.withBody sv.feat hs l b s) := by
    intro hs l b s
    unfold Server.withBody Reading.withBody
    rcases Request.parse sv.feat l hs b with (_ | _) | _ <;> rfl
  have hh : ∀ a b rem s, sv.withHead w a b rem s = settle sv w (Reading.withHead sv.feat sv.allocOk a b rem s) := by
    intro a b rem s
    unfold Server.withHead Reading.withHead
    cases (Headers.parse sv.feat.faithful a).bind Res.unwrap with
    | panic => rfl
    | ok hs =>
      cases (RequestLine.parse sv.feat.faithful b).bind Res.unwrap with
      | panic => rfl
      | ok l =>
        simp only [apply_ite (settle sv w), hb]
        rfl
  cases r with
  | head data =>
    simp only [Reading.task, Server.poll, Reading.turn]
    cases s.read 512 with
    | error => rfl
    | pending => rfl
    | data b s' =>
      simp only
      by_cases hbb : b = []
      · rw [if_pos hbb, if_pos hbb]; rfl
      · rw [if_neg hbb, if_neg hbb]
        rcases headCheck (data ++ b) s' with (_ | _ | _) | _
        all_goals first | rfl | exact hh _ _ _ _
  | body hs l got need =>
    simp only [Reading.task, Server.poll, Reading.turn]
    cases s.read need with
    | error => rfl
    | pending => rfl
    | data b s' =>
      simp only [apply_ite (settle sv w), hb]
      rfl

/-- A task whose handlers return, given its turns without interruption. -/
theorem handling_whole {sv : PServer W} {allocOk : Nat → Bool} {log : List (PReg W)} (hs : SetUp sv log) (i : Nat)
    (p : Prog W Reply) :
    ∀ (y : Process W) (c : PConn W) (req : Request) (reads : List W), y.dead = false → y.conns[i]? = some c →
      c.task = .handling req reads → req.requestLine.method ≠ .all →
      (requestProg sv.feat.urlVariables log req).after reads = (p, []) → p.Ends →
      ∃ more : List (Happening W), (∀ e ∈ more, e = .access i ∨ e = .finish i) ∧
        y.run sv allocOk more = y.put (p.atomically y.world).1 i c
          (match p.atomically y.world with
            | (w, .ret r) => .respond (sv.write w r)
            | _ => .panicked) c.sock := by
  induction p with
  | act u next ih =>
    intro y c req reads hd hc ht hm ha he
    have hst := stage_spec hs req hm reads
    rw [ha] at hst
    cases hstage : sv.stage req reads <;> rw [hstage] at hst <;> try exact hst.elim
    rename_i upd
    have hu : upd = u := hst
    subst hu
    have hstep : y.step sv allocOk (.access i) = y.put (upd y.world) i c (.handling req (reads ++ [y.world])) c.sock := by
      simp [Process.step, hd, hc, ht, hstage]
    have hi := (List.getElem?_eq_some_iff.1 hc).1
    obtain ⟨more, m1, m2⟩ := ih y.world (y.step sv allocOk (.access i))
      { c with task := .handling req (reads ++ [y.world]) } req (reads ++ [y.world])
      (by rw [hstep]; exact hd) (by rw [hstep]; simp [Process.put, hi]) rfl hm
      (by rw [Prog.after_snoc ha, Prog.after_nil]) (he y.world)
    refine ⟨.access i :: more, ?_, ?_⟩
    · intro e hm
      rcases List.mem_cons.1 hm with rfl | hm
      · exact .inl rfl
      · exact m1 e hm
    · rw [Process.run_cons, m2, hstep]
      simp [Process.put, Prog.atomically]
  | ret r =>
    intro y c req reads hd hc ht hm ha he
    have hst := stage_spec hs req hm reads
    rw [ha] at hst
    cases hstage : sv.stage req reads <;> rw [hstage] at hst <;> try exact hst.elim
    rename_i r'
    have hr : r' = r := hst
    subst hr
    refine ⟨[.finish i], by simp, ?_⟩
    simp [Process.run, Process.step, hd, hc, ht, hstage, Prog.atomically]
  | panic =>
    intro y c req reads hd hc ht hm ha he
    have hst := stage_spec hs req hm reads
    rw [ha] at hst
    cases hstage : sv.stage req reads <;> rw [hstage] at hst <;> try exact hst.elim
    refine ⟨[.finish i], by simp, ?_⟩
    simp [Process.run, Process.step, hd, hc, ht, hstage, Prog.atomically]
  | hang => intro y c req reads hd hc ht hm ha he; exact he.elim

end Octane
