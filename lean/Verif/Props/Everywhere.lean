import Verif.Props.Stoppers
import Verif.Props.Meet
import Verif.Props.Parallel
import Verif.Proof.ProcessRun
import Verif.Spec.Everywhere
/-
C165: what can be left out, exchanged or put in another order for one connection can be so for the whole process.
-/
namespace Octane
open Spec Query
universe u
variable {W : Type u}

/-- a step of the process asks the router only about requests that have been received -/
theorem step_congr (sv sv' : PServer W) (hf : sv'.feat = sv.feat) (hw : ∀ w r, sv'.write w r = sv.write w r)
    (allocOk : Nat → Bool) (y : Process W)
    (h : ∀ (i : Nat) c req reads, y.conns[i]? = some c → c.task = .handling req reads → sv'.stage req reads = sv.stage req reads)
    (e : Happening W) : y.step sv' allocOk e = y.step sv allocOk e := by
  cases e with
  | poll i => simp only [Process.step, hf, hw]
  | access i =>
    simp only [Process.step]
    split
    · rfl
    · split
      · rename_i c hc
        split
        · rename_i req reads ht
          rw [h i c req reads hc ht]
        · rfl
      · rfl
  | finish i =>
    simp only [Process.step]
    split
    · rfl
    · split
      · rename_i c hc
        split
        · rename_i req reads ht
          rw [h i c req reads hc ht]
          simp only [hw]
        · rfl
      · rfl
  | _ => rfl

/-- two servers that treat every request that can be received alike do the same in every execution -/
theorem process_congr (sv sv' : PServer W) (hf : sv'.feat = sv.feat) (hw : ∀ w r, sv'.write w r = sv.write w r)
    (allocOk : Nat → Bool) (w0 : W) (workers : Nat) (tlsFeature tlsOk plainOk : Bool)
    (h : ∀ s req reads, Received sv.feat.faithful sv.feat.cookies s req → sv'.stage req reads = sv.stage req reads)
    (evs : List (Happening W)) :
    (Process.start w0 workers tlsFeature tlsOk plainOk).run sv' allocOk evs =
      (Process.start w0 workers tlsFeature tlsOk plainOk).run sv allocOk evs := by
  have key : ∀ pre post : List (Happening W),
      ((Process.start w0 workers tlsFeature tlsOk plainOk).run sv allocOk pre).run sv' allocOk post =
        ((Process.start w0 workers tlsFeature tlsOk plainOk).run sv allocOk pre).run sv allocOk post := by
    intro pre post
    induction post generalizing pre with
    | nil => rfl
    | cons e post ih =>
      have hstep : ((Process.start w0 workers tlsFeature tlsOk plainOk).run sv allocOk pre).step sv' allocOk e =
          ((Process.start w0 workers tlsFeature tlsOk plainOk).run sv allocOk pre).step sv allocOk e := by
        cases hd : ((Process.start w0 workers tlsFeature tlsOk plainOk).run sv allocOk pre).dead with
        | true => simp [Process.step, hd]
        | false =>
          obtain ⟨more, ord, inv, -⟩ := (ProcInv.start (sv := sv) (allocOk := allocOk) w0 workers tlsFeature tlsOk plainOk).run pre hd
          refine step_congr sv sv' hf hw allocOk _ (fun i c req reads hc ht => ?_) e
          obtain ⟨s0, -, hat⟩ := inv.conns i c hc
          rw [ht] at hat
          exact h s0 req reads hat.1
      have h2 := ih (pre ++ [e])
      rw [Process.run_append] at h2
      rw [Process.run_cons, Process.run_cons, hstep]
      exact h2
  exact key [] evs

/-- registrations that make the same of a request that can be received -/
theorem stage_replay {sv sv' : PServer W} (ha : ButRouter sv sv') {log log' : List (PReg W)} (hs : SetUp sv log)
    (hs' : SetUp sv' log')
    (h : ∀ (q : Asked) n bytes req st, q.In sv.feat.faithful sv.feat.cookies bytes n → q.Was sv.feat.cookies n req →
      (q.method, req.requestLine.method) ∈ methodTable →
      replay sv.feat.urlVariables req (log'.map PReg.reg) st = replay sv.feat.urlVariables req (log.map PReg.reg) st)
    (s : Sock) (req : Request) (reads : List W) (hr : Received sv.feat.faithful sv.feat.cookies s req) :
    sv'.stage req reads = sv.stage req reads := by
  obtain ⟨q, n, hq, hwas, -⟩ := hr
  unfold PServer.stage
  split
  · rfl
  · split
    · rfl
    · rcases hwas.method with hm | ⟨-, hm⟩
      · obtain ⟨c, c1, c2, c3, c4⟩ := hs
        obtain ⟨c', c1', c2', c3', c4'⟩ := hs'
        have hall := (known_not_all hm).1
        obtain ⟨a, a1, a2⟩ := C12_run_is_replay c c1 c2
        obtain ⟨a', a1', a2'⟩ := C12_run_is_replay c' c1' c2'
        rw [c4] at a1
        rw [c4'] at a1'
        injection a1 with a1
        injection a1' with a1'
        subst a1 a1'
        rw [ha.feat, a2 _ _ _ hall, a2' _ _ _ hall, c3, c3', h q n s.bytes req _ hq hwas hm]
      · rw [hm]; rfl

theorem write_butRouter {sv sv' : PServer W} (ha : ButRouter sv sv') (w : W) (r : Reply) : sv'.write w r = sv.write w r := by
  unfold PServer.write
  rw [ha.feat, ha.U, ha.ord, ha.clock]

/-- the same for registrations that make the same of every request that can be received -/
theorem process_replay {sv sv' : PServer W} (ha : ButRouter sv sv') {log log' : List (PReg W)} (hs : SetUp sv log)
    (hs' : SetUp sv' log') (allocOk : Nat → Bool) (w0 : W) (workers : Nat) (tlsFeature tlsOk plainOk : Bool)
    (h : ∀ (q : Asked) n bytes req st, q.In sv.feat.faithful sv.feat.cookies bytes n → q.Was sv.feat.cookies n req →
      (q.method, req.requestLine.method) ∈ methodTable →
      replay sv.feat.urlVariables req (log'.map PReg.reg) st = replay sv.feat.urlVariables req (log.map PReg.reg) st)
    (evs : List (Happening W)) :
    (Process.start w0 workers tlsFeature tlsOk plainOk).run sv' allocOk evs =
      (Process.start w0 workers tlsFeature tlsOk plainOk).run sv allocOk evs := by
  exact process_congr sv sv' ha.feat (write_butRouter ha) allocOk w0 workers tlsFeature tlsOk plainOk
    (stage_replay ha hs hs' h) evs

/-- C165, registrations that do not apply: if for the request in every byte stream the same registrations apply, in the
same order, then every execution of the process is the same, whatever the handlers do and however they interleave. -/
theorem C165_same {sv sv' : PServer W} (ha : ButRouter sv sv') {log log' : List (PReg W)} (hs : SetUp sv log)
    (hs' : SetUp sv' log') (allocOk : Nat → Bool) (w0 : W) (workers : Nat) (tlsFeature tlsOk plainOk : Bool)
    (h : ∀ (q : Asked) n bytes m, q.In sv.feat.faithful sv.feat.cookies bytes n → (q.method, m) ∈ methodTable →
      applying sv.feat.urlVariables m (resolve q.pieces) (log'.map PReg.reg) =
        applying sv.feat.urlVariables m (resolve q.pieces) (log.map PReg.reg))
    (evs : List (Happening W)) :
    (Process.start w0 workers tlsFeature tlsOk plainOk).run sv' allocOk evs =
      (Process.start w0 workers tlsFeature tlsOk plainOk).run sv allocOk evs := by
  refine process_replay ha hs hs' allocOk w0 workers tlsFeature tlsOk plainOk (fun q n bytes req st hq hw hm => ?_) evs
  rw [replay_applying, replay_applying _ _ (log.map PReg.reg), hw.path, h q n bytes _ hq hm]

/-- C165, dead registrations (as C155): they can be left out. -/
theorem C165_left_out {sv sv' : PServer W} (ha : ButRouter sv sv') (pre post : List (PReg W)) (e : PReg W)
    (hs : SetUp sv (pre ++ e :: post)) (hs' : SetUp sv' (pre ++ post))
    (hdead : Dead sv.feat.urlVariables (pre.map PReg.reg) e.target) (allocOk : Nat → Bool) (w0 : W) (workers : Nat)
    (tlsFeature tlsOk plainOk : Bool) (evs : List (Happening W)) :
    (Process.start w0 workers tlsFeature tlsOk plainOk).run sv' allocOk evs =
      (Process.start w0 workers tlsFeature tlsOk plainOk).run sv allocOk evs := by
  refine process_replay ha hs hs' allocOk w0 workers tlsFeature tlsOk plainOk (fun q n bytes req st hq hw hm => ?_) evs
  rw [List.map_append, List.map_append, List.map_cons]
  exact dead_replay (e := e.reg) hdead req hm (by rw [hw.path]; exact asked_segments hq) st

/-- C165, the order (as C159): it can be changed between registrations that no request can reach both. -/
theorem C165_rearranged {sv sv' : PServer W} (ha : ButRouter sv sv') (log log' : List (PReg W)) (hs : SetUp sv log)
    (hs' : SetUp sv' log') (order : List Nat) (hk : KeepsOrder sv.feat.urlVariables (log.map PReg.reg) order)
    (hlog : log'.map PReg.reg = order.filterMap ((log.map PReg.reg)[·]?)) (allocOk : Nat → Bool) (w0 : W) (workers : Nat)
    (tlsFeature tlsOk plainOk : Bool) (evs : List (Happening W)) :
    (Process.start w0 workers tlsFeature tlsOk plainOk).run sv' allocOk evs =
      (Process.start w0 workers tlsFeature tlsOk plainOk).run sv allocOk evs := by
  refine C165_same ha hs hs' allocOk w0 workers tlsFeature tlsOk plainOk (fun q n bytes m hq hm => ?_) evs
  rw [hlog]
  unfold applying
  refine keeps_filter hk _ fun a _ b _ h1 h2 => ?_
  have hs := asked_segments hq
  exact ⟨Target.applies_askable hs h1, Target.applies_askable hs h2,
    ⟨_, m, hm, Target.applies_for h1, Target.applies_for h2⟩, overlaps_of_applies h1 h2⟩

theorem follow_stops {W : Type u} (res : Response) (p : Prog W (Response × Flow)) (hp : NeverOn p) (reads : List W)
    {s : Seen W} {fl : Flow} (h : p.follow res reads = .ok (s, fl)) : fl = .stop := by
  induction p generalizing reads with
  | ret a =>
    obtain ⟨res', f⟩ := a
    simp only [Prog.follow, Res.ok.injEq, Prod.mk.injEq] at h
    rw [← h.2]; exact hp
  | panic => simp [Prog.follow] at h
  | hang => simp only [Prog.follow, Res.ok.injEq, Prod.mk.injEq] at h; exact h.2.symm
  | act upd next ih =>
    cases reads with
    | nil => simp only [Prog.follow, Res.ok.injEq, Prod.mk.injEq] at h; exact h.2.symm
    | cons w reads => exact ih w (hp w) reads h

/-- tables that can stand for each other make the same of every request that can be received -/
theorem replay_tables (stops : Nat → Bool) {feat : Features} (T T' : Table) (hT : T.Good) (hT' : T'.Good)
    (h : T.InterchangeableWith stops feat T') (handlers : Nat → PClosure W) (hb : ∀ n, PByName (handlers n))
    (hst : ∀ n, stops n = true → ∀ mr res, NeverOn (handlers n mr res)) (q : Asked) (n : Nat) (bytes : Bytes)
    (req : Request) (st : Seen W) (hq : q.In feat.faithful feat.cookies bytes n) (hw : q.Was feat.cookies n req)
    (hm : (q.method, req.requestLine.method) ∈ methodTable) :
    replay feat.urlVariables req ((T'.plog handlers).map PReg.reg) st =
      replay feat.urlVariables req ((T.plog handlers).map PReg.reg) st := by
  rw [C164_iff stops feat T T' hT hT'] at h
  have e : ∀ T : Table, (T.plog handlers).map PReg.reg = T.log fun n => (handlers n).closure := by
    intro T
    simp only [Table.plog, Table.log, List.map_map]
    rfl
  rw [e, e]
  refine (replay_callsWith stops _ req _ (fun n mr mr' s h1 h2 => ?_) (fun n hn mr s s' fl hh => ?_) T T' st ?_).symm
  · show (handlers n mr s.res).follow s.res s.reads = (handlers n mr' s.res).follow s.res s.reads
    rw [hb n mr mr' s.res h1 h2]
  · exact follow_stops s.res _ (hst n hn mr s.res) s.reads hh
  · rw [hw.path]
    exact h bytes q n _ hq hm

/-- C165, tables (as C160 and C164): two tables that can stand for each other on single connections, as long as the
handlers with these names never hand on, can do so in the whole process: every execution is the same, whatever the
handlers do and however they interleave. -/
theorem C165_tables (stops : Nat → Bool) {sv sv' : PServer W} (ha : ButRouter sv sv') (T T' : Table) (hT : T.Good)
    (hT' : T'.Good) (h : T.InterchangeableWith stops sv.feat T') (handlers : Nat → PClosure W)
    (hb : ∀ n, PByName (handlers n)) (hst : ∀ n, stops n = true → ∀ mr res, NeverOn (handlers n mr res))
    (hs : SetUp sv (T.plog handlers)) (hs' : SetUp sv' (T'.plog handlers)) (allocOk : Nat → Bool) (w0 : W)
    (workers : Nat) (tlsFeature tlsOk plainOk : Bool) (evs : List (Happening W)) :
    (Process.start w0 workers tlsFeature tlsOk plainOk).run sv' allocOk evs =
      (Process.start w0 workers tlsFeature tlsOk plainOk).run sv allocOk evs := by
  exact process_replay ha hs hs' allocOk w0 workers tlsFeature tlsOk plainOk
    (replay_tables stops T T' hT hT' h handlers hb hst) evs

namespace EverywhereExample
open ParallelExample StoppersExample

/-- the handlers: all stop, that of `/user/old` counts by ten, the others by one -/
def counting (n : Nat) : PClosure Nat := fun _ _ =>
  .act (· + if n = 4 then 10 else 1) fun k => .ret (said k, .stop)

theorem counting_byName (n : Nat) : PByName (counting n) := fun _ _ _ _ _ => rfl

theorem counting_stops (n : Nat) (mr : MatchedRequest) (res : Response) : NeverOn (counting n mr res) := fun _ => rfl

/-- a server with the table -/
def having (r : Router (Seen Nat)) : PServer Nat :=
  { feat := .default, U := .asciiOnly, ord := MapOrder.id, clock := fun _ => 0, router := r }

theorem having_alike (r r' : Router (Seen Nat)) : ButRouter (having r) (having r') := ⟨rfl, rfl, rfl, rfl⟩

/-- every table that can be registered is that of some server -/
theorem having_setUp (T : Table) (hT : T.Good) : ∃ r, SetUp (having r) (T.plog counting) := by
  obtain ⟨c, h1, h2⟩ := table_program T hT.1 fun n => (counting n).closure
  have h3 : (logOfL c).length < 2 ^ 64 := by rw [h2, table_length]; exact hT.2
  obtain ⟨r, hr, -⟩ := C12_run_is_replay c h1 h3
  refine ⟨r, c, h1, h3, ?_, hr⟩
  rw [h2]
  simp only [Table.plog, Table.log, List.map_map]
  rfl

/-- `/user/old` behind `/user/:id` makes no difference to any execution -/
example : ∃ r r', SetUp (having r) (behind.plog counting) ∧ SetUp (having r') (pages.plog counting) ∧
    ∀ evs, (Process.start 0 2 false false true).run (having r') (fun _ => true) evs =
      (Process.start 0 2 false false true).run (having r) (fun _ => true) evs := by
  obtain ⟨r, hr⟩ := having_setUp behind behind_good
  obtain ⟨r', hr'⟩ := having_setUp pages pages_good
  exact ⟨r, r', hr, hr', fun evs => C165_tables (fun _ => true) (having_alike r r') behind pages behind_good pages_good
    ((C164_decides _ .default behind pages behind_good pages_good).1 (by decide +kernel)) counting counting_byName
    (fun n _ => counting_stops n) hr hr' _ _ _ _ _ _ evs⟩

/-- the same as one dead registration -/
example (r r' : Router (Seen Nat)) (hr : SetUp (having r) (behind.plog counting))
    (hr' : SetUp (having r') (pages.plog counting)) (evs : List (Happening Nat)) :
    (Process.start 0 2 false false true).run (having r') (fun _ => true) evs =
      (Process.start 0 2 false false true).run (having r) (fun _ => true) evs := by
  refine C165_left_out (having_alike r r') (pages.plog counting) [] ⟨.on .get [c!"user", c!"old"], counting 4⟩ hr
    (by rw [List.append_nil]; exact hr') (fun name m hm hf => .inr ?_) _ _ _ _ _ _ evs
  refine ⟨⟨.on .get [c!"user", c!":id"], (counting 2).closure⟩, by simp [Table.plog, pages, PReg.reg], hf, ?_,
    fun mr s s' fl h => follow_stops s.res _ (counting_stops 2 mr s.res) s.reads h⟩
  refine ⟨rfl, fun i a b h1 h2 => ?_⟩
  match i, h1, h2 with
  | 0, h1, h2 => cases h1; cases h2; exact .inr ⟨by decide, rfl⟩
  | 1, h1, h2 => cases h1; cases h2; exact .inl ⟨rfl, by decide⟩
  | (n + 2), h1, h2 => simp at h1

/-- the two pages of different names in either order -/
def two : List (PReg Nat) := [⟨.on .get [c!"a"], counting 1⟩, ⟨.on .get [c!"b"], counting 4⟩]

example (r r' : Router (Seen Nat)) (hr : SetUp (having r) two) (hr' : SetUp (having r') two.reverse)
    (evs : List (Happening Nat)) :
    (Process.start 0 2 false false true).run (having r') (fun _ => true) evs =
      (Process.start 0 2 false false true).run (having r) (fun _ => true) evs := by
  refine C165_rearranged (having_alike r r') two two.reverse hr hr' [1, 0] ⟨by decide, ?_⟩ rfl _ _ _ _ _ _ evs
  simp only [List.pairwise_cons, List.mem_cons, List.not_mem_nil, or_false]
  refine ⟨?_, by simp⟩
  rintro j rfl _ a b ha hb hm
  cases ha; cases hb
  have h := hm.2.2.2.2 0 c!"b" c!"a" rfl rfl
  rcases h with ⟨-, h⟩ | h <;> revert h <;> decide

/-- a client that asks for `/user/old`, its request, and its handling up to the first access -/
def asksOld : Sock := ⟨[utf8 c!"GET /user/old HTTP/1.0\r\nA: b\r\n\r\n"], .eof⟩
def reqOld : Request :=
  { req with requestLine := { req.requestLine with path := [c!"user", c!"old"] },
             headers := ⟨[(c!"a", c!"b")], [⟨c!"A", c!"b"⟩]⟩ }
def upToAccess : List (Happening Nat) := [.connect false asksOld, .poll 0, .access 0]

theorem turnOld : Reading.turn .default (fun _ => true) (.head []) asksOld = .request reqOld ⟨[], .eof⟩ := by
  decide +kernel

theorem counted (r : Router (Seen Nat)) (upd : Nat → Nat) (h : (having r).stage reqOld [] = .wants upd) :
    ((Process.start 0 2 false false true).run (having r) (fun _ => true) upToAccess).world = upd 0 := by
  have hf : (having r).feat = .default := rfl
  simp [upToAccess, Process.run, Process.start, Process.step, Process.listener, Process.free, Process.put, PTask.busy, hf, turnOld, h]

/-- in front of `/user/:id` the page is asked, behind it it is not: the executions differ -/
example (r r' : Router (Seen Nat)) (hr : SetUp (having r) (wrong.plog counting))
    (hr' : SetUp (having r') (behind.plog counting)) :
    ((Process.start 0 2 false false true).run (having r) (fun _ => true) upToAccess).world = 10 ∧
      ((Process.start 0 2 false false true).run (having r') (fun _ => true) upToAccess).world = 1 := by
  constructor
  · refine counted r (· + 10) ?_
    have h := stage_spec hr reqOld (by decide) []
    have e : ((requestProg (having r).feat.urlVariables (wrong.plog counting) reqOld).after []).1 =
        .act (· + 10) fun k => .ret (.sent (said k)) := rfl
    rw [e] at h
    revert h
    cases (having r).stage reqOld [] <;> simp [Stands]
  · refine counted r' (· + 1) ?_
    have h := stage_spec hr' reqOld (by decide) []
    have e : ((requestProg (having r').feat.urlVariables (behind.plog counting) reqOld).after []).1 =
        .act (· + 1) fun k => .ret (.sent (said k)) := rfl
    rw [e] at h
    revert h
    cases (having r').stage reqOld [] <;> simp [Stands]

end EverywhereExample

end Octane
