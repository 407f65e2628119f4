import Verif.Props.Everywhere
import Verif.Spec.InProcess
/-
C166: tables that can stand for each other in the whole process are those that can for single connections.
-/
namespace Octane
open Spec Query
universe u
variable {W : Type u}

theorem readRest_of_reads {feat : Features} {allocOk : Nat → Bool} {s : Sock} {req : Request}
    (h : Reads feat allocOk s req) : readRest feat allocOk s (.head []) = .ok (some req) := by
  obtain ⟨hdrs, line, rem, reader, H, rl, h1, h2, h3, h4⟩ := h
  show (readHead s).bind (headRest feat allocOk) = _
  rw [h1, Io.bind_ok]
  simp only [headRest, h2, h3, Res.bind_ok', Res.unwrap_some, h4]

/-- a request that is there is read, if a thread is free -/
theorem polls_handling (sv : PServer W) (allocOk : Nat → Bool) (i : Nat) (req : Request) (n : Nat) :
    ∀ (y : Process W) (c : PConn W) (r : Reading), y.dead = false → y.free = true → y.conns[i]? = some c →
      c.task = .reading r → r.Ok → c.sock.bytes.length = n → readRest sv.feat allocOk c.sock r = .ok (some req) →
      ∃ k s', y.run sv allocOk (List.replicate k (.poll i)) = y.put y.world i c (.handling req []) s' := by
  induction n using Nat.strongRecOn with
  | _ n ih =>
    intro y c r hd hf hc ht hok hn hreq
    have hspec := turn_spec sv.feat allocOk r c.sock hok
    cases hturn : r.turn sv.feat allocOk c.sock with
    | waits r' s' =>
      rw [hturn] at hspec
      obtain ⟨hok', heq, hlt⟩ := hspec
      have hlt : s'.bytes.length < c.sock.bytes.length := by
        rcases hlt with h | ⟨-, -, h⟩
        · exact h
        · rw [hreq] at h; cases h
      have hstep : y.step sv allocOk (.poll i) = y.put y.world i c (.reading r') s' := by
        simp [Process.step, hd, hc, ht, hf, hturn]
      have hbusy : (y.put y.world i c (.reading r') s').conns.countP (·.task.busy) = y.conns.countP (·.task.busy) := by
        have := countP_set_eq (b := { c with task := .reading r', sock := s' }) (fun x : PConn W => x.task.busy) hc
        rw [ht] at this
        simpa [Process.put, PTask.busy] using this
      obtain ⟨k, s2, h2⟩ := ih s'.bytes.length (by omega) (y.put y.world i c (.reading r') s')
        { c with task := .reading r', sock := s' } r' hd
        (by
          simp only [Process.free] at hf ⊢
          rw [hbusy]; exact hf)
        (Process.put_get hc _ _ _) rfl hok' rfl (by simp only [heq]; exact hreq)
      refine ⟨k + 1, s2, ?_⟩
      rw [List.replicate_succ, Process.run_cons, hstep, h2]
      simp [Process.put]
    | request req' s' =>
      rw [hturn] at hspec
      have e : req' = req := by
        have := hspec.symm.trans hreq
        simpa using this
      subst e
      exact ⟨1, s', by simp [Process.run, Process.step, hd, hc, ht, hf, hturn]⟩
    | bad s' => rw [hturn] at hspec; rw [show readRest sv.feat allocOk c.sock r = _ from hspec] at hreq; cases hreq
    | panicked s' => rw [hturn] at hspec; rw [show readRest sv.feat allocOk c.sock r = _ from hspec] at hreq; cases hreq
    | abort => rw [hturn] at hspec; rw [show readRest sv.feat allocOk c.sock r = _ from hspec] at hreq; cases hreq

/-- after enough turns a handling that nobody interrupts has made all its accesses -/
theorem access_all {sv : PServer W} {allocOk : Nat → Bool} {log : List (PReg W)} (hs : SetUp sv log) (i : Nat)
    (p : Prog W Reply) :
    ∀ (y : Process W) (c : PConn W) (req : Request) (reads : List W), y.dead = false → y.conns[i]? = some c →
      c.task = .handling req reads → req.requestLine.method ≠ .all →
      (requestProg sv.feat.urlVariables log req).after reads = (p, []) →
      ∃ k, ∀ n, k ≤ n → (y.run sv allocOk (List.replicate n (.access i))).world = (p.atomically y.world).1 := by
  have still : ∀ (y : Process W), y.step sv allocOk (.access i) = y →
      ∀ n, y.run sv allocOk (List.replicate n (.access i)) = y := by
    intro y h n
    induction n with
    | zero => rfl
    | succ n ih => rw [List.replicate_succ, Process.run_cons, h, ih]
  induction p with
  | act u next ih =>
    intro y c req reads hd hc ht hm ha
    have hst := stage_spec hs req hm reads
    rw [ha] at hst
    cases hstage : sv.stage req reads <;> rw [hstage] at hst <;> try exact hst.elim
    rename_i upd
    have hu : upd = u := hst
    subst hu
    have hstep : y.step sv allocOk (.access i) = y.put (upd y.world) i c (.handling req (reads ++ [y.world])) c.sock := by
      simp [Process.step, hd, hc, ht, hstage]
    obtain ⟨k, hk⟩ := ih y.world (y.step sv allocOk (.access i))
      { c with task := .handling req (reads ++ [y.world]) } req (reads ++ [y.world])
      (by rw [hstep]; exact hd) (by rw [hstep]; exact Process.put_get hc _ _ _) rfl hm
      (by rw [Prog.after_snoc ha, Prog.after_nil])
    refine ⟨k + 1, fun n hn => ?_⟩
    obtain ⟨n, rfl⟩ : ∃ n', n = n' + 1 := ⟨n - 1, by omega⟩
    rw [List.replicate_succ, Process.run_cons, hk n (by omega), hstep]
    rfl
  | _ =>
    intro y c req reads hd hc ht hm ha
    have hst := stage_spec hs req hm reads
    rw [ha] at hst
    refine ⟨0, fun n _ => ?_⟩
    rw [still y ?_ n]
    · rfl
    · cases hstage : sv.stage req reads <;> rw [hstage] at hst <;>
        first | exact hst.elim | simp [Process.step, hd, hc, ht, hstage]

/-- what noting handlers have noted when all have been called -/
theorem chain_noting (stops : Nat → Bool) (uv : Bool) (req : Request) (T : Table) (res : Response) (w : Notes) :
    (chain uv req (T.plog (pnoting stops)) res).atomically w =
      (w ++ tillStop stops (T.calls uv req.requestLine.method req.requestLine.path), .ret res) := by
  induction T generalizing w with
  | nil => simp [Table.plog, chain, Table.calls, tillStop, Prog.atomically]
  | cons e T ih =>
    simp only [Table.plog, List.map_cons, chain]
    by_cases h : e.1.applies uv req.requestLine.method req.requestLine.path = true
    · rw [if_pos h, Prog.atomically_bind]
      have hc : Table.calls uv (e :: T) req.requestLine.method req.requestLine.path =
          (e.2, fun k => (e.1.vars uv req.requestLine.path).get k) ::
            Table.calls uv T req.requestLine.method req.requestLine.path := by simp [Table.calls, h]
      rw [hc]
      simp only [pnoting, Prog.atomically, tillStop]
      cases hst : stops e.2 with
      | true => simp [Prog.atomically]
      | false =>
        simp only [Bool.false_eq_true, if_false]
        rw [show Prog.atomically (chain uv req (List.map (fun e => ⟨e.1, pnoting stops e.2⟩) T) res) _ = _ from ih _]
        simp
    · rw [if_neg h, show Prog.atomically (chain uv req (List.map (fun e => ⟨e.1, pnoting stops e.2⟩) T) res) _ = _ from ih _]
      simp [Table.calls, h]

theorem setUp_table (T : Table) (hT : T.Good) (handlers : Nat → PClosure W) (sv : PServer W) :
    ∃ r, SetUp { sv with router := r } (T.plog handlers) := by
  obtain ⟨c, h1, h2⟩ := table_program T hT.1 fun n => (handlers n).closure
  have h3 : (logOfL c).length < 2 ^ 64 := by rw [h2, table_length]; exact hT.2
  obtain ⟨r, hr, -⟩ := C12_run_is_replay c h1 h3
  refine ⟨r, c, h1, h3, ?_, hr⟩
  rw [h2]
  simp only [Table.plog, Table.log, List.map_map]
  rfl

/-- C166: two tables can stand for each other in the whole process exactly if they can on single connections. -/
theorem C166_iff (stops : Nat → Bool) (feat : Features) (T T' : Table) (hT : T.Good) (hT' : T'.Good) :
    T.InterchangeableIn stops feat T' ↔ T.InterchangeableWith stops feat T' := by
  constructor
  · intro h
    rw [interchangeableWith_iff stops feat T T' hT hT']
    intro name m hm path hp
    let sv0 : PServer Notes :=
      { feat := feat, U := .asciiOnly, ord := MapOrder.id, clock := fun _ => 0, router := Router.new }
    obtain ⟨r, hr⟩ := setUp_table T hT (pnoting stops) sv0
    obtain ⟨r', hr'⟩ := setUp_table T' hT' (pnoting stops) sv0
    have hrun := h Notes { sv0 with router := r } { sv0 with router := r' } rfl ⟨rfl, rfl, rfl, rfl⟩ (pnoting stops)
      (fun n mr mr' res _ hv => by
        simp only [pnoting]
        rw [show (fun k => mr.vars.get k) = fun k => mr'.vars.get k from funext hv])
      (fun n hn mr res w => by simp [NeverOn, hn]) hr hr' (fun _ => true) [] 1 false false true
    obtain ⟨km, k1, k2⟩ := known_method hm
    have hasked := asked_bytesTo feat.faithful feat.cookies name path ⟨k1, k2⟩ hp
    let s : Sock := ⟨[bytesTo name ([] :: path)], .eof⟩
    obtain ⟨req, hread, hrl, hget⟩ := reads_asked_zero feat (fun _ => true) s _ (by simpa [s, Sock.bytes] using hasked)
    have hmeth : req.requestLine.method = m := by rw [hrl]; exact km
    have hpath : req.requestLine.path = path := by
      rw [hrl]
      refine resolve_names _ fun x hx => ?_
      obtain ⟨h1, h2, h3, -⟩ := hp x hx
      simp [isName, h1, h2, h3]
    have hhost : req.headers.get c!"host" = some c!"b" := by
      rw [hget]
      exact (show joined [(c!"Host", c!"b")] c!"host" = some c!"b" by decide +kernel)
    have hall : req.requestLine.method ≠ .all := by rw [hmeth]; exact (known_not_all hm).1
    -- the request is read
    let y0 : Process Notes := ⟨[], 1, .listening, .off, [⟨false, .reading (.head []), s⟩], false⟩
    obtain ⟨k, s', hk⟩ := polls_handling { sv0 with router := r } (fun _ => true) 0 req _ y0
      ⟨false, .reading (.head []), s⟩ (.head []) rfl rfl rfl rfl trivial rfl (readRest_of_reads hread)
    have hconn : (Process.start ([] : Notes) 1 false false true).step { sv0 with router := r } (fun _ => true)
        (.connect false s) = y0 := rfl
    let pre : List (Happening Notes) := .connect false s :: List.replicate k (.poll 0)
    let y1 : Process Notes := ⟨[], 1, .listening, .off, [⟨false, .handling req [], s'⟩], false⟩
    have hpre : (Process.start ([] : Notes) 1 false false true).run { sv0 with router := r } (fun _ => true) pre = y1 := by
      show Process.run _ _ _ (_ :: _) = _
      rw [Process.run_cons, hconn, hk]
      rfl
    have hpre' : (Process.start ([] : Notes) 1 false false true).run { sv0 with router := r' } (fun _ => true) pre = y1 := by
      rw [hrun pre, hpre]
    -- what is noted
    have hnoted : ∀ (T : Table), ((requestProg feat.urlVariables (T.plog (pnoting stops)) req).atomically []).1 =
        tillStop stops (T.calls feat.urlVariables m path) := by
      intro T
      obtain ⟨v, v1, v2⟩ := validate_spec req
      rw [if_neg (by rw [hhost]; simp)] at v2
      have hsome : req.requestLine.method.isSome = true := by
        have := (known_not_all hm).2
        rw [← hmeth] at this
        revert this
        cases req.requestLine.method <;> simp [RequestMethod.isSome]
      unfold requestProg
      simp only [v1, v2, hsome, if_true]
      rw [Prog.atomically_bind, chain_noting, hmeth, hpath]
      simp [Prog.atomically]
    obtain ⟨a, ha⟩ := access_all (allocOk := fun _ => true) hr 0 _ y1 ⟨false, .handling req [], s'⟩ req [] rfl rfl rfl hall
      (Prog.after_nil _)
    obtain ⟨b, hb⟩ := access_all (allocOk := fun _ => true) hr' 0 _ y1 ⟨false, .handling req [], s'⟩ req [] rfl rfl rfl hall
      (Prog.after_nil _)
    have h1 := ha (a + b) (by omega)
    have h2 := hb (a + b) (by omega)
    have h3 := hrun (pre ++ List.replicate (a + b) (.access 0))
    rw [Process.run_append, Process.run_append, hpre, hpre'] at h3
    rw [h3, h1] at h2
    exact ((hnoted T).symm.trans h2).trans (hnoted T')
  · intro h W sv sv' hf ha handlers hb hst hs hs' allocOk w0 workers tlsFeature tlsOk plainOk evs
    subst hf
    exact C165_tables stops ha T T' hT hT' h handlers hb hst hs hs' allocOk w0 workers tlsFeature tlsOk plainOk evs

/-- C166: and the procedure of C164 finds it out. -/
theorem C166_decides (stops : Nat → Bool) (feat : Features) (T T' : Table) (hT : T.Good) (hT' : T'.Good) :
    T.sameWith stops feat.urlVariables T' = true ↔ T.InterchangeableIn stops feat T' := by
  rw [C166_iff stops feat T T' hT hT', C164_decides stops feat T T' hT hT']

namespace InProcessExample
open StoppersExample

/-- `/user/old` behind `/user/:id` does not matter to the process if the handlers stop -/
example : behind.InterchangeableIn (fun _ => true) .default pages :=
  (C166_decides _ .default behind pages behind_good pages_good).1 (by decide +kernel)
/-- but it does if that of `/user/:id` may hand on -/
example : ¬ behind.InterchangeableIn (· == 1) .default pages := fun h =>
  absurd ((C166_decides _ .default behind pages behind_good pages_good).2 h) (by decide +kernel)
/-- and in front of it -/
example : ¬ wrong.InterchangeableIn (fun _ => true) .default pages := fun h =>
  absurd ((C166_iff _ .default wrong pages wrong_good pages_good).1 h) fun h =>
    absurd ((C164_decides _ .default wrong pages wrong_good pages_good).2 h) (by decide +kernel)

end InProcessExample

end Octane
