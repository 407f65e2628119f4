import Verif.Spec.Parallel
import Verif.Proof.RouterTrace
/-
Lemmas on requests handled at the same time.
-/
namespace Octane
open Spec
universe u v
variable {W : Type u} {α : Type v}

/-- what is left of a program, and of the reads, when it has gone as far as the reads allow -/
def Prog.after : Prog W α → List W → Prog W α × List W
  | .act _ next, w :: ws => (next w).after ws
  | p, ws => (p, ws)

theorem Prog.after_act {p : Prog W α} {ws ws' : List W} {upd : W → W} {next : W → Prog W α}
    (h : p.after ws = (.act upd next, ws')) : ws' = [] := by
  induction p generalizing ws with
  | act u n ih =>
    cases ws with
    | nil => simp only [Prog.after, Prod.mk.injEq] at h; exact h.2.symm
    | cons w ws => exact ih w h
  | ret a => simp [Prog.after] at h
  | panic => simp [Prog.after] at h
  | hang => simp [Prog.after] at h

theorem Prog.after_snoc {p : Prog W α} {ws ws' : List W} {upd : W → W} {next : W → Prog W α}
    (h : p.after ws = (.act upd next, ws')) (w : W) : p.after (ws ++ [w]) = (next w).after [] := by
  induction p generalizing ws with
  | act u n ih =>
    cases ws with
    | nil =>
      simp only [Prog.after, Prod.mk.injEq, Prog.act.injEq] at h
      obtain ⟨⟨rfl, rfl⟩, -⟩ := h
      rfl
    | cons x ws => exact ih x h
  | ret a => simp [Prog.after] at h
  | panic => simp [Prog.after] at h
  | hang => simp [Prog.after] at h

@[simp] theorem Prog.after_nil (p : Prog W α) : p.after [] = (p, []) := by cases p <;> rfl

theorem Prog.after_bind {β : Type v} (p : Prog W α) (k : α → Prog W β) (ws : List W) :
    (p.bind k).after ws = match p.after ws with
      | (.ret a, ws') => (k a).after ws'
      | (.panic, ws') => (.panic, ws')
      | (.hang, ws') => (.hang, ws')
      | (.act upd next, ws') => (.act upd fun x => (next x).bind k, ws') := by
  induction p generalizing ws with
  | act u n ih =>
    cases ws with
    | nil => rfl
    | cons w ws => exact ih w ws
  | ret a => simp [Prog.after, Prog.bind]
  | panic => simp [Prog.after, Prog.bind]
  | hang => simp [Prog.after, Prog.bind]

theorem Prog.follow_after (res : Response) (p : Prog W (Response × Flow)) (ws : List W) :
    p.follow res ws = match p.after ws with
      | (.ret (r, f), ws') => .ok (⟨r, ws', none⟩, f)
      | (.panic, _) => .panic
      | (.hang, ws') => .ok (⟨res, ws', some .hang⟩, .stop)
      | (.act upd _, _) => .ok (⟨res, [], some (.access upd)⟩, .stop) := by
  induction p generalizing ws with
  | act u n ih =>
    cases ws with
    | nil => rfl
    | cons w ws => exact ih w ws
  | ret a => simp [Prog.after, Prog.follow]
  | panic => simp [Prog.after, Prog.follow]
  | hang => simp [Prog.after, Prog.follow]

/-- the state of the router's run and the state of the request's chain -/
def ChainAt (x : Res (Seen W)) (p : Prog W Response × List W) : Prop :=
  match p with
  | (.ret r, ws') => x = .ok ⟨r, ws', none⟩
  | (.panic, _) => x = .panic
  | (.hang, _) => ∃ r ws, x = .ok ⟨r, ws, some .hang⟩
  | (.act upd _, _) => ∃ r, x = .ok ⟨r, [], some (.access upd)⟩

theorem replay_chain (uv : Bool) (req : Request) (log : List (PReg W)) (res : Response) (ws : List W) :
    ChainAt (replay uv req (log.map PReg.reg) ⟨res, ws, none⟩) ((chain uv req log res).after ws) := by
  induction log generalizing res ws with
  | nil => simp [replay, chain, Prog.after, ChainAt]
  | cons e log ih =>
    simp only [List.map_cons, replay, chain]
    by_cases ha : e.target.applies uv req.requestLine.method req.requestLine.path = true
    · have ha' : e.reg.target.applies uv req.requestLine.method req.requestLine.path = true := ha
      rw [if_pos ha, if_pos ha', Prog.after_bind]
      have hfol : e.reg.handler ⟨req, e.reg.target.vars uv req.requestLine.path⟩ ⟨res, ws, none⟩ =
          (e.handler ⟨req, e.target.vars uv req.requestLine.path⟩ res).follow res ws := rfl
      rw [hfol, Prog.follow_after]
      cases hp : (e.handler ⟨req, e.target.vars uv req.requestLine.path⟩ res).after ws with
      | mk p ws' =>
        cases p with
        | ret a =>
          obtain ⟨r, f⟩ := a
          cases f with
          | stop => simp [ChainAt, Prog.after]
          | next => exact ih r ws'
        | panic => simp [ChainAt]
        | hang => simp only [ChainAt]; exact ⟨_, _, rfl⟩
        | act upd next => simp only [ChainAt]; exact ⟨_, rfl⟩
    · have ha' : ¬ e.reg.target.applies uv req.requestLine.method req.requestLine.path = true := ha
      rw [if_neg ha, if_neg ha']
      exact ih res ws

theorem Spec.SetUp.run {sv : PServer W} {log : List (PReg W)} (h : SetUp sv log) (req : Request)
    (hm : req.requestLine.method ≠ .all) (uv : Bool) (s : Seen W) :
    Router.run uv sv.router req s = replay uv req (log.map PReg.reg) s := by
  obtain ⟨calls, h1, h2, h3, h4⟩ := h
  obtain ⟨r, e1, e2⟩ := Router.run_is_replay calls h1 h2
  rw [h4] at e1
  injection e1 with e1
  rw [e1, e2 uv req s hm, h3]

/-- the model stands where the program of the request stands -/
theorem stage_spec {sv : PServer W} {log : List (PReg W)} (h : SetUp sv log) (req : Request)
    (hm : req.requestLine.method ≠ .all) (ws : List W) :
    Stands (sv.stage req ws) ((requestProg sv.feat.urlVariables log req).after ws).1 := by
  unfold PServer.stage requestProg
  cases hv : Http.validate req with
  | panic => simp [Prog.after, Stands]
  | ok c =>
    obtain ⟨code, ka⟩ := c
    simp only [Http.isMalformed]
    cases code with
    | some code => simp [Prog.after, Stands]
    | none =>
      simp only [Option.isSome_none, Bool.false_eq_true, if_false]
      by_cases hs : req.requestLine.method.isSome = true
      · rw [if_pos hs, if_pos hs, h.run req hm, Prog.after_bind]
        have := replay_chain sv.feat.urlVariables req log Response.newEmpty ws
        revert this
        generalize replay sv.feat.urlVariables req (log.map PReg.reg) ⟨Response.newEmpty, ws, none⟩ = x
        generalize (chain sv.feat.urlVariables req log Response.newEmpty).after ws = p
        obtain ⟨p, ws'⟩ := p
        intro this
        cases p with
        | ret r =>
          simp only [ChainAt] at this
          subst this
          simp only [Prog.after]
          cases r.hasBody <;> simp [Stands]
        | panic => simp only [ChainAt] at this; subst this; simp [Stands]
        | hang => obtain ⟨_, _, rfl⟩ := this; simp [Stands]
        | act upd next => obtain ⟨_, rfl⟩ := this; simp [Stands]
      · rw [if_neg hs, if_neg hs]; simp [Prog.after, Stands]

/-- the relation between a request in the model and in the specification, with what makes it inductive -/
def JobRel (sv : PServer W) (log : List (PReg W)) : Job W → SJob W → Prop
  | .ready req, .ready req' => req = req' ∧ req.requestLine.method ≠ .all
  | .running req reads, .running p => req.requestLine.method ≠ .all ∧
      (requestProg sv.feat.urlVariables log req).after reads = (p, [])
  | .done r bytes, .done r' bytes' => r = r' ∧ bytes = bytes'
  | .dead, .dead => True
  | _, _ => False

theorem JobRel.same {sv : PServer W} {log : List (PReg W)} (h : SetUp sv log) {j : Job W} {k : SJob W}
    (hr : JobRel sv log j k) : SameJob sv j k := by
  cases j <;> cases k <;> try exact hr.elim
  · exact hr.1
  · rename_i req reads p
    obtain ⟨h1, h2⟩ := hr
    have := stage_spec h req h1 reads
    rw [h2] at this
    exact this
  · exact hr
  · trivial

theorem JobRel.busy {sv : PServer W} {log : List (PReg W)} {j : Job W} {k : SJob W}
    (hr : JobRel sv log j k) : j.busy = k.busy := by
  cases j <;> cases k <;> first | exact hr.elim | rfl

/-- the lists of requests correspond -/
def JobsRel (sv : PServer W) (log : List (PReg W)) : List (Job W) → List (SJob W) → Prop
  | [], [] => True
  | j :: js, k :: ks => JobRel sv log j k ∧ JobsRel sv log js ks
  | _, _ => False

namespace JobsRel
variable {sv : PServer W} {log : List (PReg W)} {js : List (Job W)} {ks : List (SJob W)}

theorem length (h : JobsRel sv log js ks) : js.length = ks.length := by
  induction js generalizing ks with
  | nil => cases ks with | nil => rfl | cons => exact h.elim
  | cons j js ih => cases ks with | nil => exact h.elim | cons k ks => simp [ih h.2]

theorem get (h : JobsRel sv log js ks) (i : Nat) :
    (js[i]? = none ∧ ks[i]? = none) ∨ ∃ j k, js[i]? = some j ∧ ks[i]? = some k ∧ JobRel sv log j k := by
  induction js generalizing ks i with
  | nil => cases ks with | nil => exact .inl ⟨rfl, rfl⟩ | cons => exact h.elim
  | cons j js ih =>
    cases ks with
    | nil => exact h.elim
    | cons k ks =>
      cases i with
      | zero => exact .inr ⟨j, k, rfl, rfl, h.1⟩
      | succ i => simpa using ih h.2 i

theorem set (h : JobsRel sv log js ks) (i : Nat) {j : Job W} {k : SJob W} (hr : JobRel sv log j k) :
    JobsRel sv log (js.set i j) (ks.set i k) := by
  induction js generalizing ks i with
  | nil => cases ks with | nil => trivial | cons => exact h.elim
  | cons a js ih =>
    cases ks with
    | nil => exact h.elim
    | cons b ks =>
      cases i with
      | zero => exact ⟨hr, h.2⟩
      | succ i => exact ⟨h.1, ih h.2 i⟩

theorem snoc (h : JobsRel sv log js ks) {j : Job W} {k : SJob W} (hr : JobRel sv log j k) :
    JobsRel sv log (js ++ [j]) (ks ++ [k]) := by
  induction js generalizing ks with
  | nil => cases ks with | nil => exact ⟨hr, trivial⟩ | cons => exact h.elim
  | cons a js ih =>
    cases ks with
    | nil => exact h.elim
    | cons b ks => exact ⟨h.1, ih h.2⟩

theorem busy (h : JobsRel sv log js ks) : js.countP Job.busy = ks.countP SJob.busy := by
  induction js generalizing ks with
  | nil => cases ks with | nil => rfl | cons => exact h.elim
  | cons a js ih =>
    cases ks with
    | nil => exact h.elim
    | cons b ks => simp [List.countP_cons, ih h.2, h.1.busy]

end JobsRel

/-- the model and the specification are in corresponding states -/
def SysRel (sv : PServer W) (log : List (PReg W)) (y : PSys W) (z : SSys W) : Prop :=
  y.world = z.world ∧ y.workers = z.workers ∧ JobsRel sv log y.jobs z.jobs

theorem SysRel.step {sv : PServer W} {log : List (PReg W)} (h : SetUp sv log) {y : PSys W} {z : SSys W}
    (hr : SysRel sv log y z) (e : PEvent W) (he : ∀ req, e = .arrive req → req.requestLine.method ≠ .all) :
    SysRel sv log (y.step sv e) (z.step (requestProg sv.feat.urlVariables log) sv.write e) := by
  obtain ⟨yw, yn, yj⟩ := y
  obtain ⟨zw, zn, zj⟩ := z
  obtain ⟨h1, h2, h3⟩ := hr
  simp only at h1 h2 h3
  subst h1 h2
  cases e with
  | arrive req => exact ⟨rfl, rfl, h3.snoc ⟨rfl, he req rfl⟩⟩
  | env f => exact ⟨rfl, rfl, h3⟩
  | start i =>
    simp only [PSys.step, SSys.step]
    rcases h3.get i with ⟨e1, e2⟩ | ⟨j, k, e1, e2, hjk⟩
    · rw [e1, e2]; exact ⟨rfl, rfl, h3⟩
    · rw [e1, e2]
      cases j <;> cases k <;> try exact hjk.elim
      case ready.ready req req' =>
        obtain ⟨rfl, hm⟩ := hjk
        simp only [← h3.busy]
        by_cases hb : yj.countP Job.busy < yn
        · simp only [hb, if_true]
          exact ⟨rfl, rfl, h3.set i ⟨hm, Prog.after_nil _⟩⟩
        · simp only [hb, if_false]
          exact ⟨rfl, rfl, h3⟩
      all_goals exact ⟨rfl, rfl, h3⟩
  | access i =>
    simp only [PSys.step, SSys.step]
    rcases h3.get i with ⟨e1, e2⟩ | ⟨j, k, e1, e2, hjk⟩
    · rw [e1, e2]; exact ⟨rfl, rfl, h3⟩
    · rw [e1, e2]
      cases j <;> cases k <;> try exact hjk.elim
      case running.running req reads p =>
        obtain ⟨hm, ha⟩ := hjk
        have hs := stage_spec h req hm reads
        rw [ha] at hs
        simp only
        cases hst : sv.stage req reads <;> rw [hst] at hs <;> cases p <;> try exact hs.elim
        case wants.act upd upd' next =>
          obtain rfl : upd = upd' := hs
          refine ⟨rfl, rfl, h3.set i ⟨hm, ?_⟩⟩
          rw [Prog.after_snoc ha, Prog.after_nil]
        all_goals exact ⟨rfl, rfl, h3⟩
      all_goals exact ⟨rfl, rfl, h3⟩
  | finish i =>
    simp only [PSys.step, SSys.step]
    rcases h3.get i with ⟨e1, e2⟩ | ⟨j, k, e1, e2, hjk⟩
    · rw [e1, e2]; exact ⟨rfl, rfl, h3⟩
    · rw [e1, e2]
      cases j <;> cases k <;> try exact hjk.elim
      case running.running req reads p =>
        obtain ⟨hm, ha⟩ := hjk
        have hs := stage_spec h req hm reads
        rw [ha] at hs
        simp only
        cases hst : sv.stage req reads <;> rw [hst] at hs <;> cases p <;> try exact hs.elim
        case replies.ret r r' =>
          obtain rfl : r = r' := hs
          simp only
          cases hw : sv.write yw r with
          | ok bytes => exact ⟨rfl, rfl, h3.set i ⟨rfl, rfl⟩⟩
          | panic => exact ⟨rfl, rfl, h3.set i trivial⟩
        case panicked.panic => exact ⟨rfl, rfl, h3.set i trivial⟩
        all_goals exact ⟨rfl, rfl, h3⟩
      all_goals exact ⟨rfl, rfl, h3⟩

theorem SysRel.run {sv : PServer W} {log : List (PReg W)} (h : SetUp sv log) (evs : List (PEvent W))
    {y : PSys W} {z : SSys W} (hr : SysRel sv log y z)
    (he : ∀ req, .arrive req ∈ evs → req.requestLine.method ≠ .all) :
    SysRel sv log (y.run sv evs) (z.run (requestProg sv.feat.urlVariables log) sv.write evs) := by
  induction evs generalizing y z with
  | nil => exact hr
  | cons e evs ih =>
    exact ih (hr.step h e fun req hreq => he req (by simp [hreq])) fun req hreq => he req (by simp [hreq])

/-! ### one access for each request -/

theorem serially_append (w : W) (a b : List (Item W)) :
    serially w (a ++ b) = ((serially (serially w a).1 b).1, (serially w a).2 ++ (serially (serially w a).1 b).2) := by
  induction a generalizing w with
  | nil => rfl
  | cons x a ih =>
    cases x with
    | env f => exact ih (f w)
    | job i p => simp only [List.cons_append, serially, ih]

/-- the ended program of a request, as the specification sees it -/
def Ended : Prog W Reply → Ending Reply → Prop
  | .ret r, o => o = .ret r
  | .panic, o => o = .panic
  | .hang, o => o = .hang
  | .act _ _, _ => False

theorem Ended.atomically {p : Prog W Reply} {o : Ending Reply} (h : Ended p o) (w : W) :
    p.atomically w = (w, o) := by
  cases p <;> first | exact h.elim | (cases h; rfl)

theorem AtMostOne.next {upd : W → W} {next : W → Prog W Reply} (h : (Prog.act upd next).AtMostOne) (w : W) :
    ∃ o, Ended (next w) o := by
  have := h w
  cases hn : next w with
  | ret r => exact ⟨.ret r, rfl⟩
  | panic => exact ⟨.panic, rfl⟩
  | hang => exact ⟨.hang, rfl⟩
  | act u n => exact absurd hn (this u n)

/-- where a request stands in relation to the requests that have been served as a whole -/
def OneAt (prog : Request → Prog W Reply) (write : W → Reply → Res Bytes) (arr : List Request) (js : List Nat)
    (os : List (Nat × Ending Reply)) (i : Nat) : SJob W → Prop
  | .ready req => arr[i]? = some req ∧ i ∉ js
  | .running p => (∃ req, arr[i]? = some req ∧ p = prog req ∧ i ∉ js) ∨ ∃ o, Ended p o ∧ (i, o) ∈ os
  | .done r _ => (i, .ret r) ∈ os
  | .dead => (i, .panic) ∈ os ∨ ∃ r w, (i, .ret r) ∈ os ∧ write w r = .panic

structure OneInv (prog : Request → Prog W Reply) (write : W → Reply → Res Bytes) (w0 : W) (arr : List Request)
    (items : List (Item W)) (z : SSys W) : Prop where
  world : z.world = (serially w0 items).1
  nodup : (items.filterMap Item.job?).Nodup
  progs : ∀ i p, .job i p ∈ items → ∃ req, arr[i]? = some req ∧ p = prog req
  len : z.jobs.length = arr.length
  jobs : ∀ i j, z.jobs[i]? = some j → OneAt prog write arr (items.filterMap Item.job?) (serially w0 items).2 i j

theorem OneAt.mono {prog : Request → Prog W Reply} {write : W → Reply → Res Bytes} {arr arr' : List Request}
    {js js' : List Nat} {os os' : List (Nat × Ending Reply)} {i : Nat} {j : SJob W}
    (h : OneAt prog write arr js os i j) (ha : ∀ r, arr[i]? = some r → arr'[i]? = some r)
    (hj : i ∉ js → i ∉ js') (ho : ∀ x ∈ os, x ∈ os') : OneAt prog write arr' js' os' i j := by
  cases j with
  | ready req => exact ⟨ha _ h.1, hj h.2⟩
  | running p =>
    rcases h with ⟨req, h1, h2, h3⟩ | ⟨o, h1, h2⟩
    · exact .inl ⟨req, ha _ h1, h2, hj h3⟩
    · exact .inr ⟨o, h1, ho _ h2⟩
  | done r b => exact ho _ h
  | dead =>
    rcases h with h | ⟨r, w, h1, h2⟩
    · exact .inl (ho _ h)
    · exact .inr ⟨r, w, ho _ h1, h2⟩

theorem OneInv.set {prog : Request → Prog W Reply} {write : W → Reply → Res Bytes} {w0 : W} {arr : List Request}
    {items : List (Item W)} {z : SSys W} (h : OneInv prog write w0 arr items z) (i : Nat) (j : SJob W)
    (hj : OneAt prog write arr (items.filterMap Item.job?) (serially w0 items).2 i j) :
    OneInv prog write w0 arr items { z with jobs := z.jobs.set i j } := by
  refine ⟨h.world, h.nodup, h.progs, by simpa using h.len, ?_⟩
  intro k x hk
  simp only [List.getElem?_set] at hk
  split at hk
  · rename_i hik
    subst hik
    split at hk
    · simp only [Option.some.injEq] at hk; subst hk; exact hj
    · simp at hk
  · exact h.jobs k x hk

/-- request `i` is served as a whole -/
theorem OneInv.served {prog : Request → Prog W Reply} {write : W → Reply → Res Bytes} {w0 : W} {arr : List Request}
    {items : List (Item W)} {z : SSys W} (h : OneInv prog write w0 arr items z) (i : Nat) (req : Request)
    (hr : arr[i]? = some req) (hi : i ∉ items.filterMap Item.job?) (j : SJob W)
    (hj : ∀ os, (i, ((prog req).atomically z.world).2) ∈ os →
      OneAt prog write arr (items.filterMap Item.job? ++ [i]) os i j) :
    OneInv prog write w0 arr (items ++ [.job i (prog req)])
      { z with world := ((prog req).atomically z.world).1, jobs := z.jobs.set i j } := by
  have hser : serially w0 (items ++ [.job i (prog req)]) =
      (((prog req).atomically z.world).1, (serially w0 items).2 ++ [(i, ((prog req).atomically z.world).2)]) := by
    rw [serially_append, ← h.world]; rfl
  have hfm : (items ++ [Item.job i (prog req)]).filterMap Item.job? = items.filterMap Item.job? ++ [i] := by
    simp [List.filterMap_append, Item.job?]
  refine ⟨by rw [hser], ?_, ?_, by simpa using h.len, ?_⟩
  · rw [hfm, List.nodup_append]
    refine ⟨h.nodup, by simp, ?_⟩
    intro a ha b hb
    simp only [List.mem_singleton] at hb
    subst hb
    rintro rfl
    exact hi ha
  · intro k p hk
    rcases List.mem_append.1 hk with hk | hk
    · exact h.progs k p hk
    · simp only [List.mem_singleton, Item.job.injEq] at hk
      obtain ⟨rfl, rfl⟩ := hk
      exact ⟨req, hr, rfl⟩
  · intro k x hk
    rw [hfm, hser]
    simp only [List.getElem?_set] at hk
    split at hk
    · rename_i hik
      subst hik
      split at hk
      · simp only [Option.some.injEq] at hk; subst hk; exact hj _ (by simp)
      · simp at hk
    · rename_i hik
      refine (h.jobs k x hk).mono (fun _ hr => hr) ?_ (fun x hx => by simp [hx])
      intro hk'
      simp only [List.mem_append, List.mem_singleton, not_or]
      exact ⟨hk', fun e => hik e.symm⟩

theorem OneInv.step {prog : Request → Prog W Reply} {write : W → Reply → Res Bytes} {w0 : W} {arr : List Request}
    {items : List (Item W)} {z : SSys W} (h : OneInv prog write w0 arr items z)
    (hone : ∀ req ∈ arr, (prog req).AtMostOne) (e : PEvent W) :
    ∃ more : List (Item W), OneInv prog write w0 (arr ++ e.arrive?.toList) (items ++ more)
        (z.step prog write e) ∧ more.filterMap Item.env? = e.env?.toList := by
  have same : e.arrive? = none → e.env? = none → z.step prog write e = z →
      ∃ more : List (Item W), OneInv prog write w0 (arr ++ e.arrive?.toList) (items ++ more)
        (z.step prog write e) ∧ more.filterMap Item.env? = e.env?.toList := by
    intro h1 h2 h3
    exact ⟨[], by simpa [h1, h3] using h, by simp [h2]⟩
  cases e with
  | arrive req =>
    refine ⟨[], ?_, rfl⟩
    rw [List.append_nil]
    refine ⟨h.world, h.nodup, ?_, ?_, ?_⟩
    · intro i p hp
      obtain ⟨r, h1, h2⟩ := h.progs i p hp
      refine ⟨r, ?_, h2⟩
      rw [List.getElem?_append_left (List.getElem?_eq_some_iff.1 h1).1]; exact h1
    · simp [SSys.step, PEvent.arrive?, h.len]
    · intro i j hj
      simp only [SSys.step] at hj
      by_cases hi : i < z.jobs.length
      · rw [List.getElem?_append_left hi] at hj
        refine (h.jobs i j hj).mono (fun r hr => ?_) id (fun _ hx => hx)
        rw [List.getElem?_append_left (List.getElem?_eq_some_iff.1 hr).1]; exact hr
      · rw [List.getElem?_append_right (by omega)] at hj
        obtain ⟨h0, hj⟩ := List.getElem?_eq_some_iff.1 hj
        simp only [List.length_singleton] at h0
        have hi' : i = arr.length := by have := h.len; omega
        simp only [List.getElem_singleton] at hj
        subst hj
        refine ⟨by simp [hi', PEvent.arrive?], ?_⟩
        intro hmem
        obtain ⟨x, hx1, hx2⟩ := List.mem_filterMap.1 hmem
        cases x with
        | env f => simp [Item.job?] at hx2
        | job k p =>
          simp only [Item.job?, Option.some.injEq] at hx2
          subst hx2
          obtain ⟨r, h1, -⟩ := h.progs k p hx1
          have := (List.getElem?_eq_some_iff.1 h1).1
          omega
  | env f =>
    refine ⟨[.env f], ?_, rfl⟩
    have hser : serially w0 (items ++ [.env f]) = (f z.world, (serially w0 items).2) := by
      rw [serially_append, ← h.world]; simp [serially]
    have hfm : (items ++ [Item.env f]).filterMap Item.job? = items.filterMap Item.job? := by
      simp [List.filterMap_append, Item.job?]
    refine ⟨by rw [hser]; rfl, by rw [hfm]; exact h.nodup, ?_, by simpa [PEvent.arrive?, SSys.step] using h.len, ?_⟩
    · intro i p hp
      rcases List.mem_append.1 hp with hp | hp
      · simpa [PEvent.arrive?] using h.progs i p hp
      · simp at hp
    · intro i j hj
      rw [hfm, hser]
      simpa [PEvent.arrive?] using h.jobs i j hj
  | start i =>
    cases hi : z.jobs[i]? with
    | none => exact same rfl rfl (by simp [SSys.step, hi])
    | some j =>
      cases j with
      | ready req =>
        by_cases hb : z.jobs.countP SJob.busy < z.workers
        · have hk := h.jobs i _ hi
          refine ⟨[], ?_, rfl⟩
          simp only [SSys.step, hi, hb, if_true, PEvent.arrive?, Option.toList, List.append_nil]
          exact h.set i _ (.inl ⟨req, hk.1, rfl, hk.2⟩)
        · exact same rfl rfl (by simp [SSys.step, hi, hb])
      | running p => exact same rfl rfl (by simp [SSys.step, hi])
      | done r b => exact same rfl rfl (by simp [SSys.step, hi])
      | dead => exact same rfl rfl (by simp [SSys.step, hi])
  | access i =>
    cases hi : z.jobs[i]? with
    | none => exact same rfl rfl (by simp [SSys.step, hi])
    | some j =>
      cases j with
      | ready req => exact same rfl rfl (by simp [SSys.step, hi])
      | done r b => exact same rfl rfl (by simp [SSys.step, hi])
      | dead => exact same rfl rfl (by simp [SSys.step, hi])
      | running p =>
        cases p with
        | ret r => exact same rfl rfl (by simp [SSys.step, hi])
        | panic => exact same rfl rfl (by simp [SSys.step, hi])
        | hang => exact same rfl rfl (by simp [SSys.step, hi])
        | act upd next =>
          rcases h.jobs i _ hi with ⟨req, h1, h2, h3⟩ | ⟨o, h1, -⟩
          · have hreq : req ∈ arr := List.mem_of_getElem? h1
            have ho := hone req hreq
            rw [← h2] at ho
            obtain ⟨o, hE⟩ := AtMostOne.next ho z.world
            have hat : (prog req).atomically z.world = (upd z.world, o) := by
              rw [← h2]; exact hE.atomically _
            refine ⟨[.job i (prog req)], ?_, rfl⟩
            simp only [SSys.step, hi, PEvent.arrive?, Option.toList, List.append_nil]
            have := h.served i req h1 h3 (.running (next z.world)) (fun os hos => .inr ⟨o, hE, by rw [hat] at hos; exact hos⟩)
            rw [hat] at this
            exact this
          · -- an ended program makes no access
            exfalso
            exact h1
  | finish i =>
    cases hi : z.jobs[i]? with
    | none => exact same rfl rfl (by simp [SSys.step, hi])
    | some j =>
      cases j with
      | ready req => exact same rfl rfl (by simp [SSys.step, hi])
      | done r b => exact same rfl rfl (by simp [SSys.step, hi])
      | dead => exact same rfl rfl (by simp [SSys.step, hi])
      | running p =>
        cases p with
        | hang => exact same rfl rfl (by simp [SSys.step, hi])
        | act upd next => exact same rfl rfl (by simp [SSys.step, hi])
        | panic =>
          rcases h.jobs i _ hi with ⟨req, h1, h2, h3⟩ | ⟨o, h1, h2⟩
          · refine ⟨[.job i (prog req)], ?_, rfl⟩
            simp only [SSys.step, hi, PEvent.arrive?, Option.toList, List.append_nil]
            have hat : (prog req).atomically z.world = (z.world, .panic) := by rw [← h2]; rfl
            have := h.served i req h1 h3 .dead (fun os hos => .inl (by rw [hat] at hos; exact hos))
            rw [hat] at this
            exact this
          · refine ⟨[], ?_, rfl⟩
            simp only [SSys.step, hi, PEvent.arrive?, Option.toList, List.append_nil]
            have : o = .panic := h1
            subst this
            exact h.set i _ (.inl h2)
        | ret r =>
          have key : ∀ j : SJob W, (∀ os, (i, Ending.ret r) ∈ os →
              ∀ js, OneAt prog write arr js os i j) →
              ∃ more : List (Item W), OneInv prog write w0 arr (items ++ more) { z with jobs := z.jobs.set i j } ∧
                more.filterMap Item.env? = [] := by
            intro j hj
            rcases h.jobs i _ hi with ⟨req, h1, h2, h3⟩ | ⟨o, h1, h2⟩
            · refine ⟨[.job i (prog req)], ?_, rfl⟩
              have hat : (prog req).atomically z.world = (z.world, .ret r) := by rw [← h2]; rfl
              have := h.served i req h1 h3 j (fun os hos => hj os (by rw [hat] at hos; exact hos) _)
              rw [hat] at this
              exact this
            · refine ⟨[], ?_, rfl⟩
              have : o = .ret r := h1
              subst this
              rw [List.append_nil]
              exact h.set i _ (hj _ h2 _)
          cases hw : write z.world r with
          | ok bytes =>
            obtain ⟨more, m1, m2⟩ := key (.done r bytes) (fun os hos js => hos)
            exact ⟨more, by simpa [SSys.step, hi, hw, PEvent.arrive?] using m1, by simpa [PEvent.env?] using m2⟩
          | panic =>
            obtain ⟨more, m1, m2⟩ := key .dead (fun os hos js => .inr ⟨r, z.world, hos, hw⟩)
            exact ⟨more, by simpa [SSys.step, hi, hw, PEvent.arrive?] using m1, by simpa [PEvent.env?] using m2⟩

theorem filterMap_cons_toList {α β : Type _} (f : α → Option β) (a : α) (l : List α) :
    (a :: l).filterMap f = (f a).toList ++ l.filterMap f := by
  cases h : f a <;> simp [h]

theorem OneInv.run {prog : Request → Prog W Reply} {write : W → Reply → Res Bytes} {w0 : W} (evs : List (PEvent W))
    {arr : List Request} {items : List (Item W)} {z : SSys W} (h : OneInv prog write w0 arr items z)
    (hone : ∀ req ∈ arr ++ evs.filterMap PEvent.arrive?, (prog req).AtMostOne) :
    ∃ more : List (Item W), OneInv prog write w0 (arr ++ evs.filterMap PEvent.arrive?) (items ++ more)
        (z.run prog write evs) ∧ more.filterMap Item.env? = evs.filterMap PEvent.env? := by
  induction evs generalizing arr items z with
  | nil => exact ⟨[], by simpa [SSys.run] using h, rfl⟩
  | cons e evs ih =>
    rw [filterMap_cons_toList, ← List.append_assoc] at hone
    obtain ⟨m1, a1, a2⟩ := h.step (fun req hr => hone req (by simp [hr])) e
    obtain ⟨m2, b1, b2⟩ := ih a1 hone
    refine ⟨m1 ++ m2, ?_, ?_⟩
    · rw [filterMap_cons_toList, ← List.append_assoc, ← List.append_assoc]; exact b1
    · rw [List.filterMap_append, a2, b2, filterMap_cons_toList]

/-! ### requests that are not interrupted -/

theorem Prog.atomically_bind {β : Type v} (p : Prog W α) (k : α → Prog W β) (w : W) :
    (p.bind k).atomically w = match p.atomically w with
      | (w', .ret a) => (k a).atomically w'
      | (w', .panic) => (w', .panic)
      | (w', .hang) => (w', .hang) := by
  induction p generalizing w with
  | act u n ih => exact ih w (u w)
  | ret a => rfl
  | panic => rfl
  | hang => rfl

theorem replay_whole (uv : Bool) (req : Request) (log : List (PReg W)) (res : Response) (w : W) :
    replay uv req (log.map PReg.whole) (w, res) =
      match (chain uv req log res).atomically w with
      | (w', .ret r) => .ok (w', r)
      | _ => .panic := by
  induction log generalizing res w with
  | nil => rfl
  | cons e log ih =>
    simp only [List.map_cons, replay, chain]
    by_cases ha : e.target.applies uv req.requestLine.method req.requestLine.path = true
    · have ha' : e.whole.target.applies uv req.requestLine.method req.requestLine.path = true := ha
      rw [if_pos ha, if_pos ha', Prog.atomically_bind]
      have hh : e.whole.handler ⟨req, e.whole.target.vars uv req.requestLine.path⟩ (w, res) =
          match (e.handler ⟨req, e.target.vars uv req.requestLine.path⟩ res).atomically w with
          | (w, .ret (res, flow)) => .ok ((w, res), flow)
          | _ => .panic := rfl
      rw [hh]
      cases hp : (e.handler ⟨req, e.target.vars uv req.requestLine.path⟩ res).atomically w with
      | mk w' o =>
        cases o with
        | ret a =>
          obtain ⟨r, f⟩ := a
          cases f with
          | stop => rfl
          | next => exact ih r w'
        | panic => rfl
        | hang => rfl
    · have ha' : ¬ e.whole.target.applies uv req.requestLine.method req.requestLine.path = true := ha
      rw [if_neg ha, if_neg ha']
      exact ih res w

/-- `handle` on handlers that are one step each -/
theorem handle_whole (sv : PServer W) (log : List (PReg W)) (sv' : Server W) (req : Request) (w : W)
    (hfeat : sv'.feat = sv.feat) (hU : sv'.U = sv.U) (hord : sv'.ord = sv.ord) (hclock : sv'.clock = sv.clock)
    (hrun : ∀ s, Router.run sv.feat.urlVariables sv'.router req s = replay sv.feat.urlVariables req (log.map PReg.whole) s) :
    sv'.handle w req = match (requestProg sv.feat.urlVariables log req).atomically w with
      | (w', .ret r) => (sv.write w' r).bind fun bs => .ok (w', bs)
      | _ => .panic := by
  unfold Server.handle requestProg
  cases hv : Http.validate req with
  | panic => rfl
  | ok c =>
    obtain ⟨code, ka⟩ := c
    simp only [Http.isMalformed, Res.bind_ok']
    cases code with
    | some code =>
      simp only [Option.isSome_some, if_true, Res.unwrap_some, Res.bind_ok', Prog.atomically, Server.declareError,
        PServer.write, hfeat, hU, hord, hclock]
    | none =>
      simp only [Option.isSome_none, Bool.false_eq_true, if_false]
      by_cases hs : req.requestLine.method.isSome = true
      · rw [if_pos hs, if_pos hs, hfeat, hrun, replay_whole, Prog.atomically_bind]
        cases hc : (chain sv.feat.urlVariables req log Response.newEmpty).atomically w with
        | mk w' o =>
          cases o with
          | ret r =>
            simp only [Res.bind_ok', Prog.atomically]
            cases hb : r.hasBody <;> simp [Server.declareError, PServer.write, hfeat, hU, hord, hclock]
          | panic => rfl
          | hang => rfl
      · rw [if_neg hs, if_neg hs]
        simp only [Prog.atomically, Server.declareError, PServer.write, hfeat, hU, hord, hclock]

theorem set_same {l : List α} {i : Nat} {a : α} (h : l[i]? = some a) : l.set i a = l := by
  obtain ⟨hi, h⟩ := List.getElem?_eq_some_iff.1 h
  rw [← h, List.set_getElem_self]

/-- accesses of one request, one after the other, up to its end -/
theorem run_accesses {sv : PServer W} {log : List (PReg W)} (h : SetUp sv log) (req : Request)
    (hm : req.requestLine.method ≠ .all) (i : Nat) (p : Prog W Reply) (y : PSys W) (reads : List W)
    (hj : y.jobs[i]? = some (.running req reads))
    (ha : (requestProg sv.feat.urlVariables log req).after reads = (p, [])) :
    ∃ n reads' p', y.run sv (List.replicate n (.access i)) =
        { y with world := (p.atomically y.world).1, jobs := y.jobs.set i (.running req reads') } ∧
      (requestProg sv.feat.urlVariables log req).after reads' = (p', []) ∧ Ended p' (p.atomically y.world).2 := by
  induction p generalizing y reads with
  | act upd next ih =>
    have hs := stage_spec h req hm reads
    rw [ha] at hs
    have hst : sv.stage req reads = .wants upd := by
      cases hst : sv.stage req reads <;> rw [hst] at hs <;> first | exact hs.elim | (cases hs; rfl)
    have hi := (List.getElem?_eq_some_iff.1 hj).1
    have hstep : y.step sv (.access i) =
        { y with world := upd y.world, jobs := y.jobs.set i (.running req (reads ++ [y.world])) } := by
      simp only [PSys.step, hj]
      rw [hst]
    obtain ⟨n, reads', p', e1, e2, e3⟩ := ih y.world (y.step sv (.access i)) (reads ++ [y.world])
      (by rw [hstep]; simp [hi]) (by rw [Prog.after_snoc ha, Prog.after_nil])
    refine ⟨n + 1, reads', p', ?_, e2, ?_⟩
    · rw [List.replicate_succ]
      show (y.step sv (.access i)).run sv _ = _
      rw [e1, hstep]
      simp [Prog.atomically]
    · rw [hstep] at e3; exact e3
  | ret r => exact ⟨0, reads, _, by simp [PSys.run, Prog.atomically, set_same hj], ha, rfl⟩
  | panic => exact ⟨0, reads, _, by simp [PSys.run, Prog.atomically, set_same hj], ha, rfl⟩
  | hang => exact ⟨0, reads, _, by simp [PSys.run, Prog.atomically, set_same hj], ha, rfl⟩

theorem Prog.Ends.atomically {p : Prog W α} (h : p.Ends) (w : W) : (p.atomically w).2 ≠ .hang := by
  induction p generalizing w with
  | act u n ih => exact ih w (h w) (u w)
  | ret a => simp [Prog.atomically]
  | panic => simp [Prog.atomically]
  | hang => exact h.elim

theorem Prog.Ends.after {p : Prog W α} (h : p.Ends) (ws : List W) : (p.after ws).1.Ends := by
  induction p generalizing ws with
  | act u n ih =>
    cases ws with
    | nil => exact h
    | cons w ws => exact ih w (h w) ws
  | ret a => exact h
  | panic => exact h
  | hang => exact h.elim

theorem PSys.run_append (sv : PServer W) (y : PSys W) (a b : List (PEvent W)) :
    y.run sv (a ++ b) = (y.run sv a).run sv b := by
  simp [PSys.run, List.foldl_append]

/-- a running request comes to its end when it is given its turns -/
theorem run_running {sv : PServer W} {log : List (PReg W)} (h : SetUp sv log) (req : Request)
    (hm : req.requestLine.method ≠ .all) (i : Nat) (p : Prog W Reply) (y : PSys W) (reads : List W)
    (hj : y.jobs[i]? = some (.running req reads))
    (ha : (requestProg sv.feat.urlVariables log req).after reads = (p, [])) (hp : p.Ends) :
    ∃ n, let y' := y.run sv (List.replicate n (.access i) ++ [.finish i])
      y'.workers = y.workers ∧
      match p.atomically y.world with
      | (w, .ret r) =>
        match sv.write w r with
        | .ok bytes => y'.world = w ∧ y'.jobs = y.jobs.set i (.done r bytes)
        | .panic => y'.jobs = y.jobs.set i .dead
      | _ => y'.jobs = y.jobs.set i .dead := by
  obtain ⟨n, reads', p', e1, e2, e3⟩ := run_accesses h req hm i p y reads hj ha
  refine ⟨n, ?_⟩
  have hi := (List.getElem?_eq_some_iff.1 hj).1
  have hs := stage_spec h req hm reads'
  rw [e2] at hs
  simp only [PSys.run_append, e1]
  simp only [PSys.run, List.foldl_cons, List.foldl_nil, PSys.step, List.getElem?_set_self hi]
  have hne := hp.atomically y.world
  cases hat : p.atomically y.world with
  | mk w o =>
    rw [hat] at hne e3
    cases o with
    | hang => exact absurd rfl hne
    | ret r =>
      cases p' <;> simp only [Ended, reduceCtorEq] at e3
      cases e3
      cases hst : sv.stage req reads' <;> rw [hst] at hs <;> try exact hs.elim
      cases hs
      simp only
      cases hw : sv.write w r <;> simp
    | panic =>
      cases p' <;> simp only [Ended, reduceCtorEq] at e3
      cases hst : sv.stage req reads' <;> rw [hst] at hs <;> try exact hs.elim
      simp

/-- a request that is begun by a free thread and given its turns -/
theorem run_job {sv : PServer W} {log : List (PReg W)} (h : SetUp sv log) (req : Request)
    (hm : req.requestLine.method ≠ .all) (i : Nat) (y : PSys W) (hi : y.jobs[i]? = some (.ready req))
    (hfree : y.jobs.countP Job.busy < y.workers) (hh : (requestProg sv.feat.urlVariables log req).Ends) :
    ∃ n, let y' := y.run sv (.start i :: List.replicate n (.access i) ++ [.finish i])
      match (match (requestProg sv.feat.urlVariables log req).atomically y.world with
        | (w', .ret r) => (sv.write w' r).bind fun bs => .ok (w', bs)
        | _ => .panic) with
      | .ok (w, bytes) => y'.world = w ∧ ∃ r, y'.jobs = y.jobs.set i (.done r bytes)
      | .panic => y'.jobs = y.jobs.set i .dead := by
  have hl := (List.getElem?_eq_some_iff.1 hi).1
  have hstart : y.step sv (.start i) = { y with jobs := y.jobs.set i (.running req []) } := by
    simp only [PSys.step, hi, hfree, if_true]
  obtain ⟨n, -, hn⟩ := run_running h req hm i (requestProg sv.feat.urlVariables log req) (y.step sv (.start i)) []
    (by rw [hstart]; simp [hl]) (Prog.after_nil _) hh
  refine ⟨n, ?_⟩
  have hrun : y.run sv (.start i :: List.replicate n (.access i) ++ [.finish i]) =
      (y.step sv (.start i)).run sv (List.replicate n (.access i) ++ [.finish i]) := rfl
  simp only [hrun]
  rw [hstart] at hn ⊢
  simp only [List.set_set] at hn
  cases hat : (requestProg sv.feat.urlVariables log req).atomically y.world with
  | mk w o =>
    rw [hat] at hn
    cases o with
    | ret r =>
      simp only at hn ⊢
      cases hw : sv.write w r with
      | ok bytes => rw [hw] at hn; exact ⟨hn.1, r, hn.2⟩
      | panic => rw [hw] at hn; exact hn
    | panic => exact hn
    | hang => exact hn

/-! ### handlers that do not return -/

theorem countP_set_le {l : List α} {i : Nat} {a b : α} (P : α → Bool) (h : l[i]? = some a) (ha : P a = false) :
    l.countP P ≤ (l.set i b).countP P := by
  induction l generalizing i with
  | nil => simp
  | cons x l ih =>
    cases i with
    | zero =>
      simp only [List.getElem?_cons_zero, Option.some.injEq] at h
      subst h
      simp [List.set_cons_zero, List.countP_cons, ha]
    | succ i =>
      simp only [List.getElem?_cons_succ] at h
      have := ih h
      simp only [List.set_cons_succ, List.countP_cons]
      omega

theorem countP_set_lt {l : List α} {i : Nat} {a b : α} (P : α → Bool) (h : l[i]? = some a) (ha : P a = true)
    (hb : P b = false) : (l.set i b).countP P + 1 = l.countP P := by
  induction l generalizing i with
  | nil => simp at h
  | cons x l ih =>
    cases i with
    | zero =>
      simp only [List.getElem?_cons_zero, Option.some.injEq] at h
      subst h
      simp [List.set_cons_zero, ha, hb]
    | succ i =>
      simp only [List.getElem?_cons_succ] at h
      have := ih h
      simp only [List.set_cons_succ, List.countP_cons]
      omega

/-- a hung request stays, and so does a ready one if all threads are taken by hung requests -/
theorem stalled_step {sv : PServer W} {y : PSys W} (h : y.workers ≤ y.jobs.countP (Hung sv)) (e : PEvent W) :
    (y.step sv e).workers ≤ (y.step sv e).jobs.countP (Hung sv) ∧
    ∀ (i : Nat) req, y.jobs[i]? = some (.ready req) → (y.step sv e).jobs[i]? = some (.ready req) := by
  have hbusy : ¬ y.jobs.countP Job.busy < y.workers := by
    have : y.jobs.countP (Hung sv) ≤ y.jobs.countP Job.busy := by
      apply List.countP_mono_left
      intro j _ hj
      cases j <;> simp_all [Hung, Job.busy]
    omega
  have upd : ∀ (i : Nat) (req : Request) (reads : List W) (w : W) (j : Job W), y.jobs[i]? = some (.running req reads) →
      Hung sv (.running req reads) = false →
      y.workers ≤ (y.jobs.set i j).countP (Hung sv) ∧
      ∀ (k : Nat) q, y.jobs[k]? = some (.ready q) → (y.jobs.set i j)[k]? = some (.ready q) := by
    intro i req reads w j hj hh
    refine ⟨Nat.le_trans h (countP_set_le _ hj hh), ?_⟩
    intro k q hk
    have : i ≠ k := by rintro rfl; rw [hj] at hk; simp at hk
    rw [List.getElem?_set_ne this]; exact hk
  cases e with
  | arrive req =>
    refine ⟨?_, ?_⟩
    · simp only [PSys.step, List.countP_append]; omega
    · intro i q hq
      simp only [PSys.step]
      rw [List.getElem?_append_left (List.getElem?_eq_some_iff.1 hq).1]; exact hq
  | env f => exact ⟨h, fun _ _ hq => hq⟩
  | start i =>
    simp only [PSys.step]
    split
    · simp only [hbusy, if_false]; exact ⟨h, fun _ _ hq => hq⟩
    · exact ⟨h, fun _ _ hq => hq⟩
  | access i =>
    simp only [PSys.step]
    split
    · rename_i req reads hj
      split
      · rename_i u hst
        exact upd i req reads y.world _ hj (by simp [Hung, hst])
      · exact ⟨h, fun _ _ hq => hq⟩
    · exact ⟨h, fun _ _ hq => hq⟩
  | finish i =>
    simp only [PSys.step]
    split
    · rename_i req reads hj
      split
      · rename_i r hst
        split <;> exact upd i req reads y.world _ hj (by simp [Hung, hst])
      · rename_i hst
        exact upd i req reads y.world _ hj (by simp [Hung, hst])
      · exact ⟨h, fun _ _ hq => hq⟩
    · exact ⟨h, fun _ _ hq => hq⟩

theorem stalled_run {sv : PServer W} (evs : List (PEvent W)) {y : PSys W}
    (h : y.workers ≤ y.jobs.countP (Hung sv)) (i : Nat) (req : Request) (hi : y.jobs[i]? = some (.ready req)) :
    (y.run sv evs).jobs[i]? = some (.ready req) := by
  induction evs generalizing y with
  | nil => exact hi
  | cons e evs ih =>
    obtain ⟨h1, h2⟩ := stalled_step h e
    exact ih h1 (h2 i req hi)

/-- every running request is somewhere in its program -/
def Sound (sv : PServer W) (log : List (PReg W)) (y : PSys W) : Prop :=
  ∀ (i : Nat) req reads, y.jobs[i]? = some (.running req reads) → req.requestLine.method ≠ .all ∧
    ∃ p, (requestProg sv.feat.urlVariables log req).after reads = (p, [])

theorem free_thread {sv : PServer W} {log : List (PReg W)} (hs : SetUp sv log) (n : Nat) (y : PSys W)
    (hn : y.jobs.countP Job.busy = n) (hy : Sound sv log y)
    (hh : y.jobs.countP (MayHang sv log) < y.workers) :
    ∃ more : List (PEvent W), (∀ e ∈ more, e.arrive? = none ∧ e.env? = none) ∧
      let y' := y.run sv more
      y'.jobs.countP Job.busy < y'.workers ∧ ∀ (i : Nat) req, y.jobs[i]? = some (.ready req) → y'.jobs[i]? = some (.ready req) := by
  induction n using Nat.strongRecOn generalizing y with
  | _ n ih =>
    by_cases hb : y.jobs.countP Job.busy < y.workers
    · exact ⟨[], by simp, hb, fun _ _ h => h⟩
    · -- some busy request ends
      have hex : ∃ j ∈ y.jobs, j.busy = true ∧ MayHang sv log j = false := by
        apply Classical.byContradiction
        intro hcon
        have : y.jobs.countP Job.busy ≤ y.jobs.countP (MayHang sv log) := by
          apply List.countP_mono_left
          intro j hj hbj
          cases hm : MayHang sv log j with
          | true => rfl
          | false => exact absurd ⟨j, hj, hbj, hm⟩ hcon
        omega
      obtain ⟨j, hj, hbj, hmj⟩ := hex
      obtain ⟨k, hk⟩ := List.getElem?_of_mem hj
      cases j <;> simp only [Job.busy, Bool.false_eq_true] at hbj
      rename_i req reads
      have hends : (requestProg sv.feat.urlVariables log req).Ends := by
        simp only [MayHang, decide_eq_false_iff_not, Classical.not_not] at hmj
        exact hmj
      obtain ⟨hm, p, hp⟩ := hy k req reads hk
      obtain ⟨c, c1, c2⟩ := run_running hs req hm k p y reads hk hp (by
        have := hends.after reads; rw [hp] at this; exact this)
      obtain ⟨j', hj', hb'⟩ : ∃ j' : Job W, (y.run sv (List.replicate c (.access k) ++ [.finish k])).jobs = y.jobs.set k j' ∧
          j'.busy = false := by
        cases hat : p.atomically y.world with
        | mk w o =>
          rw [hat] at c2
          cases o with
          | ret r =>
            simp only at c2
            cases hw : sv.write w r with
            | ok bytes => rw [hw] at c2; exact ⟨_, c2.2, rfl⟩
            | panic => rw [hw] at c2; exact ⟨_, c2, rfl⟩
          | panic => exact ⟨_, c2, rfl⟩
          | hang => exact ⟨_, c2, rfl⟩
      have hcount := countP_set_lt (b := j') Job.busy hk rfl hb'
      have hnr : ∀ req reads, j' ≠ .running req reads := by rintro _ _ rfl; simp [Job.busy] at hb'
      generalize hY : y.run sv (List.replicate c (.access k) ++ [.finish k]) = Y at c1 hj'
      obtain ⟨more, m1, m2, m3⟩ := ih (Y.jobs.countP Job.busy) (by rw [hj']; omega) Y rfl (by
        intro i q rs hi
        rw [hj', List.getElem?_set] at hi
        split at hi
        · split at hi
          · injection hi with hi; exact absurd hi (hnr _ _)
          · simp at hi
        · exact hy i q rs hi) (by
        rw [c1, hj']
        have : (y.jobs.set k j').countP (MayHang sv log) ≤ y.jobs.countP (MayHang sv log) := by
          have hj'm : MayHang sv log j' = false := by cases j' <;> simp_all [MayHang]
          have h1 := countP_set_le (l := y.jobs.set k j') (i := k) (a := j') (b := .running req reads) (MayHang sv log)
            (by simp [(List.getElem?_eq_some_iff.1 hk).1]) hj'm
          rw [List.set_set, set_same hk] at h1
          exact h1
        omega)
      refine ⟨List.replicate c (.access k) ++ [.finish k] ++ more, ?_, ?_⟩
      · intro e he
        simp only [List.mem_append, List.mem_replicate, List.mem_singleton] at he
        rcases he with (⟨-, rfl⟩ | rfl) | he
        · exact ⟨rfl, rfl⟩
        · exact ⟨rfl, rfl⟩
        · exact m1 e he
      · simp only [PSys.run_append _ _ _ more, hY]
        refine ⟨m2, fun i q hi => m3 i q ?_⟩
        rw [hj', List.getElem?_set_ne (by rintro rfl; rw [hk] at hi; simp at hi)]
        exact hi

theorem SysRel.sound {sv : PServer W} {log : List (PReg W)} {y : PSys W} {z : SSys W} (h : SysRel sv log y z) :
    Sound sv log y := by
  intro i req reads hi
  rcases h.2.2.get i with ⟨e1, -⟩ | ⟨j, k, e1, -, hr⟩
  · rw [e1] at hi; simp at hi
  · rw [e1] at hi
    injection hi with hi
    subst hi
    cases k <;> try exact hr.elim
    exact ⟨hr.1, _, hr.2⟩

theorem SysRel.ready {sv : PServer W} {log : List (PReg W)} {y : PSys W} {z : SSys W} (h : SysRel sv log y z)
    {i : Nat} {req : Request} (hi : y.jobs[i]? = some (.ready req)) : req.requestLine.method ≠ .all := by
  rcases h.2.2.get i with ⟨e1, -⟩ | ⟨j, k, e1, -, hr⟩
  · rw [e1] at hi; simp at hi
  · rw [e1] at hi
    injection hi with hi
    subst hi
    cases k <;> try exact hr.elim
    exact hr.2

end Octane
