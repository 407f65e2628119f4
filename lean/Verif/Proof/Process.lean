import Verif.Proof.ProcessRead
import Verif.Proof.Parallel
/-
The process against requests that take turns.
-/
namespace Octane
open Spec
universe u
variable {W : Type u}

theorem countP_set_eq {α : Type u} {l : List α} {i : Nat} {a b : α} (P : α → Bool) (h : l[i]? = some a) :
    (l.set i b).countP P + (P a).toNat = l.countP P + (P b).toNat := by
  induction l generalizing i with
  | nil => simp at h
  | cons x l ih =>
    cases i with
    | zero =>
      simp only [List.getElem?_cons_zero, Option.some.injEq] at h
      subst h
      simp only [List.set_cons_zero, List.countP_cons]
      cases P x <;> cases P b <;> simp
    | succ i =>
      have := ih (i := i) (by simpa using h)
      simp only [List.set_cons_succ, List.countP_cons]
      omega

/-- the answer of connection `i`, in terms of the model of requests handled at the same time -/
def AnsweredBy (sv : PServer W) (jobs : List (Job W)) (order : List Nat) (i : Nat) (bytes out : Bytes) : Prop :=
  (∃ (j : Nat) (r : Reply), order[j]? = some i ∧ jobs[j]? = some (Job.done r out)) ∨
  (i ∉ order ∧ NoHead bytes ∧ ∃ w, sv.write w (.page .badRequest) = .ok out)

/-- where a connection stands, in terms of the model of requests handled at the same time -/
def ConnAt (sv : PServer W) (allocOk : Nat → Bool) (jobs : List (Job W)) (order : List Nat) (i : Nat) (s0 : Sock)
    (sock : Sock) : PTask W → Prop
  | .handshake => i ∉ order ∧ sock = s0
  | .refused => i ∉ order
  | .reading r => i ∉ order ∧ r.Ok ∧ readRest sv.feat allocOk sock r = readRest sv.feat allocOk s0 (.head [])
  | .handling req reads => Received sv.feat.faithful sv.feat.cookies s0 req ∧
      ∃ j : Nat, order[j]? = some i ∧ jobs[j]? = some (Job.running req reads)
  | .writing sent rest => AnsweredBy sv jobs order i s0.bytes (sent ++ rest)
  | .finished sent => AnsweredBy sv jobs order i s0.bytes sent
  | .broken sent => ∃ rest, AnsweredBy sv jobs order i s0.bytes (sent ++ rest)
  | .panicked => (∃ j : Nat, order[j]? = some i ∧ jobs[j]? = some Job.dead) ∨
      (i ∉ order ∧ ((NoHead s0.bytes ∧ ∃ w, sv.write w (.page .badRequest) = .panic) ∨
        ∀ q n, Asked.In sv.feat.faithful sv.feat.cookies s0.bytes q n → 9223372036854775807 < n))

theorem ConnAt.mono {sv : PServer W} {allocOk : Nat → Bool} {jobs jobs' : List (Job W)} {order order' : List Nat}
    {i : Nat} {s0 s : Sock} {t : PTask W} (h : ConnAt sv allocOk jobs order i s0 s t)
    (h1 : ∀ j : Nat, order[j]? = some i → order'[j]? = some i ∧ jobs'[j]? = jobs[j]?)
    (h2 : i ∉ order → i ∉ order') : ConnAt sv allocOk jobs' order' i s0 s t := by
  have ha : ∀ out, AnsweredBy sv jobs order i s0.bytes out → AnsweredBy sv jobs' order' i s0.bytes out := by
    rintro out (⟨j, r, a, b⟩ | ⟨a, b⟩)
    · exact .inl ⟨j, r, (h1 j a).1, by rw [(h1 j a).2]; exact b⟩
    · exact .inr ⟨h2 a, b⟩
  cases t with
  | handshake => exact ⟨h2 h.1, h.2⟩
  | refused => exact h2 h
  | reading r => exact ⟨h2 h.1, h.2⟩
  | handling req reads =>
    obtain ⟨h0, j, a, b⟩ := h
    exact ⟨h0, j, (h1 j a).1, by rw [(h1 j a).2]; exact b⟩
  | writing sent rest => exact ha _ h
  | finished sent => exact ha _ h
  | broken sent => obtain ⟨rest, h⟩ := h; exact ⟨rest, ha _ h⟩
  | panicked =>
    rcases h with ⟨j, a, b⟩ | ⟨a, b⟩
    · exact .inl ⟨j, (h1 j a).1, by rw [(h1 j a).2]; exact b⟩
    · exact .inr ⟨h2 a, b⟩

/-- The process, the connections accepted, and the requests they have led to. -/
structure ProcInv (sv : PServer W) (allocOk : Nat → Bool) (S : List (Bool × Sock)) (order : List Nat)
    (arr : List Request) (z : PSys W) (y : Process W) : Prop where
  world : z.world = y.world
  workers : z.workers = y.workers
  busy : z.jobs.countP Job.busy = y.conns.countP (·.task.busy)
  jobs : z.jobs.length = order.length
  nodup : order.Nodup
  arrived : arr.length = order.length
  reqs : ∀ (j i : Nat), order[j]? = some i → ∃ tls s req, S[i]? = some (tls, s) ∧ arr[j]? = some req ∧
    Received sv.feat.faithful sv.feat.cookies s req
  len : S.length = y.conns.length
  conns : ∀ (i : Nat) (c : PConn W), y.conns[i]? = some c → ∃ s0, S[i]? = some (c.tls, s0) ∧
    ConnAt sv allocOk z.jobs order i s0 c.sock c.task

namespace ProcInv
variable {sv : PServer W} {allocOk : Nat → Bool} {S : List (Bool × Sock)} {order : List Nat}
  {arr : List Request} {z : PSys W} {y : Process W}

/-- A step of one task that concerns no request. -/
theorem put (h : ProcInv sv allocOk S order arr z y) {i : Nat} {c : PConn W} (hc : y.conns[i]? = some c)
    (t : PTask W) (s : Sock) (hb : c.task.busy = t.busy)
    (ht : ∀ s0, ConnAt sv allocOk z.jobs order i s0 c.sock c.task → ConnAt sv allocOk z.jobs order i s0 s t) :
    ProcInv sv allocOk S order arr z (y.put y.world i c t s) := by
  refine ⟨h.world, h.workers, ?_, h.jobs, h.nodup, h.arrived, h.reqs, by simpa [Process.put] using h.len, ?_⟩
  · have := countP_set_eq (b := { c with task := t, sock := s }) (fun c : PConn W => c.task.busy) hc
    simp only [hb] at this
    simp only [Process.put, h.busy]
    omega
  · intro k x hk
    simp only [Process.put, List.getElem?_set] at hk
    split at hk
    · rename_i hik
      subst hik
      split at hk
      · simp only [Option.some.injEq] at hk
        subst hk
        obtain ⟨s0, a, b⟩ := h.conns i c hc
        exact ⟨s0, a, ht s0 b⟩
      · simp at hk
    · exact h.conns k x hk

/-- A step of the request of one task. -/
theorem act (h : ProcInv sv allocOk S order arr z y) {i j : Nat} {c : PConn W} (hc : y.conns[i]? = some c)
    (hj : order[j]? = some i) {a b : Job W} (hja : z.jobs[j]? = some a) (ha : a.busy = c.task.busy) (w : W) (t : PTask W)
    (hb : b.busy = t.busy)
    (ht : ∀ s0 jobs, ConnAt sv allocOk z.jobs order i s0 c.sock c.task → jobs[j]? = some b →
      ConnAt sv allocOk jobs order i s0 c.sock t) :
    ProcInv sv allocOk S order arr { z with world := w, jobs := z.jobs.set j b } (y.put w i c t c.sock) := by
  have hl := (List.getElem?_eq_some_iff.1 hja).1
  refine ⟨rfl, h.workers, ?_, by simpa using h.jobs, h.nodup, h.arrived, h.reqs, by simpa [Process.put] using h.len, ?_⟩
  · have e1 := countP_set_eq (b := { c with task := t }) (fun c : PConn W => c.task.busy) hc
    have e2 := countP_set_eq (b := b) Job.busy hja
    simp only [← hb, ← ha] at e1
    simp only [Process.put]
    have := h.busy
    omega
  · intro k x hk
    simp only [Process.put, List.getElem?_set] at hk
    split at hk
    · rename_i hik
      subst hik
      split at hk
      · simp only [Option.some.injEq] at hk
        subst hk
        obtain ⟨s0, g1, g2⟩ := h.conns i c hc
        exact ⟨s0, g1, ht s0 _ g2 (by simp [hl])⟩
      · simp at hk
    · rename_i hik
      obtain ⟨s0, g1, g2⟩ := h.conns k x hk
      refine ⟨s0, g1, g2.mono (fun j' hj' => ⟨hj', ?_⟩) id⟩
      have : j ≠ j' := by
        rintro rfl
        rw [hj] at hj'
        simp only [Option.some.injEq] at hj'
        exact hik hj'
      simp [List.getElem?_set_ne this]

/-- The request of a task has been read, and a thread begins with it. -/
theorem begin (h : ProcInv sv allocOk S order arr z y) {i : Nat} {c : PConn W} (hc : y.conns[i]? = some c)
    (hno : i ∉ order) (hcb : c.task.busy = false) (req : Request) (s : Sock)
    (hrec : ∀ s0, S[i]? = some (c.tls, s0) → Received sv.feat.faithful sv.feat.cookies s0 req) :
    ProcInv sv allocOk S (order ++ [i]) (arr ++ [req]) { z with jobs := z.jobs ++ [.running req []] }
      (y.put y.world i c (.handling req []) s) := by
  obtain ⟨s0, hs0, -⟩ := h.conns i c hc
  refine ⟨h.world, h.workers, ?_, by simp [h.jobs], ?_, by simp [h.arrived], ?_, by simpa [Process.put] using h.len, ?_⟩
  · have e1 := countP_set_eq (b := { c with task := .handling req [], sock := s }) (fun c : PConn W => c.task.busy) hc
    have e2 : (PTask.handling (W := W) req []).busy = true := rfl
    simp only [hcb, e2, Bool.toNat_true, Bool.toNat_false] at e1
    simp only [Process.put, List.countP_append, List.countP_cons, List.countP_nil, Job.busy, if_true]
    have := h.busy
    omega
  · rw [List.nodup_append]
    refine ⟨h.nodup, by simp, ?_⟩
    intro a ha b hb
    rw [List.mem_singleton.1 hb]
    rintro rfl
    exact hno ha
  · intro j k hk
    by_cases hj : j < order.length
    · rw [List.getElem?_append_left hj] at hk
      obtain ⟨tls, s', r, g1, g2, g3⟩ := h.reqs j k hk
      exact ⟨tls, s', r, g1, by rw [List.getElem?_append_left (by rw [h.arrived]; exact hj)]; exact g2, g3⟩
    · rw [List.getElem?_append_right (by omega)] at hk
      have hj' : j = order.length := by
        have := (List.getElem?_eq_some_iff.1 hk).1
        simp at this; omega
      subst hj'
      simp only [Nat.sub_self, List.getElem?_cons_zero, Option.some.injEq] at hk
      subst hk
      exact ⟨c.tls, s0, req, hs0, by rw [← h.arrived]; simp, hrec s0 hs0⟩
  · intro k x hk
    simp only [Process.put, List.getElem?_set] at hk
    split at hk
    · rename_i hik
      subst hik
      split at hk
      · simp only [Option.some.injEq] at hk
        subst hk
        exact ⟨s0, hs0, hrec s0 hs0, order.length, by simp, by rw [← h.jobs]; simp⟩
      · simp at hk
    · rename_i hik
      obtain ⟨s1, g1, g2⟩ := h.conns k x hk
      refine ⟨s1, g1, g2.mono (fun j hj => ?_) ?_⟩
      · have hl := (List.getElem?_eq_some_iff.1 hj).1
        exact ⟨by rw [List.getElem?_append_left hl]; exact hj,
          by rw [List.getElem?_append_left (by rw [h.jobs]; exact hl)]⟩
      · intro hn
        simp [hn, Ne.symm hik]

end ProcInv

/-- the connection that an event adds -/
def takes (y : Process W) : Happening W → List (Bool × Sock)
  | .connect tls s => if y.listener tls = .listening then [(tls, s)] else []
  | _ => []

theorem AnsweredBy.respond {sv : PServer W} {allocOk : Nat → Bool} {jobs : List (Job W)} {order : List Nat} {i : Nat}
    {s0 s : Sock} {w : W} (hno : i ∉ order) (hb : NoHead s0.bytes) :
    ConnAt sv allocOk jobs order i s0 s (.respond (sv.write w (.page .badRequest))) := by
  cases hw : sv.write w (.page .badRequest) with
  | ok out => exact .inr ⟨hno, hb, w, hw⟩
  | panic => exact .inr ⟨hno, .inl ⟨hb, w, hw⟩⟩

theorem ProcInv.step {sv : PServer W} {allocOk : Nat → Bool} {S : List (Bool × Sock)} {order : List Nat}
    {arr : List Request} {z : PSys W} {y : Process W} (h : ProcInv sv allocOk S order arr z y) (hd : y.dead = false)
    (e : Happening W) :
    ∃ (more : List (PEvent W)) (ord : List Nat),
      ProcInv sv allocOk (S ++ takes y e) (order ++ ord) (arr ++ more.filterMap PEvent.arrive?) (z.run sv more)
        (y.step sv allocOk e) ∧
      more.filterMap PEvent.env? = (Happening.env? e).toList := by
  have same : ∀ {S' : List (Bool × Sock)} {y' : Process W}, ProcInv sv allocOk S' order arr z y' → S' = S ++ takes y e →
      y.step sv allocOk e = y' → Happening.env? e = none →
      ∃ (more : List (PEvent W)) (ord : List Nat),
        ProcInv sv allocOk (S ++ takes y e) (order ++ ord) (arr ++ more.filterMap PEvent.arrive?) (z.run sv more)
          (y.step sv allocOk e) ∧
        more.filterMap PEvent.env? = (Happening.env? e).toList := by
    intro S' y' h1 h2 h3 h4
    refine ⟨[], [], ?_, by rw [h4]; rfl⟩
    rw [h3]
    simpa [PSys.run, h2] using h1
  have hstep : ∀ {y' : Process W}, y' = y → ProcInv sv allocOk S order arr z y' := fun e => e ▸ h
  cases e with
  | connect tls s =>
    by_cases hl : y.listener tls = .listening
    · refine same (S' := S ++ [(tls, s)])
        (y' := { y with conns := y.conns ++ [⟨tls, if tls then .handshake else .reading (.head []), s⟩] }) ?_
        (by simp [takes, hl]) (by simp [Process.step, hd, hl]) rfl
      have hno : y.conns.length ∉ order := by
        intro hm
        obtain ⟨j, hj⟩ := List.getElem?_of_mem hm
        obtain ⟨_, _, _, g, -⟩ := h.reqs j _ hj
        have := (List.getElem?_eq_some_iff.1 g).1
        have := h.len
        omega
      refine ⟨h.world, h.workers, ?_, h.jobs, h.nodup, h.arrived, ?_, by simp [h.len], ?_⟩
      · rw [h.busy]
        cases tls <;> simp [List.countP_append, PTask.busy]
      · intro j i hj
        obtain ⟨t', s', r, g1, g2, g3⟩ := h.reqs j i hj
        exact ⟨t', s', r, by rw [List.getElem?_append_left (List.getElem?_eq_some_iff.1 g1).1]; exact g1, g2, g3⟩
      · intro k x hk
        by_cases hkl : k < y.conns.length
        · rw [List.getElem?_append_left hkl] at hk
          obtain ⟨s0, g1, g2⟩ := h.conns k x hk
          exact ⟨s0, by rw [List.getElem?_append_left (by rw [h.len]; exact hkl)]; exact g1, g2⟩
        · rw [List.getElem?_append_right (by omega)] at hk
          have hk' : k = y.conns.length := by
            have := (List.getElem?_eq_some_iff.1 hk).1
            simp at this; omega
          subst hk'
          simp only [Nat.sub_self, List.getElem?_cons_zero, Option.some.injEq] at hk
          subst hk
          refine ⟨s, by rw [← h.len]; simp, ?_⟩
          cases tls
          · exact ⟨hno, trivial, rfl⟩
          · exact ⟨hno, rfl⟩
    · exact same h (by simp [takes, hl]) (by simp [Process.step, hd, hl]) rfl
  | acceptErr tls =>
    refine same (S' := S) (y' := y.step sv allocOk (.acceptErr tls)) ?_ (by simp [takes]) rfl rfl
    simp only [Process.step, hd, Bool.false_eq_true, if_false]
    split
    · split
      · exact ⟨h.world, h.workers, h.busy, h.jobs, h.nodup, h.arrived, h.reqs, h.len, h.conns⟩
      · exact ⟨h.world, h.workers, h.busy, h.jobs, h.nodup, h.arrived, h.reqs, h.len, h.conns⟩
    · exact h
  | handshake i ok =>
    refine same (S' := S) (y' := y.step sv allocOk (.handshake i ok)) ?_ (by simp [takes]) rfl rfl
    simp only [Process.step, hd, Bool.false_eq_true, if_false]
    split
    · rename_i c hc
      split
      · refine h.put hc _ _ ?_ ?_
        · cases c.task <;> cases ok <;> rfl
        · intro s0 hat
          cases ht : c.task <;> rw [ht] at hat <;> try exact hat
          cases ok
          · exact hat.1
          · refine ⟨hat.1, trivial, ?_⟩
            rw [hat.2]
      · exact h
    · exact h
  | poll i =>
    cases hc : y.conns[i]? with
    | none => exact same h (by simp [takes]) (by simp [Process.step, hd, hc]) rfl
    | some c =>
      cases ht : c.task with
      | reading r =>
        by_cases hf : y.free = true
        · obtain ⟨s0, hs0, hat⟩ := h.conns i c hc
          rw [ht] at hat
          obtain ⟨hno, hok, hrest⟩ := hat
          have hspec := turn_spec sv.feat allocOk r c.sock hok
          have huniq : ∀ s1, ConnAt sv allocOk z.jobs order i s1 c.sock c.task →
              readRest sv.feat allocOk c.sock r = readRest sv.feat allocOk s1 (.head []) := by
            intro s1 h1
            rw [ht] at h1
            exact h1.2.2
          cases hturn : r.turn sv.feat allocOk c.sock with
          | waits r' s' =>
            rw [hturn] at hspec
            refine same (h.put hc (.reading r') s' (by rw [ht]; rfl) ?_) (by simp [takes])
              (by simp [Process.step, hd, hc, ht, hf, hturn]) rfl
            intro s1 h1
            exact ⟨hno, hspec.1, hspec.2.1.trans (huniq s1 h1)⟩
          | bad s' =>
            rw [hturn] at hspec
            refine same (h.put hc (.respond (sv.write y.world (.page .badRequest))) s' ?_ ?_) (by simp [takes])
              (by simp [Process.step, hd, hc, ht, hf, hturn]) rfl
            · rw [ht]; cases sv.write y.world (.page .badRequest) <;> rfl
            · intro s1 h1
              exact AnsweredBy.respond hno (readRest_noHead ((huniq s1 h1).symm.trans hspec))
          | panicked s' =>
            rw [hturn] at hspec
            refine same (h.put hc .panicked s' (by rw [ht]; rfl) ?_) (by simp [takes])
              (by simp [Process.step, hd, hc, ht, hf, hturn]) rfl
            intro s1 h1
            exact .inr ⟨hno, .inr (readRest_panic ((huniq s1 h1).symm.trans hspec))⟩
          | abort =>
            refine same (S' := S) (y' := { y with dead := true }) ?_ (by simp [takes])
              (by simp [Process.step, hd, hc, ht, hf, hturn]) rfl
            exact ⟨h.world, h.workers, h.busy, h.jobs, h.nodup, h.arrived, h.reqs, h.len, h.conns⟩
          | request req s' =>
            rw [hturn] at hspec
            have hb := h.begin hc hno (by rw [ht]; rfl) req s' (fun s1 hs1 => by
              rw [hs0] at hs1
              simp only [Option.some.injEq, Prod.mk.injEq, true_and] at hs1
              subst hs1
              exact readRest_received (hrest.symm.trans hspec))
            refine ⟨[.arrive req, .start z.jobs.length], [i], ?_, rfl⟩
            have hrun : z.run sv [.arrive req, .start z.jobs.length] =
                { z with jobs := z.jobs ++ [.running req []] } := by
              have hfree : z.jobs.countP Job.busy < z.workers := by
                rw [h.busy, h.workers]; simpa [Process.free] using hf
              simp [PSys.run, PSys.step, Job.busy, List.countP_append, hfree]
            have hs : y.step sv allocOk (.poll i) = y.put y.world i c (.handling req []) s' := by
              simp [Process.step, hd, hc, ht, hf, hturn]
            rw [hrun, hs]
            simpa [takes, PEvent.arrive?, List.filterMap_cons] using hb
        · exact same h (by simp [takes]) (by simp [Process.step, hd, hc, ht, hf]) rfl
      | _ => exact same h (by simp [takes]) (by simp [Process.step, hd, hc, ht]) rfl
  | access i =>
    cases hc : y.conns[i]? with
    | none => exact same h (by simp [takes]) (by simp [Process.step, hd, hc]) rfl
    | some c =>
      cases ht : c.task with
      | handling req reads =>
        obtain ⟨s0, hs0, hat⟩ := h.conns i c hc
        rw [ht] at hat
        obtain ⟨-, j, hj, hjob⟩ := hat
        cases hst : sv.stage req reads with
        | wants upd =>
          have hb := h.act hc hj hjob (by rw [ht]; rfl) (b := .running req (reads ++ [y.world])) (upd y.world)
            (.handling req (reads ++ [y.world])) rfl (by
              intro s1 jobs h1 hj1
              rw [ht] at h1
              exact ⟨h1.1, j, hj, hj1⟩)
          refine ⟨[.access j], [], ?_, rfl⟩
          have hrun : z.run sv [.access j] =
              { z with world := upd y.world, jobs := z.jobs.set j (.running req (reads ++ [y.world])) } := by
            simp [PSys.run, PSys.step, hjob, hst, h.world]
          have hs : y.step sv allocOk (.access i) = y.put (upd y.world) i c (.handling req (reads ++ [y.world])) c.sock := by
            simp [Process.step, hd, hc, ht, hst]
          rw [hrun, hs]
          simpa [takes, PEvent.arrive?, List.filterMap_cons] using hb
        | _ => exact same h (by simp [takes]) (by simp [Process.step, hd, hc, ht, hst]) rfl
      | _ => exact same h (by simp [takes]) (by simp [Process.step, hd, hc, ht]) rfl
  | finish i =>
    cases hc : y.conns[i]? with
    | none => exact same h (by simp [takes]) (by simp [Process.step, hd, hc]) rfl
    | some c =>
      cases ht : c.task with
      | handling req reads =>
        obtain ⟨s0, hs0, hat⟩ := h.conns i c hc
        rw [ht] at hat
        obtain ⟨-, j, hj, hjob⟩ := hat
        have key : ∀ (b : Job W) (t : PTask W), b.busy = t.busy →
            (∀ s0 jobs, jobs[j]? = some b → ConnAt sv allocOk jobs order i s0 c.sock t) →
            z.run sv [.finish j] = { z with world := y.world, jobs := z.jobs.set j b } →
            y.step sv allocOk (.finish i) = y.put y.world i c t c.sock →
            ∃ (more : List (PEvent W)) (ord : List Nat),
              ProcInv sv allocOk (S ++ takes y (.finish i)) (order ++ ord) (arr ++ more.filterMap PEvent.arrive?)
                (z.run sv more) (y.step sv allocOk (.finish i)) ∧
              more.filterMap PEvent.env? = (Happening.env? (.finish i : Happening W)).toList := by
          intro b t hbt hat hrun hs
          refine ⟨[.finish j], [], ?_, rfl⟩
          rw [hrun, hs]
          have hb := h.act hc hj hjob (by rw [ht]; rfl) (b := b) y.world t hbt (fun s1 jobs _ hj1 => hat s1 jobs hj1)
          simpa [takes, PEvent.arrive?, List.filterMap_cons] using hb
        cases hst : sv.stage req reads with
        | replies r =>
          cases hw : sv.write y.world r with
          | ok out =>
            refine key (.done r out) (.writing [] out) rfl (fun s1 jobs hj1 => .inl ⟨j, r, hj, hj1⟩) ?_ ?_
            · simp [PSys.run, PSys.step, hjob, hst, h.world, hw]
            · simp [Process.step, hd, hc, ht, hst, hw, PTask.respond]
          | panic =>
            refine key .dead .panicked rfl (fun s1 jobs hj1 => .inl ⟨j, hj, hj1⟩) ?_ ?_
            · simp [PSys.run, PSys.step, hjob, hst, h.world, hw]
            · simp [Process.step, hd, hc, ht, hst, hw, PTask.respond]
        | panicked =>
          refine key .dead .panicked rfl (fun s1 jobs hj1 => .inl ⟨j, hj, hj1⟩) ?_ ?_
          · simp [PSys.run, PSys.step, hjob, hst, h.world]
          · simp [Process.step, hd, hc, ht, hst]
        | _ => exact same h (by simp [takes]) (by simp [Process.step, hd, hc, ht, hst]) rfl
      | _ => exact same h (by simp [takes]) (by simp [Process.step, hd, hc, ht]) rfl
  | write i n =>
    refine same (S' := S) (y' := y.step sv allocOk (.write i n)) ?_ (by simp [takes]) rfl rfl
    simp only [Process.step, hd, Bool.false_eq_true, if_false]
    split
    · rename_i c hc
      split
      · refine h.put hc _ _ ?_ ?_
        · cases c.task <;> simp only [PTask.writeStep]
          split <;> rfl
        · intro s0 hat
          cases ht : c.task <;> rw [ht] at hat <;> try exact hat
          rename_i sent rest
          simp only [PTask.writeStep]
          split
          · exact hat
          · have : (sent ++ rest.take n) ++ rest.drop n = sent ++ rest := by simp
            show AnsweredBy sv z.jobs order i s0.bytes ((sent ++ rest.take n) ++ rest.drop n)
            rw [this]
            exact hat
      · exact h
    · exact h
  | writeErr i =>
    refine same (S' := S) (y' := y.step sv allocOk (.writeErr i)) ?_ (by simp [takes]) rfl rfl
    simp only [Process.step, hd, Bool.false_eq_true, if_false]
    split
    · rename_i c hc
      split
      · refine h.put hc _ _ ?_ ?_
        · cases c.task <;> rfl
        · intro s0 hat
          cases ht : c.task <;> rw [ht] at hat <;> try exact hat
          exact ⟨_, hat⟩
      · exact h
    · exact h
  | env f =>
    refine ⟨[.env f], [], ?_, rfl⟩
    have hs : y.step sv allocOk (.env f) = { y with world := f y.world } := by simp [Process.step, hd]
    rw [hs]
    simp only [takes, List.append_nil, List.filterMap_cons, PEvent.arrive?, List.filterMap_nil, PSys.run, List.foldl_cons,
      List.foldl_nil, PSys.step]
    exact ⟨by simp [h.world], h.workers, h.busy, h.jobs, h.nodup, h.arrived, h.reqs, h.len, h.conns⟩
  | exit =>
    refine same (S' := S) (y' := y.step sv allocOk .exit) ?_ (by simp [takes]) rfl rfl
    simp only [Process.step, hd, Bool.false_eq_true, if_false]
    split
    · exact ⟨h.world, h.workers, h.busy, h.jobs, h.nodup, h.arrived, h.reqs, h.len, h.conns⟩
    · exact h

end Octane
