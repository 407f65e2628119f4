import Verif.Props.Everywhere
import Verif.Props.Life
/-
C165 for the whole life of an application: start-up and process together.
-/
namespace Octane
open Spec Query
universe u
variable {W : Type u}

/-- two servers that treat every request that can be received alike do the same in every life -/
theorem life_congr (cfg : BootCfg) (sv sv' : PServer W) (hf : sv'.feat = sv.feat)
    (hw : ∀ w r, sv'.write w r = sv.write w r) (allocOk : Nat → Bool) (w0 : W) (workers : Nat)
    (h : ∀ s req reads, Received sv.feat.faithful sv.feat.cookies s req → sv'.stage req reads = sv.stage req reads)
    (evs : List (LifeEvent W)) :
    (Life.start w0 workers).run cfg sv' allocOk evs = (Life.start w0 workers).run cfg sv allocOk evs := by
  have key : ∀ pre post : List (LifeEvent W),
      ((Life.start w0 workers).run cfg sv allocOk pre).run cfg sv' allocOk post =
        ((Life.start w0 workers).run cfg sv allocOk pre).run cfg sv allocOk post := by
    intro pre post
    induction post generalizing pre with
    | nil => rfl
    | cons e post ih =>
      have hstep : Life.step cfg sv' allocOk ((Life.start w0 workers).run cfg sv allocOk pre) e =
          Life.step cfg sv allocOk ((Life.start w0 workers).run cfg sv allocOk pre) e := by
        cases e with
        | boot e => rfl
        | happens e =>
          cases hd : ((Life.start w0 workers).run cfg sv allocOk pre).proc.dead with
          | true => simp [Life.step, hd]
          | false =>
            obtain ⟨-, c2, c3, -, -⟩ := C144_process cfg sv allocOk w0 workers pre
            rw [hd] at c3
            obtain ⟨more, ord, inv, -⟩ := (ProcInv.start (sv := sv) (allocOk := allocOk) w0 workers cfg.tls _ _).run _ c3.symm
            have := step_congr sv sv' hf hw allocOk ((Life.start w0 workers).run cfg sv allocOk pre).proc
              (fun i c req reads hc ht => by
                rw [c2] at hc
                obtain ⟨s0, -, hat⟩ := inv.conns i c hc
                rw [ht] at hat
                exact h s0 req reads hat.1) e
            simp only [Life.step, hd, Bool.false_eq_true, if_false, this]
      have h2 := ih (pre ++ [e])
      simp only [Life.run, List.foldl_append, List.foldl_cons, List.foldl_nil] at h2 hstep ⊢
      rw [hstep]
      exact h2
  exact key [] evs

/-- C165, the whole life: two servers whose registrations make the same of every request that can be received go
through the same states from the start of the application on, the steps of the start-up included. -/
theorem C165_life (cfg : BootCfg) {sv sv' : PServer W} (ha : ButRouter sv sv') {log log' : List (PReg W)}
    (hs : SetUp sv log) (hs' : SetUp sv' log') (allocOk : Nat → Bool) (w0 : W) (workers : Nat)
    (h : ∀ (q : Asked) n bytes m, q.In sv.feat.faithful sv.feat.cookies bytes n → (q.method, m) ∈ methodTable →
      applying sv.feat.urlVariables m (resolve q.pieces) (log'.map PReg.reg) =
        applying sv.feat.urlVariables m (resolve q.pieces) (log.map PReg.reg))
    (evs : List (LifeEvent W)) :
    (Life.start w0 workers).run cfg sv' allocOk evs = (Life.start w0 workers).run cfg sv allocOk evs := by
  refine life_congr cfg sv sv' ha.feat (write_butRouter ha) allocOk w0 workers
    (stage_replay ha hs hs' fun q n bytes req st hq hw hm => ?_) evs
  rw [replay_applying, replay_applying _ _ (log.map PReg.reg), hw.path, h q n bytes _ hq hm]

/-- C165, the whole life, for tables that can stand for each other on single connections. -/
theorem C165_life_tables (cfg : BootCfg) (stops : Nat → Bool) {sv sv' : PServer W} (ha : ButRouter sv sv')
    (T T' : Table) (hT : T.Good) (hT' : T'.Good) (h : T.InterchangeableWith stops sv.feat T')
    (handlers : Nat → PClosure W) (hb : ∀ n, PByName (handlers n))
    (hst : ∀ n, stops n = true → ∀ mr res, NeverOn (handlers n mr res)) (hs : SetUp sv (T.plog handlers))
    (hs' : SetUp sv' (T'.plog handlers)) (allocOk : Nat → Bool) (w0 : W) (workers : Nat) (evs : List (LifeEvent W)) :
    (Life.start w0 workers).run cfg sv' allocOk evs = (Life.start w0 workers).run cfg sv allocOk evs :=
  life_congr cfg sv sv' ha.feat (write_butRouter ha) allocOk w0 workers
    (stage_replay ha hs hs' (replay_tables stops T T' hT hT' h handlers hb hst)) evs

namespace InLifeExample
open StoppersExample EverywhereExample

/-- `/user/old` behind `/user/:id` makes no difference to any life of the application -/
example (cfg : BootCfg) : ∃ r r', SetUp (having r) (behind.plog counting) ∧ SetUp (having r') (pages.plog counting) ∧
    ∀ evs, (Life.start 0 2).run cfg (having r') (fun _ => true) evs =
      (Life.start 0 2).run cfg (having r) (fun _ => true) evs := by
  obtain ⟨r, hr⟩ := having_setUp behind behind_good
  obtain ⟨r', hr'⟩ := having_setUp pages pages_good
  exact ⟨r, r', hr, hr', fun evs => C165_life_tables cfg (fun _ => true) (having_alike r r') behind pages behind_good
    pages_good ((C164_decides _ .default behind pages behind_good pages_good).1 (by decide +kernel)) counting
    counting_byName (fun n _ => counting_stops n) hr hr' _ _ _ evs⟩

end InLifeExample

end Octane
