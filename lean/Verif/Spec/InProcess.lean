import Verif.Spec.Everywhere
/-
Specification for C166: tables that can stand for each other in the whole process.
-/
namespace Octane.Spec

/-- Two tables can stand for each other in the whole process as long as the handlers with these names never hand on:
whatever handlers the names stand for otherwise, whatever they share, however many threads there are and whatever
happens in whatever order, the two processes go through the same states. -/
def Table.InterchangeableIn (stops : Nat → Bool) (feat : Features) (T T' : Table) : Prop :=
  ∀ (W : Type) (sv sv' : PServer W), sv.feat = feat → ButRouter sv sv' → ∀ handlers : Nat → PClosure W,
    (∀ n, PByName (handlers n)) → (∀ n, stops n = true → ∀ mr res, NeverOn (handlers n mr res)) →
    SetUp sv (T.plog handlers) → SetUp sv' (T'.plog handlers) →
    ∀ (allocOk : Nat → Bool) (w0 : W) (workers : Nat) (tlsFeature tlsOk plainOk : Bool) (evs : List (Happening W)),
      (Process.start w0 workers tlsFeature tlsOk plainOk).run sv' allocOk evs =
        (Process.start w0 workers tlsFeature tlsOk plainOk).run sv allocOk evs

/-- The handler that notes its name and its variables in the shared state, in one access, and hands on unless it is one
of those that do not. -/
def pnoting (stops : Nat → Bool) (n : Nat) : PClosure Notes := fun mr res =>
  .act (· ++ [(n, fun k => mr.vars.get k)]) fun _ => .ret (res, if stops n then .stop else .next)

end Octane.Spec
