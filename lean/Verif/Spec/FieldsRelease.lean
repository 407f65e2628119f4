import Verif.Spec.RouterFields
import Verif.Spec.Wrap
/-
What a router holds after its public fields have been written, in a release build: numbers are counted modulo 2^64.
-/
namespace Octane.Spec
variable {S : Type u}

/-- the same handler, `k` numbers further, modulo 2^64 -/
def renumberR (k : Nat) (c : Closures S) : Closures S := ⟨c.closure, (c.index + k) % 2 ^ 64⟩

mutual
/-- what each call does to what a router holds -/
def tableR (T : Holding S) : FCall S → Holding S
  | .route v path h =>
    match Path.parse path with
    | none => T
    | some p =>
      ⟨fun m => if m = v.method then T.trees m ++ [⟨p, ⟨h, T.counter⟩⟩] else T.trees m, T.middlewares,
        (T.counter + 1) % 2 ^ 64⟩
  | .add h => ⟨T.trees, T.middlewares ++ [⟨h, T.counter⟩], (T.counter + 1) % 2 ^ 64⟩
  | .counter n => table T (.counter n)
  | .middlewares f => table T (.middlewares f)
  | .removeTree m => table T (.removeTree m)
  | .swapTrees m m' => table T (.swapTrees m m')
  | .insertTree m path c => table T (.insertTree m path c)
  | .remakeTree ord m g => table T (.remakeTree ord m g)
  | .mount calls _ =>
    ⟨fun m => T.trees m ++ ((tableRL .empty calls).trees m).map fun e => ⟨e.origPath, renumberR T.counter e.data⟩,
      T.middlewares ++ (tableRL .empty calls).middlewares.map (renumberR T.counter),
      (T.counter + (tableRL .empty calls).counter) % 2 ^ 64⟩
def tableRL (T : Holding S) : List (FCall S) → Holding S
  | [] => T
  | x :: xs => tableRL (tableR T x) xs
end

mutual
/-- executing such a program on the modelled code of a release build -/
def execFR (r : Router S) : FCall S → Res (Router S)
  | .route v path h => Router.injectWrapped r path h v.method
  | .add h => .ok (Router.addWrapped r h)
  | .counter n => .ok (Router.writeCounter r n)
  | .middlewares f => .ok (Router.writeMiddlewares r f)
  | .removeTree m => .ok (Router.removeTree r m)
  | .swapTrees m m' => .ok (Router.swapTrees r m m')
  | .insertTree m path c => Router.insertTree r m path c
  | .remakeTree ord m g => Router.remakeTree ord r m g
  | .mount calls ord => (execFRL Router.new calls).bind fun sub => Router.appendWrapped ord r sub
def execFRL (r : Router S) : List (FCall S) → Res (Router S)
  | [] => .ok r
  | x :: xs => (execFR r x).bind fun r' => execFRL r' xs
end

end Octane.Spec
