import Verif.Spec.Router
import Verif.Model.RouterFields
/-
What a router holds after its public fields have been written, and what it runs.
-/
namespace Octane.Spec
variable {S : Type u}

/-- A program that sets up a router and writes its public fields. -/
inductive FCall (S : Type u) where
  | route (v : Verb) (path : Str) (h : Closure S)
  | add (h : Closure S)
  | counter (n : Nat)
  | middlewares (f : List (Closures S) → List (Closures S))
  | removeTree (m : RequestMethod)
  | swapTrees (m m' : RequestMethod)
  | insertTree (m : RequestMethod) (path : Str) (c : Closures S)
  | remakeTree (ord : PathNode.Order (Closures S)) (m : RequestMethod)
      (g : PathData (Closures S) → Option (PathData (Closures S)))
  | mount (calls : List (FCall S)) (ord : Router.AppendOrder S)

/-- What a router holds: for every method (and `All`) patterns with numbered handlers, the numbered handlers without a
path, and the counter. -/
structure Holding (S : Type u) where
  trees : RequestMethod → List (PathData (Closures S))
  middlewares : List (Closures S)
  counter : Nat

def Holding.empty : Holding S := ⟨fun _ => [], [], 0⟩

/-- the same handler, `k` numbers further -/
def renumber (k : Nat) (c : Closures S) : Closures S := ⟨c.closure, c.index + k⟩

mutual
/-- what each call does to it -/
def table (T : Holding S) : FCall S → Holding S
  | .route v path h =>
    match Path.parse path with
    | none => T
    | some p =>
      ⟨fun m => if m = v.method then T.trees m ++ [⟨p, ⟨h, T.counter⟩⟩] else T.trees m, T.middlewares, T.counter + 1⟩
  | .add h => ⟨T.trees, T.middlewares ++ [⟨h, T.counter⟩], T.counter + 1⟩
  | .counter n => ⟨T.trees, T.middlewares, n⟩
  | .middlewares f => ⟨T.trees, f T.middlewares, T.counter⟩
  | .removeTree m => ⟨fun x => if x = m then [] else T.trees x, T.middlewares, T.counter⟩
  | .swapTrees m m' =>
    ⟨fun x => if x = m then T.trees m' else if x = m' then T.trees m else T.trees x, T.middlewares, T.counter⟩
  | .insertTree m path c =>
    match Path.parse path with
    | none => T
    | some p => ⟨fun x => if x = m then T.trees x ++ [⟨p, c⟩] else T.trees x, T.middlewares, T.counter⟩
  | .remakeTree _ m g =>
    ⟨fun x => if x = m then (T.trees x).filterMap g else T.trees x, T.middlewares, T.counter⟩
  | .mount calls _ =>
    ⟨fun m => T.trees m ++ ((tableL .empty calls).trees m).map fun e => ⟨e.origPath, renumber T.counter e.data⟩,
      T.middlewares ++ (tableL .empty calls).middlewares.map (renumber T.counter),
      T.counter + (tableL .empty calls).counter⟩
def tableL (T : Holding S) : List (FCall S) → Holding S
  | [] => T
  | x :: xs => tableL (table T x) xs
end

mutual
/-- the enumeration orders are permutations, and paths come from paths: `PathBuf` has no public field -/
def FairF : FCall S → Prop
  | .mount calls ord =>
    FairFL calls ∧ (∀ m, (ord.outer m).Perm m) ∧ (∀ meth t m, (ord.inner meth t m).Perm m)
  | .remakeTree ord _ g => (∀ t m, (ord t m).Perm m) ∧
    ∀ d d', g d = some d' → d'.origPath = d.origPath ∨ ∃ s, Path.parse s = some d'.origPath
  | _ => True
def FairFL : List (FCall S) → Prop
  | [] => True
  | x :: xs => FairF x ∧ FairFL xs
end

/-- all numbers of what a router holds, counted from `k`, fit into 64 bits -/
def Holding.Fits (k : Nat) (T : Holding S) : Prop :=
  (∀ m, ∀ e ∈ T.trees m, e.data.index + k < 2 ^ 64) ∧ (∀ c ∈ T.middlewares, c.index + k < 2 ^ 64) ∧
    k + T.counter < 2 ^ 64

mutual
/-- no addition overflows -/
def FieldFits (T : Holding S) : FCall S → Prop
  | .route _ path _ => Path.parse path ≠ none → T.counter + 1 < 2 ^ 64
  | .add _ => T.counter + 1 < 2 ^ 64
  | .mount calls _ => FieldFitsL .empty calls ∧ (tableL .empty calls).Fits T.counter
  | _ => True
def FieldFitsL (T : Holding S) : List (FCall S) → Prop
  | [] => True
  | x :: xs => FieldFits T x ∧ FieldFitsL (table T x) xs
end

mutual
/-- executing such a program on the modelled code -/
def execF (r : Router S) : FCall S → Res (Router S)
  | .route v path h => Router.injectChecked r path h v.method
  | .add h => Router.addChecked r h
  | .counter n => .ok (Router.writeCounter r n)
  | .middlewares f => .ok (Router.writeMiddlewares r f)
  | .removeTree m => .ok (Router.removeTree r m)
  | .swapTrees m m' => .ok (Router.swapTrees r m m')
  | .insertTree m path c => Router.insertTree r m path c
  | .remakeTree ord m g => Router.remakeTree ord r m g
  | .mount calls ord => (execFL Router.new calls).bind fun sub => Router.appendChecked ord r sub
def execFL (r : Router S) : List (FCall S) → Res (Router S)
  | [] => .ok r
  | x :: xs => (execF r x).bind fun r' => execFL r' xs
end

/-- the handlers of a tree whose pattern matches the path, with the variables they get -/
def due (uv : Bool) (q : PathBuf) (l : List (PathData (Closures S))) : List (MatchedPath (Closures S)) :=
  (l.filter fun e => decide (PatMatch uv e.origPath q)).map fun e =>
    ⟨if uv then bindings e.origPath q else [], e.data⟩

/-- the handlers without a path, which get no variables -/
def always (l : List (Closures S)) : List (MatchedPath (Closures S)) := l.map fun c => ⟨[], c⟩

/-- the smaller number first; of two equal ones the left -/
def before (a b : MatchedPath (Closures S)) : Bool := decide (a.data.index ≤ b.data.index)

/-- running handlers one after the other until one stops or panics -/
def runDue (req : Request) : List (MatchedPath (Closures S)) → S → Res S
  | [], s => .ok s
  | x :: xs, s =>
    match x.data.closure ⟨req, x.vars⟩ s with
    | .panic => .panic
    | .ok (s', .stop) => .ok s'
    | .ok (s', .next) => runDue req xs s'

end Octane.Spec
