import Verif.Props.Frame
import Verif.Props.Path
import Verif.Proof.Path
import Verif.Props.Robust
/-
C117: patterns that are spelled differently, or whose variables have other names, are the same registration.
-/
namespace Octane
open Spec
universe u
variable {W : Type u} {S : Type u}

/-- a segment of a pattern with its variable, if it is one, given another name -/
def Spec.rename (ρ : Str → Str) : Str → Str
  | ':' :: n => ':' :: ρ n
  | x => x

/-- `b` is the pattern `a` with its variables renamed by `ρ`, in whatever spelling: both climb above the root or
they name the same segments. -/
def Spec.SamePattern (ρ : Str → Str) (a b : Str) : Prop :=
  (Climbs (components a) ↔ Climbs (components b)) ∧
    (¬ Climbs (components a) → resolve (components b) = (resolve (components a)).map (rename ρ))

/-- handler `h'` reads variable `ρ n` where `h` reads `n`, and does the same otherwise -/
def Spec.ReadsAs (ρ : Str → Str) (h h' : Closure S) : Prop :=
  ∀ req vars s, h' ⟨req, vars.map fun e => (ρ e.1, e.2)⟩ s = h ⟨req, vars⟩ s

mutual
/-- one registration rewritten; a mounted router is rewritten inside -/
inductive Spec.Rewritten {S : Type u} (ρ : Str → Str) : Call S → Call S → Prop
  | route (v : Verb) (a b : Str) (h h' : Closure S) : SamePattern ρ a b → ReadsAs ρ h h' →
      Spec.Rewritten ρ (.route v a h) (.route v b h')
  | add (h h' : Closure S) : ReadsAs ρ h h' → Spec.Rewritten ρ (.add h) (.add h')
  | mount (cs ds : List (Call S)) (o o' : Router.AppendOrder S) : Spec.RewrittenL ρ cs ds →
      Spec.Rewritten ρ (.mount cs o) (.mount ds o')
inductive Spec.RewrittenL {S : Type u} (ρ : Str → Str) : List (Call S) → List (Call S) → Prop
  | nil : Spec.RewrittenL ρ [] []
  | cons {a b : Call S} {as bs : List (Call S)} : Spec.Rewritten ρ a b → Spec.RewrittenL ρ as bs →
      Spec.RewrittenL ρ (a :: as) (b :: bs)
end

/-! ## the pieces -/

theorem parse_components (s : Str) :
    (Path.parse s = none ↔ Climbs (components s)) ∧
      (¬ Climbs (components s) → Path.parse s = some (resolve (components s))) := by
  have h := C02_dotdot_rule (splitChar '/' s) (splitChar_ne_nil _ _) (splitChar_not_mem _ _)
  rw [splitChar_intercalate] at h
  rw [Path.components_eq]
  exact h

theorem rename_head (ρ : Str → Str) (x : Str) : (rename ρ x).head? = x.head? := by
  unfold rename
  split <;> rfl

theorem rename_plain (ρ : Str → Str) (x : Str) (h : x.head? ≠ some ':') : rename ρ x = x := by
  unfold rename
  split
  · simp at h
  · rfl

theorem rename_matches (ρ : Str → Str) (p q : List Str) : Matches (p.map (rename ρ)) q ↔ Matches p q := by
  unfold Matches
  rw [List.length_map]
  refine and_congr_right fun _ => ⟨fun h i a b ha hb => ?_, fun h i a b ha hb => ?_⟩
  · have := h i (rename ρ a) b (by rw [List.getElem?_map, ha]; rfl) hb
    rw [rename_head] at this
    by_cases hc : a.head? = some ':'
    · exact .inl hc
    · rw [rename_plain ρ a hc] at this
      exact this
  · rw [List.getElem?_map] at ha
    cases hp : p[i]? with
    | none => rw [hp] at ha; simp at ha
    | some x =>
      rw [hp] at ha
      simp only [Option.map_some, Option.some.injEq] at ha
      subst ha
      rw [rename_head]
      rcases h i x b hp hb with hc | hc
      · exact .inl hc
      · by_cases hx : x.head? = some ':'
        · exact .inl hx
        · rw [rename_plain ρ x hx]
          exact .inr hc

theorem rename_patMatch (uv : Bool) (ρ : Str → Str) (p q : List Str) :
    PatMatch uv (p.map (rename ρ)) q ↔ PatMatch uv p q := by
  unfold PatMatch
  cases uv with
  | true => exact rename_matches ρ p q
  | false =>
    simp only [Bool.false_eq_true, if_false]
    by_cases hc : ∀ s ∈ p, s.head? ≠ some ':'
    · have : p.map (rename ρ) = p := by
        conv => rhs; rw [← List.map_id p]
        exact List.map_congr_left fun s hs => rename_plain ρ s (hc s hs)
      rw [this]
    · refine ⟨fun h => absurd (fun s hs => ?_) hc, fun h => absurd h.2 hc⟩
      have := h.2 (rename ρ s) (List.mem_map_of_mem hs)
      rw [rename_head] at this
      exact this

theorem rename_insert {ρ : Str → Str} (hρ : ∀ a b, ρ a = ρ b → a = b) (m : HMap Str Str) (k v : Str) :
    HMap.insert (m.map fun e => (ρ e.1, e.2)) (ρ k) v = (HMap.insert m k v).map fun e => (ρ e.1, e.2) := by
  induction m with
  | nil => rfl
  | cons e m ih =>
    obtain ⟨k', v'⟩ := e
    simp only [List.map_cons, HMap.insert]
    by_cases h : k' = k
    · subst h; simp
    · rw [if_neg h, if_neg fun e => h (hρ _ _ e), ih]
      rfl

theorem rename_bindings {ρ : Str → Str} (hρ : ∀ a b, ρ a = ρ b → a = b) (p q : List Str) :
    bindings (p.map (rename ρ)) q = (bindings p q).map fun e => (ρ e.1, e.2) := by
  unfold bindings
  have : ∀ m : HMap Str Str,
      ((p.map (rename ρ)).zip q).foldl (fun m e => bindStep m e.1 e.2) (m.map fun e => (ρ e.1, e.2)) =
        ((p.zip q).foldl (fun m e => bindStep m e.1 e.2) m).map fun e => (ρ e.1, e.2) := by
    induction p generalizing q with
    | nil => intro m; rfl
    | cons a p ih =>
      intro m
      cases q with
      | nil => rfl
      | cons b q =>
        simp only [List.map_cons, List.zip_cons_cons, List.foldl_cons]
        rw [← ih]
        congr 1
        unfold bindStep rename
        cases a with
        | nil => rfl
        | cons c n =>
          by_cases hc : c = ':'
          · subst hc; exact rename_insert hρ m n b
          · split
            · rename_i heq; split at heq <;> simp_all
            · split <;> simp_all
  exact this []

/-- two logs of which one is the other rewritten -/
inductive RegsRewritten (ρ : Str → Str) : List (Reg S) → List (Reg S) → Prop
  | nil : RegsRewritten ρ [] []
  | on (m : RequestMethod) (p : PathBuf) (h h' : Closure S) (as bs : List (Reg S)) : ReadsAs ρ h h' → RegsRewritten ρ as bs →
      RegsRewritten ρ (⟨.on m p, h⟩ :: as) (⟨.on m (p.map (rename ρ)), h'⟩ :: bs)
  | anyMethod (p : PathBuf) (h h' : Closure S) (as bs : List (Reg S)) : ReadsAs ρ h h' → RegsRewritten ρ as bs →
      RegsRewritten ρ (⟨.anyMethod p, h⟩ :: as) (⟨.anyMethod (p.map (rename ρ)), h'⟩ :: bs)
  | everywhere (h h' : Closure S) (as bs : List (Reg S)) : ReadsAs ρ h h' → RegsRewritten ρ as bs →
      RegsRewritten ρ (⟨.everywhere, h⟩ :: as) (⟨.everywhere, h'⟩ :: bs)

theorem RegsRewritten.append {ρ : Str → Str} {as bs cs ds : List (Reg S)} (h : RegsRewritten ρ as bs)
    (h' : RegsRewritten ρ cs ds) : RegsRewritten ρ (as ++ cs) (bs ++ ds) := by
  induction h with
  | nil => exact h'
  | on m p h h' as bs hh _ ih => exact .on m p h h' _ _ hh ih
  | anyMethod p h h' as bs hh _ ih => exact .anyMethod p h h' _ _ hh ih
  | everywhere h h' as bs hh _ ih => exact .everywhere h h' _ _ hh ih

mutual
theorem logOf_rewritten {ρ : Str → Str} {a b : Call S} (h : Rewritten ρ a b) : RegsRewritten ρ (logOf a) (logOf b) := by
  cases h with
  | route v a b h h' hp hh =>
    obtain ⟨ha, ha'⟩ := parse_components a
    obtain ⟨hb, hb'⟩ := parse_components b
    simp only [logOf]
    by_cases hc : Climbs (components a)
    · rw [ha.2 hc, hb.2 (hp.1.1 hc)]
      exact .nil
    · rw [ha' hc, hb' fun e => hc (hp.1.2 e), hp.2 hc]
      cases v <;> first | exact .on _ _ _ _ _ _ hh .nil | exact .anyMethod _ _ _ _ _ hh .nil
  | add h h' hh => exact .everywhere _ _ _ _ hh .nil
  | mount cs ds o o' hl =>
    simp only [logOf]
    exact logOfL_rewritten hl
theorem logOfL_rewritten {ρ : Str → Str} {a b : List (Call S)} (h : RewrittenL ρ a b) :
    RegsRewritten ρ (logOfL a) (logOfL b) := by
  cases h with
  | nil => exact .nil
  | cons h hl =>
    simp only [logOfL]
    exact (logOf_rewritten h).append (logOfL_rewritten hl)
end

theorem RegsRewritten.length {ρ : Str → Str} {as bs : List (Reg S)} (h : RegsRewritten ρ as bs) : bs.length = as.length := by
  induction h <;> simp_all

theorem replay_rewritten {ρ : Str → Str} (hρ : ∀ a b, ρ a = ρ b → a = b) (uv : Bool) (req : Request)
    {as bs : List (Reg S)} (h : RegsRewritten ρ as bs) (s : S) : replay uv req bs s = replay uv req as s := by
  have vars : ∀ p : PathBuf, (if uv then bindings (p.map (rename ρ)) req.requestLine.path else []) =
      (if uv then bindings p req.requestLine.path else []).map fun e => (ρ e.1, e.2) := by
    intro p
    cases uv with
    | true => exact rename_bindings hρ p _
    | false => rfl
  have hits : ∀ p : PathBuf, decide (PatMatch uv (p.map (rename ρ)) req.requestLine.path) =
      decide (PatMatch uv p req.requestLine.path) := fun p => decide_eq_decide.2 (rename_patMatch uv ρ p _)
  induction h generalizing s with
  | nil => rfl
  | on m p h h' as bs hh _ ih =>
    simp only [replay, Target.applies, Target.vars, hits, vars, hh req _ s]
    simp only [ih]
    rfl
  | anyMethod p h h' as bs hh _ ih =>
    simp only [replay, Target.applies, Target.vars, hits, vars, hh req _ s]
    simp only [ih]
    rfl
  | everywhere h h' as bs hh _ ih =>
    have := hh req [] s
    simp only [List.map_nil] at this
    simp only [replay, Target.applies, Target.vars, this]
    simp only [ih]

/-! ## C117 -/

/-- C117: a server whose registrations are rewritten — patterns spelled in another way, variables given other
names that keep different ones different, the handlers reading them by those names, in mounted routers too — does
the same with every connection: same answer, same effects. -/
theorem C117_same (sv : Server W) (ρ : Str → Str) (hρ : ∀ a b, ρ a = ρ b → a = b)
    (calls calls' : List (Call (W × Response))) (hw : RewrittenL ρ calls calls')
    (hf : FairL calls) (hf' : FairL calls') (hn : (logOfL calls).length < 2 ^ 64)
    (hr : execL Router.new calls = .ok sv.router) :
    ∃ r', execL Router.new calls' = .ok r' ∧ ∀ w s, { sv with router := r' }.serve w s = sv.serve w s := by
  have hlog := logOfL_rewritten hw
  have hn' : (logOfL calls').length < 2 ^ 64 := by rw [hlog.length]; exact hn
  obtain ⟨a, ha, hra⟩ := C12_run_is_replay calls hf hn
  obtain ⟨r', hr', hrb⟩ := C12_run_is_replay calls' hf' hn'
  rw [hr] at ha
  injection ha with ha
  subst ha
  refine ⟨r', hr', fun w s => ?_⟩
  rw [serve_readRest, serve_readRest]
  show (readRest sv.feat sv.allocOk s (.head [])).bind _ = _
  cases hread : readRest sv.feat sv.allocOk s (.head []) with
  | panic => rfl
  | pending => rfl
  | abort => rfl
  | ok o =>
    cases o with
    | none => rfl
    | some req =>
      simp only [Io.bind_ok]
      congr 1
      rw [handle_spec, handle_spec]
      obtain ⟨q, n, hq, hw, -⟩ := readRest_received hread
      rcases hw.method with hm | ⟨-, hm⟩
      · have hall : req.requestLine.method ≠ .all := by
          intro e
          rw [e] at hm
          simp [methodTable] at hm
        have hrun : Router.run sv.feat.urlVariables r' req (w, Response.newEmpty) =
            Router.run sv.feat.urlVariables sv.router req (w, Response.newEmpty) := by
          rw [hra _ _ _ hall, hrb _ _ _ hall, replay_rewritten hρ _ _ hlog]
        show (if _ then _ else if _ then _ else (Router.run sv.feat.urlVariables r' req (w, Response.newEmpty)).bind _) = _
        rw [hrun]
        rfl
      · rw [if_pos hm, if_pos hm]
        rfl

mutual
/-- a registration program with `f` applied to the text of every pattern -/
def respell (f : Str → Str) : Call S → Call S
  | .route v a h => .route v (f a) h
  | .add h => .add h
  | .mount cs o => .mount (respellL f cs) o
def respellL (f : Str → Str) : List (Call S) → List (Call S)
  | [] => []
  | c :: cs => respell f c :: respellL f cs
end

mutual
theorem respell_rewritten (f : Str → Str) (hf : ∀ a, SamePattern id a (f a)) :
    (c : Call S) → Rewritten id c (respell f c)
  | .route v a h => .route v a (f a) h h (hf a) fun req vars s => by simp
  | .add h => .add h h fun req vars s => by simp
  | .mount cs o => .mount cs (respellL f cs) o o (respellL_rewritten f hf cs)
theorem respellL_rewritten (f : Str → Str) (hf : ∀ a, SamePattern id a (f a)) :
    (cs : List (Call S)) → RewrittenL id cs (respellL f cs)
  | [] => .nil
  | c :: cs => .cons (respell_rewritten f hf c) (respellL_rewritten f hf cs)
end

/-- Only the spelling: whatever way of writing patterns `f` puts in place of the one used, as long as it names the
same segments (slashes doubled, at the end or left out at the front, `.`, a name followed by `..`), every connection
is answered as before. -/
theorem C117_spelling (sv : Server W) (f : Str → Str)
    (h : ∀ a, (Climbs (components a) ↔ Climbs (components (f a))) ∧
      (¬ Climbs (components a) → resolve (components (f a)) = resolve (components a)))
    (calls : List (Call (W × Response))) (hf : FairL calls) (hf' : FairL (respellL f calls))
    (hn : (logOfL calls).length < 2 ^ 64) (hr : execL Router.new calls = .ok sv.router) :
    ∃ r', execL Router.new (respellL f calls) = .ok r' ∧
      ∀ w s, { sv with router := r' }.serve w s = sv.serve w s := by
  have hid : rename id = id := by
    funext x
    unfold rename
    split <;> rfl
  exact C117_same sv id (fun _ _ e => e) calls _
    (respellL_rewritten f (fun a => ⟨(h a).1, fun hc => by rw [hid, List.map_id]; exact (h a).2 hc⟩) calls) hf hf' hn hr

namespace PatternsExample

/-- answers with the length of variable `n`, or 99 without it -/
def say (n : Str) : Closure (Unit × Response) := fun mr s =>
  .ok ((s.1, { s.2 with contentLen := some (((HMap.get mr.vars n).map List.length).getD 99) }), .stop)

/-- variables get a `v` in front -/
def v (n : Str) : Str := 'v' :: n

theorem get_renamed (m : HMap Str Str) (n : Str) : HMap.get (m.map fun e => (v e.1, e.2)) (v n) = HMap.get m n := by
  induction m with
  | nil => rfl
  | cons e m ih =>
    obtain ⟨k, x⟩ := e
    simp only [List.map_cons, HMap.get]
    by_cases h : k = n
    · subst h; simp
    · rw [if_neg h, if_neg (by simp [v, h]), ih]

/-- the hypotheses of `C117_same`: `/a/:x/:y` as `//a/b/../:vx/./:vy/`, one of them in a mounted router -/
example : (∀ a b, v a = v b → a = b) ∧
    RewrittenL v
      [.route .get c!"/a/:x/:y" (say c!"y"), .mount [.route .addRoute c!"/:x" (say c!"x")] ⟨id, fun _ _ => id⟩]
      [.route .get c!"//a/b/../:vx/./:vy/" (say c!"vy"),
        .mount [.route .addRoute c!":vx" (say c!"vx")] ⟨List.reverse, fun _ _ => List.reverse⟩] := by
  have hs : ∀ n, ReadsAs v (say n) (say (v n)) := by
    intro n req vars s
    simp only [say, get_renamed]
  have hp : ∀ a b p, Path.parse a = some p → Path.parse b = some (p.map (rename v)) → SamePattern v a b := by
    intro a b p ha hb
    have hca : ¬ Climbs (components a) := fun h => by rw [(parse_components a).1.2 h] at ha; cases ha
    have hcb : ¬ Climbs (components b) := fun h => by rw [(parse_components b).1.2 h] at hb; cases hb
    refine ⟨⟨fun h => absurd h hca, fun h => absurd h hcb⟩, fun _ => ?_⟩
    rw [(parse_components a).2 hca, Option.some.injEq] at ha
    rw [(parse_components b).2 hcb, Option.some.injEq] at hb
    rw [ha, hb]
  refine ⟨fun a b h => by injection h, .cons (.route _ _ _ _ _ (hp _ _ [c!"a", c!":x", c!":y"] (by decide) (by decide)) (hs _))
    (.cons (.mount _ _ _ _ (.cons (.route _ _ _ _ _ (hp _ _ [c!":x"] (by decide) (by decide)) (hs _)) .nil)) .nil)⟩

/-- the hypothesis of `C117_spelling`: one more slash in front of every pattern -/
example : ∀ a : Str, (Climbs (components a) ↔ Climbs (components ('/' :: a))) ∧
    (¬ Climbs (components a) → resolve (components ('/' :: a)) = resolve (components a)) := by
  intro a
  have h : components ('/' :: a) = [] :: components a := by simp [components]
  rw [h]
  refine ⟨⟨fun ⟨k, hk⟩ => ⟨k + 1, ?_⟩, fun ⟨k, hk⟩ => ?_⟩, fun _ => ?_⟩
  · simpa [List.countP_cons, isName, isUp] using hk
  · cases k with
    | zero => simp at hk
    | succ k => exact ⟨k, by simpa [List.countP_cons, isName, isUp] using hk⟩
  · exact (C110_spellings [] (components a) c!"x" (by decide)).1

/-- answers with the number of variables -/
def count : Closure (Unit × Response) := fun mr s =>
  .ok ((s.1, { s.2 with contentLen := some mr.vars.length }), .stop)

end PatternsExample

open PatternsExample in
/-- Different variables must keep different names: with `:a` and `:b` both called `x` a handler that counts its
variables counts one less. -/
theorem C117_needed :
    ∃ (ρ : Str → Str) (calls calls' : List (Call (Unit × Response))) (r r' : Router (Unit × Response))
      (req : Request) (s : Unit × Response), RewrittenL ρ calls calls' ∧ FairL calls ∧ FairL calls' ∧
      execL Router.new calls = .ok r ∧ execL Router.new calls' = .ok r' ∧
      Router.run true r req s ≠ Router.run true r' req s := by
  have hp : Path.parse c!"/:a/:b" = some [c!":a", c!":b"] := by decide
  have hq : Path.parse c!"/:x/:x" = some [c!":x", c!":x"] := by decide
  obtain ⟨r, hr, hrun⟩ := C12_run_is_replay [.route .get c!"/:a/:b" count] (by simp [FairL, Fair])
    (by simp [logOfL, logOf, hp])
  obtain ⟨r', hr', hrun'⟩ := C12_run_is_replay [.route .get c!"/:x/:x" count] (by simp [FairL, Fair])
    (by simp [logOfL, logOf, hq])
  refine ⟨fun _ => c!"x", _, _, r, r',
    ⟨⟨.get, [c!"k", c!"mm"], .http11⟩, ⟨[], []⟩, [], []⟩, ((), Response.newEmpty), .cons (.route _ _ _ _ _ ?_ ?_) .nil,
    by simp [FairL, Fair], by simp [FairL, Fair], hr, hr', ?_⟩
  · have hca : ¬ Climbs (components c!"/:a/:b") := fun h => by rw [(parse_components _).1.2 h] at hp; cases hp
    have hcb : ¬ Climbs (components c!"/:x/:x") := fun h => by rw [(parse_components _).1.2 h] at hq; cases hq
    exact ⟨⟨fun h => absurd h hca, fun h => absurd h hcb⟩, fun _ => by decide⟩
  · intro q vars s
    simp [count]
  · rw [hrun _ _ _ (by decide), hrun' _ _ _ (by decide)]
    simp only [logOfL, logOf, hp, hq]
    decide
end Octane
