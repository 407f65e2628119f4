import Verif.Props.OneEntry
import Verif.Props.Programs
/-
C132: an application that sends the files of a directory, named by a URL variable.
-/
namespace Octane
open Spec
variable {W S : Type u}

/-- Two registrations for the same requests, with handlers that do the same whenever every URL variable is the name
of one entry of a directory. -/
def Spec.AlikeOnEntries (e e' : Reg S) : Prop :=
  e.target = e'.target ∧ ∀ req vars s, (∀ n v, HMap.get vars n = some v → OneEntry v) →
    e.handler ⟨req, vars⟩ s = e'.handler ⟨req, vars⟩ s

/-- The same registrations in the same order, up to that. -/
inductive Spec.AlikeLogs : List (Reg S) → List (Reg S) → Prop where
  | nil : AlikeLogs [] []
  | cons {e e' : Reg S} {l l' : List (Reg S)} : AlikeOnEntries e e' → AlikeLogs l l' → AlikeLogs (e :: l) (e' :: l')

theorem Spec.AlikeLogs.refl (l : List (Reg S)) : AlikeLogs l l := by
  induction l with
  | nil => exact .nil
  | cons e l ih => exact .cons ⟨rfl, fun _ _ _ _ => rfl⟩ ih

theorem Spec.AlikeLogs.append {a a' b b' : List (Reg S)} (h : AlikeLogs a a') (h' : AlikeLogs b b') :
    AlikeLogs (a ++ b) (a' ++ b') := by
  induction h with
  | nil => exact h'
  | cons h1 _ ih => exact .cons h1 ih

theorem Spec.AlikeLogs.length {a a' : List (Reg S)} (h : AlikeLogs a a') : a.length = a'.length := by
  induction h with
  | nil => rfl
  | cons _ _ ih => simp [ih]

theorem bindings_mem (p q : List Str) (n v : Str) (h : HMap.get (bindings p q) n = some v) : v ∈ q := by
  have key : ∀ (l : List (Str × Str)) (m : HMap Str Str), (∀ e ∈ l, e.2 ∈ q) →
      (∀ n v, HMap.get m n = some v → v ∈ q) →
      ∀ n v, HMap.get (l.foldl (fun m e => bindStep m e.1 e.2) m) n = some v → v ∈ q := by
    intro l
    induction l with
    | nil => intro m _ hm; exact hm
    | cons e l ih =>
      intro m hl hm
      refine ih _ (fun e he => hl e (List.mem_cons_of_mem _ he)) ?_
      intro n v hv
      simp only [bindStep] at hv
      split at hv
      · rw [HMap.get_insert] at hv
        split at hv
        · simp only [Option.some.injEq] at hv
          rw [← hv]
          exact hl e List.mem_cons_self
        · exact hm n v hv
      · exact hm n v hv
  refine key (p.zip q) [] ?_ (by simp [HMap.get]) n v h
  rintro ⟨a, b⟩ he
  exact (List.of_mem_zip he).2

theorem vars_entries (uv : Bool) (t : Target) (path : PathBuf) (hp : ∀ v ∈ path, OneEntry v) (n v : Str)
    (h : HMap.get (t.vars uv path) n = some v) : OneEntry v := by
  have key : ∀ p, HMap.get (if uv then bindings p path else []) n = some v → OneEntry v := by
    intro p h
    cases uv with
    | false => simp [HMap.get] at h
    | true => exact hp v (bindings_mem p path n v h)
  cases t with
  | everywhere => simp [Target.vars, HMap.get] at h
  | on m p => exact key p h
  | anyMethod p => exact key p h

theorem replay_alikeLogs (uv : Bool) (req : Request) (hp : ∀ v ∈ req.requestLine.path, OneEntry v)
    {l l' : List (Reg S)} (h : AlikeLogs l l') (s : S) : replay uv req l s = replay uv req l' s := by
  induction h generalizing s with
  | nil => rfl
  | cons h _ ih =>
    obtain ⟨h1, h2⟩ := h
    simp only [replay, ← h1, ih]
    rw [h2 req _ s (fun n v hv => vars_entries uv _ _ hp n v hv)]

theorem readRest_reads {feat : Features} {allocOk : Nat → Bool} {s : Sock} {req : Request}
    (h : readRest feat allocOk s (.head []) = .ok (some req)) : Reads feat allocOk s req := by
  have h' : (readHead s).bind (headRest feat allocOk) = .ok (some req) := h
  cases hh : readHead s with
  | panic => rw [hh] at h'; cases h'
  | pending => rw [hh] at h'; cases h'
  | abort => rw [hh] at h'; cases h'
  | ok o =>
    rw [hh, Io.bind_ok] at h'
    cases o with
    | badRequest => cases h'
    | head hdrs line rem reader =>
      simp only [headRest] at h'
      split at h'
      · cases h'
      · rename_i H hH
        split at h'
        · cases h'
        · rename_i rl hrl
          exact ⟨hdrs, line, rem, reader, H, rl, hh, unwrap_ok hH, unwrap_ok hrl, h'⟩

/-- C132, for any application: if the handlers of two applications do the same with variables that are names of
entries, then no client can tell them apart, whatever it sends: same answer, same effects, same end. -/
theorem C132_same (sv : Server W) (calls calls' : List (Call (W × Response)))
    (h : AlikeLogs (logOfL calls) (logOfL calls'))
    (hf : FairL calls) (hf' : FairL calls') (hn : (logOfL calls).length < 2 ^ 64)
    (hr : execL Router.new calls = .ok sv.router) :
    ∃ r', execL Router.new calls' = .ok r' ∧ ∀ w s, { sv with router := r' }.serve w s = sv.serve w s := by
  have hn' : (logOfL calls').length < 2 ^ 64 := by rw [← h.length]; exact hn
  obtain ⟨a, ha, hra⟩ := C12_run_is_replay calls hf hn
  obtain ⟨r', hr', hrb⟩ := C12_run_is_replay calls' hf' hn'
  rw [hr] at ha
  injection ha with ha
  subst ha
  refine ⟨r', hr', fun w s => ?_⟩
  cases hread : readRest sv.feat sv.allocOk s (.head []) with
  | ok o =>
    cases o with
    | some req =>
      have hreads := readRest_reads hread
      have hp := path_entries hreads
      rw [serve_reads (sv := { sv with router := r' }) hreads, serve_reads hreads, handle_spec, handle_spec]
      obtain ⟨q, n, hq, hw, -⟩ := readRest_received hread
      rcases hw.method with hm | ⟨-, hm⟩
      · have hall : req.requestLine.method ≠ .all := by
          intro e
          rw [e] at hm
          simp [methodTable] at hm
        have hrun : Router.run sv.feat.urlVariables r' req (w, Response.newEmpty) =
            Router.run sv.feat.urlVariables sv.router req (w, Response.newEmpty) := by
          rw [hra _ _ _ hall, hrb _ _ _ hall, replay_alikeLogs _ _ hp h]
        congr 1
        show (if _ then _ else if _ then _ else (Router.run sv.feat.urlVariables r' req (w, Response.newEmpty)).bind _) = _
        rw [hrun]
        rfl
      · congr 1
        rw [if_pos hm, if_pos hm]
        rfl
    | none => rw [serve_readRest, serve_readRest, hread]; rfl
  | _ => rw [serve_readRest, serve_readRest, hread]; rfl

/-- The handler `|req, res| { let _ = res.send_file(&format!("{}/{}", dir, req.vars.get(name).unwrap())); Flow::Stop }`:
`send_file` as in `src/responder.rs:221-231`, the variables as in `src/request.rs:423-430`. -/
def Spec.sendsFrom (U : Unicode) (fs : Str → FileAt) (dir name : Str) : Closure (W × Response) := fun mr st =>
  match HMap.get mr.vars name with
  | none => .panic
  | some v => (st.2.sendFile U fs (dir ++ '/' :: v)).bind fun p => .ok ((st.1, p.1), .stop)

/-- C132: an application that sends the files of a directory, among whatever else it does. If two file systems have
the same under the names of entries of the directory, no client can tell one from the other. -/
theorem C132_files (sv : Server W) (pre post : List (Call (W × Response))) (verb : Verb) (pattern dir name : Str)
    (fs fs' : Str → FileAt) (h : ∀ v, OneEntry v → fs (dir ++ '/' :: v) = fs' (dir ++ '/' :: v))
    (hf : FairL (pre ++ post))
    (hn : (logOfL (pre ++ .route verb pattern (sendsFrom sv.U fs dir name) :: post)).length < 2 ^ 64)
    (hr : execL Router.new (pre ++ .route verb pattern (sendsFrom sv.U fs dir name) :: post) = .ok sv.router) :
    ∃ r', execL Router.new (pre ++ .route verb pattern (sendsFrom sv.U fs' dir name) :: post) = .ok r' ∧
      ∀ w s, { sv with router := r' }.serve w s = sv.serve w s := by
  obtain ⟨f1, f2⟩ := (FairL_append pre post).1 hf
  have hfair : ∀ fs, FairL (pre ++ .route verb pattern (sendsFrom sv.U fs dir name) :: post) := fun fs =>
    (FairL_append _ _).2 ⟨f1, by simp only [FairL, Fair]; exact ⟨trivial, f2⟩⟩
  refine C132_same sv _ _ ?_ (hfair fs) (hfair fs') hn hr
  rw [logOfL_append, logOfL_append]
  refine (AlikeLogs.refl _).append ?_
  simp only [logOfL]
  refine AlikeLogs.append ?_ (AlikeLogs.refl _)
  simp only [logOf]
  cases Path.parse pattern with
  | none => exact .nil
  | some p =>
    refine .cons ⟨rfl, fun req vars s hv => ?_⟩ .nil
    simp only [sendsFrom]
    cases hg : HMap.get vars name with
    | none => rfl
    | some v =>
      simp only [Response.sendFile, handleFile, h v (hv name v hg)]

/-- Where a path leads (without symbolic links): from the root if it begins with a slash, else from the working
directory, name by name. A place is the list of names from the root. -/
def Spec.Leads (cwd : List Str) (path : Str) (place : List Str) : Prop :=
  (visits (if path.head? = some '/' then [] else cwd) (components path)).getLast? = some place

/-- The file system `fs` has at every path what the disk has at the place where the path leads. -/
def Spec.OnDisk (cwd : List Str) (disk : List Str → FileAt) (fs : Str → FileAt) : Prop :=
  ∀ path place, Leads cwd path place → fs path = disk place

/-- So a client learns nothing about any file that is not in the directory: two disks that have the same entries in
it, and may differ everywhere else (in the directories above, beside and below), cannot be told apart. -/
theorem C132_directory (sv : Server W) (pre post : List (Call (W × Response))) (verb : Verb) (pattern dir name : Str)
    (cwd place : List Str) (disk disk' : List Str → FileAt) (fs fs' : Str → FileAt) (hne : dir ≠ [])
    (hd : Leads cwd dir place) (hfs : OnDisk cwd disk fs) (hfs' : OnDisk cwd disk' fs')
    (h : ∀ v, disk (place ++ [v]) = disk' (place ++ [v]))
    (hf : FairL (pre ++ post))
    (hn : (logOfL (pre ++ .route verb pattern (sendsFrom sv.U fs dir name) :: post)).length < 2 ^ 64)
    (hr : execL Router.new (pre ++ .route verb pattern (sendsFrom sv.U fs dir name) :: post) = .ok sv.router) :
    ∃ r', execL Router.new (pre ++ .route verb pattern (sendsFrom sv.U fs' dir name) :: post) = .ok r' ∧
      ∀ w s, { sv with router := r' }.serve w s = sv.serve w s := by
  refine C132_files sv pre post verb pattern dir name fs fs' (fun v hv => ?_) hf hn hr
  have hl : Leads cwd (dir ++ '/' :: v) (place ++ [v]) := by
    have e : (dir ++ '/' :: v).head? = dir.head? := by
      cases dir with
      | nil => exact absurd rfl hne
      | cons c l => rfl
    unfold Leads at hd ⊢
    rw [e]
    exact C131_inside v hv _ dir place hd
  rw [hfs _ _ hl, hfs' _ _ hl, h]

namespace FilesExample

/-- the file system of a disk, for a working directory -/
def over (cwd : List Str) (disk : List Str → FileAt) (path : Str) : FileAt :=
  disk ((visits (if path.head? = some '/' then [] else cwd) (components path)).getLast?.getD [])

theorem over_onDisk (cwd : List Str) (disk : List Str → FileAt) : OnDisk cwd disk (over cwd disk) := by
  intro path place h
  unfold Leads at h
  simp only [over, h, Option.getD_some]

/-- a page in the directory, and two files outside it -/
def disk (secret : Bytes) : List Str → FileAt := fun p =>
  if p = [c!"www", c!"pub", c!"a.html"] then .regular (utf8 c!"hello") 5
  else if p = [c!"www", c!"key"] ∨ p = [c!"www", c!"pub", c!"old", c!"key"] then .regular secret secret.length
  else .cannotOpen

def calls (fs : Str → FileAt) : List (Call (Unit × Response)) :=
  [.route .get c!"/files/:name" (sendsFrom Unicode.asciiOnly fs c!"pub" c!"name")]

/-- whatever the client sends, what is in the two files outside does not matter -/
example (a b : Bytes) : ∃ r r', execL Router.new (calls (over [c!"www"] (disk a))) = .ok r ∧
    execL Router.new (calls (over [c!"www"] (disk b))) = .ok r' ∧
    ∀ s, { empty with router := r }.serve () s = { empty with router := r' }.serve () s := by
  obtain ⟨r, hr, -⟩ := C12_run_is_replay (calls (over [c!"www"] (disk a)))
    (by simp [calls, FairL, Fair]) (by simp [calls, logOfL, logOf]; split <;> simp)
  obtain ⟨r', h1, h2⟩ := C132_directory { empty with router := r } [] [] .get c!"/files/:name" c!"pub" c!"name"
    [c!"www"] [c!"www", c!"pub"] (disk a) (disk b) _ (over [c!"www"] (disk b)) (by decide) (by unfold Leads; decide)
    (over_onDisk _ (disk a)) (over_onDisk _ _)
    (fun v => by simp [disk])
    trivial (by simp [logOfL, logOf]; split <;> simp) hr
  exact ⟨r, r', hr, h1, fun s => (h2 () s).symm⟩

/-- the files do differ for one who may name them freely -/
example : over [c!"www"] (disk [1]) c!"pub/../key" ≠ over [c!"www"] (disk [2]) c!"pub/../key" := by decide

end FilesExample

end Octane
