import Verif.Model.Examples2
import Verif.Props.Examples
/-
Helper lemmas about the programs in the documentation of the router and the request.
-/
namespace Octane
open Spec Query
variable {W : Type u} {α : Type}

/-- two routers that do the same with every request that can be read from this connection make the same server -/
theorem serve_congr_read (sv : Server W) (r' : Router (W × Response)) (w : W) (s : Sock)
    (h : ∀ req (q : Asked) n, q.In sv.feat.faithful sv.feat.cookies s.bytes n → q.Was sv.feat.cookies n req →
      req.requestLine.method ≠ .all → Router.run sv.feat.urlVariables r' req (w, Response.newEmpty) =
        Router.run sv.feat.urlVariables sv.router req (w, Response.newEmpty)) :
    { sv with router := r' }.serve w s = sv.serve w s := by
  rw [serve_readRest, serve_readRest]
  show (readRest sv.feat sv.allocOk s (.head [])).bind _ = _
  cases hread : readRest sv.feat sv.allocOk s (.head []) with
  | panic => rfl
  | pending => rfl
  | abort => rfl
  | ok o =>
    cases o with
    | none => rfl
    | some req =>
      simp only [Io.bind_ok]
      congr 1
      rw [handle_spec, handle_spec]
      obtain ⟨q, n, hq, hw, -⟩ := readRest_received hread
      rcases hw.method with hm | ⟨-, hm⟩
      · have hall : req.requestLine.method ≠ .all := by
          intro e
          rw [e] at hm
          simp [methodTable] at hm
        show (if _ then _ else if _ then _ else (Router.run sv.feat.urlVariables r' req (w, Response.newEmpty)).bind _) = _
        rw [h req q n hq hw hall]
        rfl
      · rw [if_pos hm, if_pos hm]
        rfl

theorem log_reading (g : MatchedRequest → Res α) (flow : Flow) (k : α → W × Response → Res (W × Response)) :
    logOfL (reading g flow k) = [⟨.on .get [], routeFlow flow fun mr st => (g mr).bind fun a => k a st⟩] := by
  have hp : Path.parse c!"/" = some [] := by decide +kernel
  simp only [reading, logOfL, logOf, hp, List.append_nil, Verb.target, Verb.method]

theorem reading_made (g : MatchedRequest → Res α) (flow : Flow) (k : α → W × Response → Res (W × Response)) :
    ∃ r, execL Router.new (reading g flow k) = .ok r := by
  obtain ⟨r, h, -⟩ := C12_run_is_replay (reading g flow k) (by simp [reading, FairL, Fair]) (by simp [log_reading])
  exact ⟨r, h⟩

/-- if what is read is the same `a` for every request that can reach the handler, the program does with every
connection what a program does that is simply told `a` -/
theorem reading_constant (sv : Server W) (g : MatchedRequest → Res α) (flow : Flow)
    (k : α → W × Response → Res (W × Response)) (hsv : execL Router.new (reading g flow k) = .ok sv.router)
    (a : α) (r' : Router (W × Response)) (hr' : execL Router.new (reading (fun _ => .ok a) flow k) = .ok r')
    (w : W) (s : Sock)
    (h : ∀ req (q : Asked) n vars, q.In sv.feat.faithful sv.feat.cookies s.bytes n → q.Was sv.feat.cookies n req →
      req.requestLine.method = .get → req.requestLine.path = [] → g ⟨req, vars⟩ = .ok a) :
    sv.serve w s = { sv with router := r' }.serve w s := by
  obtain ⟨x, hx, hrx⟩ := C12_run_is_replay (reading g flow k) (by simp [reading, FairL, Fair]) (by simp [log_reading])
  rw [hsv] at hx
  injection hx with hx
  subst hx
  obtain ⟨y, hy, hry⟩ := C12_run_is_replay (reading (fun _ => Res.ok a) flow k) (by simp [reading, FairL, Fair])
    (by simp [log_reading])
  rw [hr'] at hy
  injection hy with hy
  subst hy
  refine (serve_congr_read sv r' w s fun req q n hq hw hall => ?_).symm
  rw [hrx _ _ _ hall, hry _ _ _ hall, log_reading, log_reading]
  simp only [replay, Target.applies, decide_patMatch, routeFlow]
  split
  · rename_i happ
    rw [Bool.and_eq_true, decide_eq_true_eq] at happ
    have hpath : req.requestLine.path = [] := by
      have := happ.2
      revert this
      cases req.requestLine.path <;> simp [patMatchB]
    rw [h req q n _ hq hw happ.1.symm hpath]
  · rfl

/-- a name with an upper-case letter is no lower-case name -/
theorem joined_upper (hs : List (Str × Str)) (k : Str) (c : Char) (hc : c ∈ k) (hu : isUpper c) : joined hs k = none := by
  rw [joined_none]
  rintro x - rfl
  obtain ⟨d, -, rfl⟩ := List.mem_map.1 hc
  exact small_not_upper d hu

end Octane
