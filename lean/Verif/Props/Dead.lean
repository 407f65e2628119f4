import Verif.Proof.Dead
/-
C155: a registration can never be called exactly if it cannot be asked for or stands behind a stopping one that is at
least as general.
-/
namespace Octane
open Spec Query
universe u
variable {W : Type u} {S : Type u}

/-- the segments of the path of a request have no blank and no CRLF in them -/
theorem asked_segments {faithful cookies : Bool} {bytes : Bytes} {q : Asked} {n : Nat}
    (h : q.In faithful cookies bytes n) : ∀ x ∈ resolve q.pieces, ' ' ∉ x ∧ ¬ Occurs x crlf := by
  obtain ⟨text, line, hdrs, -, h2, ⟨first, more, e, hb, -⟩, -⟩ := h
  intro x hx
  have hx := resolve_mem _ _ hx
  have hline : ¬ Occurs line crlf := by
    rintro ⟨j, hj⟩
    have hj2 := hj
    obtain ⟨a, b, e1, e2⟩ := hj2
    have hlt : j < line.length := by rw [e1, ← e2]; simp [crlf]
    apply h2.2 j hlt
    rw [h2.1, List.append_assoc]
    exact hj.append _
  have hin : x <:+: ['/'].intercalate q.pieces := by
    have : ∀ ps : List Str, x ∈ ps → x <:+: ['/'].intercalate ps := by
      intro ps
      induction ps with
      | nil => simp
      | cons p ps ih =>
        intro hm
        cases ps with
        | nil =>
          rw [List.mem_singleton.1 hm]
          simp [List.intercalate]
        | cons p' ps =>
          rw [intercalate_cons_cons]
          rcases List.mem_cons.1 hm with rfl | hm
          · exact ⟨[], ['/'] ++ ['/'].intercalate (p' :: ps), by simp⟩
          · exact (ih hm).trans ⟨p ++ ['/'], [], by simp⟩
    exact this _ hx
  have hin2 : ['/'].intercalate q.pieces <:+: line := by
    rw [e]
    refine ⟨q.method ++ [' '], ' ' :: [' '].intercalate ((first ++ q.version) :: more), ?_⟩
    rw [intercalate_cons_cons, intercalate_cons_cons]
    simp
  refine ⟨fun hm => hb _ (by simp) (hin.subset hm), not_occurs_infix hline (hin.trans hin2)⟩

/-- the setting of the theorems: two programs, what they register, the routers they make -/
theorem run_replays {sv : Server W} {calls : List (Call (W × Response))} (hf : FairL calls)
    {log : List (Reg (W × Response))} (hlog : logOfL calls = log) (hn : log.length < 2 ^ 64)
    {r : Router (W × Response)} (hr : execL Router.new calls = .ok r) (req : Request)
    (hm : req.requestLine.method ≠ .all) (st : W × Response) :
    Router.run sv.feat.urlVariables r req st = replay sv.feat.urlVariables req log st := by
  obtain ⟨a, ha, hra⟩ := C12_run_is_replay calls hf (hlog ▸ hn)
  rw [hr] at ha
  injection ha with ha
  subst ha
  rw [hra _ _ _ hm, hlog]

theorem dead_replay {uv : Bool} {pre post : List (Reg S)} {e : Reg S} (hdead : Dead uv pre e.target) (req : Request)
    {name : Str} (hm : (name, req.requestLine.method) ∈ methodTable)
    (hp : ∀ x ∈ req.requestLine.path, ' ' ∉ x ∧ ¬ Occurs x crlf) (s : S) :
    replay uv req (pre ++ post) s = replay uv req (pre ++ e :: post) s := by
  cases hap : e.target.applies uv req.requestLine.method req.requestLine.path with
  | false =>
    rw [replay_applying, replay_applying uv req (pre ++ e :: post)]
    unfold applying
    rw [List.filter_append, List.filter_append, List.filter_cons_of_neg (by simp [hap])]
  | true =>
    rcases hdead name _ hm (Target.applies_for hap) with h | ⟨x, hx, h1, h2, h3⟩
    · exact absurd (Target.applies_askable hp hap) h
    · exact replay_stopped uv req pre _ _ s ⟨x, hx, Target.general_covers h2 h1 hap, h3⟩

/-- C155, one half: a dead registration can be left out (or put in): every connection is answered as before,
whatever its handler does. -/
theorem C155_left_out (sv : Server W) (calls calls' : List (Call (W × Response))) (hf : FairL calls)
    (hf' : FairL calls') (pre post : List (Reg (W × Response))) (e : Reg (W × Response))
    (hlog : logOfL calls = pre ++ e :: post) (hlog' : logOfL calls' = pre ++ post)
    (hn : (logOfL calls).length < 2 ^ 64) (r' : Router (W × Response))
    (hr : execL Router.new calls = .ok sv.router) (hr' : execL Router.new calls' = .ok r')
    (hdead : Dead sv.feat.urlVariables pre e.target) (w : W) (s : Sock) :
    { sv with router := r' }.serve w s = sv.serve w s := by
  rw [hlog, List.length_append, List.length_cons] at hn
  refine serve_congr_known sv r' w s fun req q n hq hw hm => ?_
  have hall := (known_not_all hm).1
  rw [run_replays hf hlog (by rw [List.length_append, List.length_cons]; omega) hr req hall,
    run_replays (sv := sv) hf' hlog' (by rw [List.length_append]; omega) hr' req hall]
  exact dead_replay hdead req hm (by rw [hw.path]; exact asked_segments hq) _

/-- there is a length that no constant of these patterns has -/
theorem exists_longer (log : List (Reg S)) : ∃ n, 0 < n ∧
    ∀ e ∈ log, (∀ a ∈ e.target.pat, a.length < n) ∧ e.target.pat.length < n := by
  have one : ∀ p : PathBuf, ∃ n, ∀ a ∈ p, a.length < n := by
    intro p
    induction p with
    | nil => exact ⟨0, by simp⟩
    | cons a p ih =>
      obtain ⟨n, hn⟩ := ih
      refine ⟨n + a.length + 1, fun b hb => ?_⟩
      rcases List.mem_cons.1 hb with rfl | hb
      · omega
      · have := hn b hb; omega
  induction log with
  | nil => exact ⟨1, by decide, by simp⟩
  | cons e log ih =>
    obtain ⟨n, h0, hn⟩ := ih
    obtain ⟨k, hk⟩ := one e.target.pat
    refine ⟨n + k + e.target.pat.length, by omega, fun x hx => ?_⟩
    rcases List.mem_cons.1 hx with rfl | hx
    · exact ⟨fun a ha => by have := hk a ha; omega, by omega⟩
    · exact ⟨fun a ha => by have := (hn x hx).1 a ha; omega, by have := (hn x hx).2; omega⟩

/-- C155, the other half: if the registrations before it either always stop or always hand on, a registration that
is not dead is called on some connection: there are bytes with which, whatever handler is registered there, the
server does what it would do if that registration and those behind it were the only ones, with some response
prepared by those before it. -/
theorem C155_called (sv : Server W) (calls : List (Call (W × Response)))
    (pre post : List (Reg (W × Response))) (t : Target) (h0 : Closure (W × Response))
    (hlog : logOfL calls = pre ++ ⟨t, h0⟩ :: post)
    (hn : (logOfL calls).length < 2 ^ 64)
    (hdec : ∀ e ∈ pre, Stops e.handler ∨ Goes e.handler)
    (halive : ¬ Dead sv.feat.urlVariables pre t) :
    ∃ s : Sock, ∀ (h : Closure (W × Response)) (calls' : List (Call (W × Response))) (r' : Router (W × Response)),
      FairL calls' → logOfL calls' = pre ++ ⟨t, h⟩ :: post → execL Router.new calls' = .ok r' → ∀ w,
      ∃ mr st, ((h mr st = .panic → { sv with router := r' }.serve w s = .panic) ∧
        ∀ st', h mr st = .ok (st', .stop) → st'.2.hasBody = true → ∃ bytes,
          { sv with router := r' }.serve w s = .ok (st'.1, bytes)) := by
  unfold Dead at halive
  have halive : ∃ name m, (name, m) ∈ methodTable ∧ t.IsFor m ∧ t.Askable sv.feat.urlVariables ∧
      ∀ e ∈ pre, e.target.IsFor m → e.target.General sv.feat.urlVariables t → ¬ Stops e.handler := by
    apply Classical.byContradiction
    intro hno
    apply halive
    intro name m h1 h2
    by_cases h3 : t.Askable sv.feat.urlVariables
    · refine .inr (Classical.byContradiction fun h4 => hno ⟨name, m, h1, h2, h3, fun e he g1 g2 g3 => ?_⟩)
      exact h4 ⟨e, he, g1, g2, g3⟩
    · exact .inl h3
  obtain ⟨name, m, hm, hfor, hask, hpre⟩ := halive
  obtain ⟨n, hn0, hlong⟩ := exists_longer pre
  have hpat : PatOk t := by
    have := log_patOkL calls ⟨t, h0⟩ (by rw [hlog]; simp)
    exact this
  obtain ⟨km, k1, k2⟩ := known_method hm
  have hx : ∀ x, x = List.replicate n 'x' →
      x ≠ [] ∧ x ≠ ['.'] ∧ x ≠ ['.', '.'] ∧ '/' ∉ x ∧ ' ' ∉ x ∧ ¬ Occurs x crlf := by
    rintro x rfl
    have hall : ∀ c ∈ List.replicate n 'x', c = 'x' := fun c hc => List.eq_of_mem_replicate hc
    have hx : 'x' ∈ List.replicate n 'x' := List.mem_replicate.2 ⟨by omega, rfl⟩
    exact ⟨fun e => by simp [e] at hx, fun e => by simp [e] at hx, fun e => by simp [e] at hx,
      fun h => absurd (hall _ h) (by decide), fun h => absurd (hall _ h) (by decide),
      no_crlf_of_no_cr fun h => absurd (hall _ h) (by decide)⟩
  have hinst : ∀ p : PathBuf, Spec.Askable sv.feat.urlVariables p →
      (∀ x ∈ p, x ≠ [] ∧ x ≠ ['.'] ∧ x ≠ ['.', '.'] ∧ '/' ∉ x) → ∀ x ∈ instOf n p,
      x ≠ [] ∧ x ≠ ['.'] ∧ x ≠ ['.', '.'] ∧ '/' ∉ x ∧ ' ' ∉ x ∧ ¬ Occurs x crlf := by
    intro p hask hpat x hxm
    unfold instOf at hxm
    obtain ⟨b, hb, rfl⟩ := List.mem_map.1 hxm
    split
    · exact hx _ rfl
    · rename_i hv
      obtain ⟨h1, h2, h3, h4⟩ := hpat b hb
      rcases hask b hb with ⟨-, h5⟩ | ⟨-, h5, h6⟩
      · exact absurd h5 hv
      · exact ⟨h1, h2, h3, h4, h5, h6⟩
  have hsegs : ∀ x ∈ askFor n t,
      x ≠ [] ∧ x ≠ ['.'] ∧ x ≠ ['.', '.'] ∧ '/' ∉ x ∧ ' ' ∉ x ∧ ¬ Occurs x crlf := by
    cases t with
    | on m' p => exact hinst p hask hpat
    | anyMethod p => exact hinst p hask hpat
    | everywhere => exact fun x hm => hx x (List.eq_of_mem_replicate hm)
  have hasked := asked_bytesTo sv.feat.faithful sv.feat.cookies name (askFor n t) ⟨k1, k2⟩ hsegs
  refine ⟨⟨[bytesTo name ([] :: askFor n t)], .eof⟩, ?_⟩
  intro h calls' r' hf' hlog' hr' w
  obtain ⟨req, hread, hrl, hget⟩ := reads_asked_zero sv.feat sv.allocOk
    ⟨[bytesTo name ([] :: askFor n t)], .eof⟩ _ (by simpa [Sock.bytes] using hasked)
  have hmeth : req.requestLine.method = m := by rw [hrl]; exact km
  have hpath : req.requestLine.path = askFor n t := by
    rw [hrl]
    refine resolve_names _ fun x hx => ?_
    obtain ⟨h1, h2, h3, -⟩ := hsegs x hx
    simp [isName, h1, h2, h3]
  have hhost : req.headers.get c!"host" = some c!"b" := by
    rw [hget]
    exact (show joined [(c!"Host", c!"b")] c!"host" = some c!"b" by decide +kernel)
  have hserve : { sv with router := r' }.serve w ⟨[bytesTo name ([] :: askFor n t)], .eof⟩ =
      Io.ofRes ({ sv with router := r' }.handle w req) :=
    serve_reads (sv := { sv with router := r' }) hread w
  have hall := (known_not_all hm).1
  have hrun := run_replays (sv := sv) hf' hlog' (by
    rw [hlog] at hn; simpa [List.length_append, List.length_cons] using hn) hr' req (by rw [hmeth]; exact hall)
    (w, Response.newEmpty)
  obtain ⟨st, hst⟩ := replay_goes sv.feat.urlVariables req pre (⟨t, h⟩ :: post) (w, Response.newEmpty) (by
    intro e he hap
    rcases hdec e he with hs | hg
    · rw [hmeth, hpath] at hap
      refine absurd hs (hpre e he (Target.applies_for hap) ?_)
      exact Target.general_of_ask (hlong e he) hask hap
    · exact hg)
  have hap : t.applies sv.feat.urlVariables req.requestLine.method req.requestLine.path = true := by
    rw [hmeth, hpath]
    exact Target.ask_applies n hfor hask
  rw [hst] at hrun
  simp only [replay, if_pos hap] at hrun
  refine ⟨⟨req, t.vars sv.feat.urlVariables req.requestLine.path⟩, st, fun hp => ?_, fun st' hp hb => ?_⟩
  · rw [hp] at hrun
    rw [hserve, handle_spec, if_neg (by rw [hhost]; simp), if_neg (by rw [hmeth]; exact (known_not_all hm).2)]
    show Io.ofRes (Res.bind (Router.run sv.feat.urlVariables r' req (w, Response.newEmpty)) _) = _
    rw [hrun]
    rfl
  · rw [hp] at hrun
    rw [hserve, handle_spec, if_neg (by rw [hhost]; simp), if_neg (by rw [hmeth]; exact (known_not_all hm).2)]
    show ∃ bytes, Io.ofRes (Res.bind (Router.run sv.feat.urlVariables r' req (w, Response.newEmpty)) _) = _
    rw [hrun]
    simp only [Res.bind_ok', hb]
    exact ⟨_, rfl⟩

/-- C155: given that the registrations before it either always stop or always hand on, whether a registration is dead
says exactly whether its handler matters: it is dead if and only if another handler in its place never makes a
difference to any connection. -/
theorem C155_iff (sv : Server W) (calls : List (Call (W × Response))) (hf : FairL calls)
    (pre post : List (Reg (W × Response))) (t : Target) (h0 : Closure (W × Response))
    (hlog : logOfL calls = pre ++ ⟨t, h0⟩ :: post) (hn : (logOfL calls).length < 2 ^ 64)
    (hr : execL Router.new calls = .ok sv.router) (hdec : ∀ e ∈ pre, Stops e.handler ∨ Goes e.handler) (w0 : W) :
    Dead sv.feat.urlVariables pre t ↔
      ∀ (h : Closure (W × Response)) (calls' : List (Call (W × Response))) (r' : Router (W × Response)),
        FairL calls' → logOfL calls' = pre ++ ⟨t, h⟩ :: post → execL Router.new calls' = .ok r' →
        ∀ w s, { sv with router := r' }.serve w s = sv.serve w s := by
  have hlen : ∀ h : Closure (W × Response), (pre ++ ⟨t, h⟩ :: post).length < 2 ^ 64 := by
    intro h; rw [hlog] at hn; simpa [List.length_append, List.length_cons] using hn
  constructor
  · intro hd h calls' r' hf' hlog' hr' w s
    refine serve_congr_known sv r' w s fun req q n hq hw hm => ?_
    have hall := (known_not_all hm).1
    have hseg : ∀ x ∈ req.requestLine.path, ' ' ∉ x ∧ ¬ Occurs x crlf := by rw [hw.path]; exact asked_segments hq
    rw [run_replays hf hlog (hlen h0) hr req hall, run_replays (sv := sv) hf' hlog' (hlen h) hr' req hall,
      ← dead_replay (e := ⟨t, h⟩) hd req hm hseg, ← dead_replay (e := ⟨t, h0⟩) hd req hm hseg]
  · intro hall
    apply Classical.byContradiction
    intro hd
    obtain ⟨s, hs⟩ := C155_called sv calls pre post t h0 hlog hn hdec hd
    have use : ∀ h : Closure (W × Response), ∃ calls' r', FairL calls' ∧ logOfL calls' = pre ++ ⟨t, h⟩ :: post ∧
        execL Router.new calls' = .ok r' := by
      intro h
      obtain ⟨calls', g1, g2⟩ := relabelL calls hf (pre ++ ⟨t, h⟩ :: post) (by rw [hlog]; simp)
      obtain ⟨r', g3, -⟩ := C12_run_is_replay calls' g1 (by rw [g2]; exact hlen h)
      exact ⟨calls', r', g1, g2, g3⟩
    obtain ⟨c1, r1, a1, a2, a3⟩ := use fun _ _ => .panic
    obtain ⟨c2, r2, b1, b2, b3⟩ := use fun _ st => .ok ((st.1, { st.2 with body := .sized 0 (.cursor []) }), .stop)
    have e1 := hall _ c1 r1 a1 a2 a3 w0 s
    have e2 := hall _ c2 r2 b1 b2 b3 w0 s
    obtain ⟨mr, st, g, -⟩ := hs _ c1 r1 a1 a2 a3 w0
    obtain ⟨mr', st', -, g'⟩ := hs _ c2 r2 b1 b2 b3 w0
    obtain ⟨bytes, hb⟩ := g' _ rfl rfl
    rw [g rfl] at e1
    rw [hb, ← e1] at e2
    cases e2

namespace DeadExample
open StrictExample

/-- hands on -/
def pass : Closure (Unit × Response) := fun _ st => .ok (st, .next)

/-- `/a/:x`, then `/a/b`, which is behind it -/
def shadowing (h : Closure (Unit × Response)) : List (Call (Unit × Response)) :=
  [.add pass, .route .get c!"/a/:x" hello, .route .get c!"/a/b" h]

/-- the other way round: `/a/:x` still gets what is not `/a/b` -/
def ordered (h : Closure (Unit × Response)) : List (Call (Unit × Response)) :=
  [.add pass, .route .get c!"/a/b" hello, .route .get c!"/a/:x" h]

theorem parse_ax : Path.parse c!"/a/:x" = some [c!"a", c!":x"] := by decide
theorem parse_ab : Path.parse c!"/a/b" = some [c!"a", c!"b"] := by decide

theorem hello_stops : Stops hello := by
  intro mr s s' fl h
  simp only [hello, Res.ok.injEq, Prod.mk.injEq] at h
  exact h.2.symm

theorem pass_goes : Goes pass := fun _ s => ⟨s, rfl⟩

theorem log_shadowing (h : Closure (Unit × Response)) :
    logOfL (shadowing h) = [⟨.everywhere, pass⟩, ⟨.on .get [c!"a", c!":x"], hello⟩] ++ ⟨.on .get [c!"a", c!"b"], h⟩ :: [] := by
  simp only [shadowing, logOfL, logOf, parse_ax, parse_ab, Verb.target, Verb.method, List.append_nil]
  rfl

theorem log_ordered (h : Closure (Unit × Response)) :
    logOfL (ordered h) = [⟨.everywhere, pass⟩, ⟨.on .get [c!"a", c!"b"], hello⟩] ++ ⟨.on .get [c!"a", c!":x"], h⟩ :: [] := by
  simp only [ordered, logOfL, logOf, parse_ax, parse_ab, Verb.target, Verb.method, List.append_nil]
  rfl

theorem dead : Dead (S := Unit × Response) true [⟨.everywhere, pass⟩, ⟨.on .get [c!"a", c!":x"], hello⟩]
    (.on .get [c!"a", c!"b"]) := by
  intro name m _ hm
  refine .inr ⟨⟨.on .get [c!"a", c!":x"], hello⟩, by simp, hm, ⟨rfl, fun i a b h1 h2 => ?_⟩, hello_stops⟩
  match i, h1, h2 with
  | 0, h1, h2 =>
    simp only [List.getElem?_cons_zero, Option.some.injEq] at h1 h2
    subst h1; subst h2
    exact .inr ⟨by decide, rfl⟩
  | 1, h1, h2 =>
    simp only [List.getElem?_cons_succ, List.getElem?_cons_zero, Option.some.injEq] at h1 h2
    subst h1
    exact .inl ⟨rfl, by decide⟩
  | (n + 2), h1, h2 => simp at h1

theorem alive : ¬ Dead (S := Unit × Response) true [⟨.everywhere, pass⟩, ⟨.on .get [c!"a", c!"b"], hello⟩]
    (.on .get [c!"a", c!":x"]) := by
  intro h
  rcases h c!"GET" .get (by decide) rfl with h | ⟨e, he, -, h2, h3⟩
  · apply h
    intro seg hs
    simp only [List.mem_cons, List.not_mem_nil, or_false] at hs
    rcases hs with rfl | rfl
    · exact .inr ⟨by decide, by decide, no_crlf_of_no_cr (by decide)⟩
    · exact .inl ⟨rfl, by decide⟩
  · simp only [List.mem_cons, List.not_mem_nil, or_false] at he
    rcases he with rfl | rfl
    · have := h3 ⟨⟨⟨.get, [], .http11⟩, ⟨[], []⟩, [], []⟩, []⟩ ((), Response.newEmpty) _ _ rfl
      cases this
    · rcases h2.2 1 c!"b" c!":x" rfl rfl with ⟨-, h4⟩ | ⟨-, h4⟩
      · exact absurd h4 (by decide)
      · exact absurd h4 (by decide)

/-- a route with a blank in it is dead wherever it stands -/
example : Dead (S := Unit × Response) true [] (.anyMethod [c!"a b"]) := by
  intro name m _ _
  refine .inl fun h => ?_
  rcases h c!"a b" (by simp) with ⟨-, h1⟩ | ⟨-, h1, -⟩
  · exact absurd h1 (by decide)
  · exact h1 (by decide)

/-- without `url_variables`, so is one with a `:` -/
example : Dead (S := Unit × Response) false [] (.on .get [c!":x"]) := by
  intro name m _ _
  refine .inl fun h => ?_
  rcases h c!":x" (by simp) with ⟨h1, -⟩ | ⟨h1, -⟩
  · simp at h1
  · exact h1 (by decide)

theorem fair_shadowing (h : Closure (Unit × Response)) : FairL (shadowing h) := by simp [shadowing, FairL, Fair]
theorem fair_ordered (h : Closure (Unit × Response)) : FairL (ordered h) := by simp [ordered, FairL, Fair]

theorem decided (p : PathBuf) : ∀ e ∈ ([⟨.everywhere, pass⟩, ⟨.on .get p, hello⟩] : List (Reg (Unit × Response))),
    Stops e.handler ∨ Goes e.handler := by
  intro e he
  simp only [List.mem_cons, List.not_mem_nil, or_false] at he
  rcases he with rfl | rfl
  · exact .inr pass_goes
  · exact .inl hello_stops

/-- Behind `/a/:x` it makes no difference what `/a/b` does; before it, it does. -/
example (h : Closure (Unit × Response)) (w : Unit) (s : Sock) :
    ∃ r r', execL Router.new (shadowing h) = .ok r ∧ execL Router.new (shadowing fun _ _ => .panic) = .ok r' ∧
      (⟨.default, fun _ => true, .asciiOnly, .id, fun _ => 0, r'⟩ : Server Unit).serve w s =
        (⟨.default, fun _ => true, .asciiOnly, .id, fun _ => 0, r⟩ : Server Unit).serve w s := by
  obtain ⟨r, hr, -⟩ := C12_run_is_replay (shadowing h) (fair_shadowing h) (by rw [log_shadowing]; simp)
  obtain ⟨r', hr', -⟩ := C12_run_is_replay (shadowing fun _ _ => .panic) (fair_shadowing _) (by rw [log_shadowing]; simp)
  refine ⟨r, r', hr, hr', ?_⟩
  have := (C155_iff (⟨.default, fun _ => true, .asciiOnly, .id, fun _ => 0, r⟩ : Server Unit) (shadowing h)
    (fair_shadowing h) _ _ _ _ (log_shadowing h) (by rw [log_shadowing]; simp) hr (decided _) ()).1 dead
  exact this _ _ r' (fair_shadowing _) (log_shadowing _) hr' w s

/-- The route with the variable registered last is called: some connection ends without an answer if it panics. -/
example : ∃ r, execL Router.new (ordered fun _ _ => .panic) = .ok r ∧ ∃ s,
    (⟨.default, fun _ => true, .asciiOnly, .id, fun _ => 0, r⟩ : Server Unit).serve () s = .panic := by
  obtain ⟨r, hr, -⟩ := C12_run_is_replay (ordered fun _ _ => .panic) (fair_ordered _) (by rw [log_ordered]; simp)
  refine ⟨r, hr, ?_⟩
  obtain ⟨s, hs⟩ := C155_called (⟨.default, fun _ => true, .asciiOnly, .id, fun _ => 0, r⟩ : Server Unit)
    (ordered fun _ _ => .panic) _ _ _ _ (log_ordered _) (by rw [log_ordered]; simp) (decided _) alive
  obtain ⟨mr, st, h1, -⟩ := hs _ _ r (fair_ordered _) (log_ordered _) hr ()
  exact ⟨s, h1 rfl⟩

end DeadExample

end Octane
