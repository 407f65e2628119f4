import Verif.Props.Work
import Verif.Props.CostWrite
import Verif.Proof.Held
import Verif.Proof.ProcessRead
/-
The work for a request from below.
-/
namespace Octane
open Spec
universe u
variable {W : Type u} {S : Type u}

/-! ### writing -/

theorem copyLoopC_ge (fuel : Nat) (r : Reader) : 2 * (copyLoopC fuel r).1.1.length ≤ (copyLoopC fuel r).2 := by
  induction fuel generalizing r with
  | zero => simp [copyLoopC]
  | succ fuel ih =>
    unfold copyLoopC
    simp only
    cases hp : r.pollRead 2048 with
    | none => simp
    | some p =>
      obtain ⟨b, r'⟩ := p
      simp only
      split
      · simp
      · rename_i hb
        have h1 := ih r'
        have h2 : r.pollC 2048 = b.length := by
          unfold Reader.pollRead at hp
          split at hp
          · injection hp with hp
            injection hp with hp
            subst hp
            rfl
          · cases hp
          · injection hp with hp
            injection hp with hp
            exact absurd hp.symm hb
        simp only [List.length_append, h2]
        omega

theorem outC_ge (U : Unicode) (cookies : Bool) (ord : MapOrder) (r : Response) :
    2 * (r.outC U cookies ord).1.length ≤ (r.outC U cookies ord).2 := by
  have h2 := copyLoopC_ge ((r.getDataC U cookies ord).1.2.size + 1) (r.getDataC U cookies ord).1.2
  have h1 : (utf8 (r.getDataC U cookies ord).1.1).length ≤ (r.getDataC U cookies ord).2 := by
    simp only [Response.getDataC, formatC]
    omega
  simp only [Response.outC, sendDataC, List.length_append]
  omega

theorem declareErrorC_ge (sv : Server W) (w : W) (kind : StatusCode) :
    2 * answered (Io.ofRes (sv.declareErrorC w kind).1) ≤ (sv.declareErrorC w kind).2 := by
  unfold Server.declareErrorC errorPageC
  simp only
  cases ((Response.newFromSlice (utf8 notFoundPage)).status kind).defaultHeaders sv.U (sv.clock w) with
  | panic => simp [Res.bind, Io.ofRes, answered]
  | ok res =>
    have := outC_ge sv.U sv.feat.cookies sv.ord (res.set c!"Content-Type" c!"text/html")
    simp only [Res.bind, Io.ofRes, answered]
    omega

/-! ### routing -/

theorem Router.dispatchV_ge (req : Request) (mtch : List (List (MatchedPath (Closures S)))) (k : Nat) (ix : List Nat) (s : S) :
    (Router.dispatchC req mtch k ix s).2 ≤ (Router.dispatchV req mtch k ix s).2 := by
  induction k generalizing ix s with
  | zero => simp [Router.dispatchV, Router.dispatchC]
  | succ k ih =>
    unfold Router.dispatchV Router.dispatchC
    simp only
    cases hv : mtch[(Router.scanMin (mtch.zip ix) 0 (0, u64Max)).1]? with
    | none => simp
    | some v =>
      cases ix[(Router.scanMin (mtch.zip ix) 0 (0, u64Max)).1]? with
      | none => simp
      | some i =>
        simp only
        cases hx : v[i]? with
        | none => simp
        | some x =>
          simp only
          cases x.data.closure { request := req, vars := x.vars } s with
          | panic => simp only; omega
          | ok o =>
            have := ih (ix.set (Router.scanMin (mtch.zip ix) 0 (0, u64Max)).1 (i + 1)) o.1
            simp only
            split <;> (simp only; omega)

theorem Router.runV_ge (uv : Bool) (r : Router S) (req : Request) (s : S) :
    (Router.runC uv r req s).2.visited + (Router.runC uv r req s).2.scanned ≤ (Router.runV uv r req s).2 := by
  unfold Router.runV Router.runC
  simp only
  cases Router.collectMatches uv r req.requestLine with
  | panic => simp
  | ok m =>
    have := Router.dispatchV_ge req m (m.map List.length).sum (List.replicate m.length 0) s
    simp only
    omega

theorem handleC_ge (sv : Server W) (w : W) (req : Request) :
    sv.handleSteps w req + 2 * answered (Io.ofRes (sv.handleC w req).1) ≤ (sv.handleC w req).2 := by
  have hrun := Router.runV_ge sv.feat.urlVariables sv.router req (w, Response.newEmpty)
  have hd := fun w kind => declareErrorC_ge sv w kind
  unfold Server.handleC Server.handleSteps
  cases hv : Http.validate req with
  | panic => simp [Io.ofRes, answered]
  | ok c =>
    simp only
    split
    · cases Res.unwrap c.errCode with
      | panic => simp [Io.ofRes, answered]
      | ok code => have := hd w code; simp only; omega
    · split
      · cases (Router.runV sv.feat.urlVariables sv.router req (w, Response.newEmpty)).1 with
        | panic => simp only [Io.ofRes, answered]; omega
        | ok p =>
          obtain ⟨w', res⟩ := p
          simp only
          split
          · have := hd w' .notFound
            simp only
            omega
          · have := outC_ge sv.U sv.feat.cookies sv.ord res
            simp only [Io.ofRes, answered]
            omega
      · have := hd w .notImplemented
        simp only
        omega

theorem serveC_ge (sv : Server W) (w : W) (s : Sock) :
    sv.serveSteps w s + 2 * answered (sv.serveC w s).1 ≤ (sv.serveC w s).2 := by
  have hd := declareErrorC_ge sv w .badRequest
  unfold Server.serveC Server.serveSteps
  simp only
  cases (readHeadC s).1 with
  | panic => simp [answered]
  | pending => simp [answered]
  | abort => simp [answered]
  | ok out =>
    cases out with
    | badRequest => simp only; omega
    | head hdrs line rem reader =>
      simp only
      cases (Headers.parseC sv.feat.faithful hdrs).1.bind Res.unwrap with
      | panic => simp only [answered]; omega
      | ok H =>
        simp only
        cases (RequestLine.parseC sv.feat.faithful line).1.bind Res.unwrap with
        | panic => simp only [answered]; omega
        | ok rl =>
          simp only
          cases Request.fromRaw sv.feat sv.allocOk H rl rem reader with
          | panic => simp only [answered]; omega
          | pending => simp only [answered]; omega
          | abort => simp only [answered]; omega
          | ok o =>
            cases o with
            | none => simp only; omega
            | some req =>
              have := handleC_ge sv w req
              simp only
              omega

/-! ### reading -/

theorem readHeadLoopC_head (fuel : Nat) (data : Bytes) (s : Sock) (hf : s.bytes.length < fuel)
    (hno : ¬ Occurs data blankLine) (a b : Bytes) (hs : FirstSplit (data ++ s.bytes) blankLine a b) :
    a.length + 1 ≤ (readHeadLoopC fuel data s).2.compared := by
  induction fuel generalizing data s with
  | zero => omega
  | succ fuel ih =>
    have hr := read_spec 512 (by omega) s
    unfold readHeadLoopC
    cases hrd : s.read 512 with
    | error =>
      rw [hrd] at hr
      rw [hr.1, List.append_nil] at hs
      exact absurd hs.occurs hno
    | pending =>
      rw [hrd] at hr
      rw [hr.1, List.append_nil] at hs
      exact absurd hs.occurs hno
    | data x s' =>
      rw [hrd] at hr
      simp only at hr ⊢
      by_cases hb : x = []
      · rw [(hr.1 hb).1, List.append_nil] at hs
        exact absurd hs.occurs hno
      · obtain ⟨hbytes, hfin, hcap⟩ := hr.2 hb
        have hpos := List.length_pos_iff.2 hb
        rw [if_neg hb]
        have hlen : s'.bytes.length < fuel := by
          rw [hbytes, List.length_append] at hf
          omega
        rw [hbytes, ← List.append_assoc] at hs
        by_cases hocc : Occurs (data ++ x) blankLine
        · obtain ⟨b0, h1, -⟩ := hs.of_append hocc
          have hfind : findInSlice (data ++ x) [13, 10, 13, 10] = .ok (some a.length) := by
            obtain ⟨r, g1, g2, g3⟩ := findInSlice_ok (data ++ x) [13, 10, 13, 10]
            have hat : OccursAt (data ++ x) blankLine a.length := ⟨a, b0, h1.1, rfl⟩
            cases r with
            | none => exact absurd ⟨_, hat⟩ (g3 rfl)
            | some v =>
              rcases Nat.lt_trichotomy v a.length with hlt | heq | hgt
              · exact absurd (g2 v rfl).1 (h1.2 v hlt)
              · rw [g1, heq]
              · exact absurd hat ((g2 v rfl).2 _ hgt)
          have hge := (findInSliceC_ge (data ++ x) [13, 10, 13, 10] (by simp)).2 _ hfind
          rw [(headCheck_spec (data ++ x) s').2 a b0 h1]
          exact hge
        · have h := ih (data ++ x) s' hlen hocc hs
          rw [(headCheck_spec (data ++ x) s').1 hocc]
          simp only
          omega

theorem Header.steps_ge {faithful : Bool} {s : Str} {h : Header} (hp : Header.parse faithful s = some h) :
    3 * ((utf8 h.name).length + (utf8 h.value).length + 1) + 1 ≤ 1 + 2 * (utf8 s).length + Header.steps faithful s := by
  revert hp
  unfold Header.parse Header.steps
  rcases splitN2_cases ':' s with hs | ⟨a, b, rfl, hs⟩
  · rw [hs]
    simp only
    split
    · exact nofun
    · split <;> exact nofun
  · rw [hs]
    simp only
    split
    · exact nofun
    · split
      · exact nofun
      · split
        · exact nofun
        · intro h
          injection h with h
          rw [← h]
          have hc : (utf8 [':']).length = 1 := by decide +kernel
          have hf : 1 ≤ Query.findC ':' (a ++ ':' :: b) := by
            cases a with
            | nil => simp [Query.findC]
            | cons x a => simp only [List.cons_append, Query.findC]; split <;> omega
          have hb : utf8 b = utf8 (b.takeWhile fun c => c == ' ' || c == '\t') ++
              utf8 (b.dropWhile fun c => c == ' ' || c == '\t') := by
            rw [← utf8_append, List.takeWhile_append_dropWhile]
          have e : utf8 (a ++ ':' :: b) = utf8 a ++ (utf8 [':'] ++ utf8 b) := by
            rw [← utf8_append, ← utf8_append]; rfl
          rw [e]
          simp only [List.length_append, hc, hb]
          omega

theorem Headers.stepsLoop_ge (faithful : Bool) (lines : List Str) (acc H : Headers)
    (h : Headers.parseLoop faithful (lines.map utf8) acc = some H) :
    3 * (H.raw.map fun x => octets x.name + octets x.value + 1).sum ≤
      3 * (acc.raw.map fun x => octets x.name + octets x.value + 1).sum +
      Headers.stepsLoop faithful (lines.map utf8) := by
  induction lines generalizing acc with
  | nil =>
    simp only [List.map_nil, Headers.parseLoop, Option.some.injEq] at h
    subst h
    simp
  | cons l lines ih =>
    simp only [List.map_cons, Headers.parseLoop, fromUtf8_utf8] at h
    cases hp : Header.parse faithful l with
    | none => rw [hp] at h; cases h
    | some x =>
      rw [hp] at h
      have h1 := ih _ h
      have h2 := Header.steps_ge hp
      have e : Headers.stepsLoop faithful (utf8 l :: lines.map utf8) = 1 + 2 * (utf8 l).length + (Header.steps faithful l +
          (2 * (utf8 x.name).length + Headers.stepsLoop faithful (lines.map utf8))) := by
        rw [Headers.stepsLoop, fromUtf8_utf8]
        simp only [hp]
      simp only [List.map_append, List.map_cons, List.map_nil, List.sum_append, List.sum_cons, List.sum_nil] at h1
      rw [List.map_cons, e]
      simp only [octets] at h1 h2 ⊢
      omega

theorem Headers.steps_ge (faithful : Bool) (text : Str) (H : Headers) (h : Headers.parse faithful text = .ok (some H)) :
    3 * (H.raw.map fun x => octets x.name + octets x.value + 1).sum ≤ Headers.steps faithful text := by
  obtain ⟨lines, h1, rfl, h3⟩ := exists_lines text
  rw [Headers.parse_lines faithful lines h1 h3, Res.ok.injEq] at h
  have := Headers.stepsLoop_ge faithful lines _ H h
  unfold Headers.steps Spliterator.new
  rw [collect_lines lines h1 h3 _ (Nat.le_refl _)]
  simpa using this

theorem RequestLine.parseC_ge (faithful : Bool) (l : Str) : l.length ≤ (RequestLine.parseC faithful l).2 := by
  unfold RequestLine.parseC
  simp only [Query.splitC]
  split
  · exact Nat.le_refl _
  · exact Nat.le_refl _
  · split
    · simp only; omega
    · split
      · simp only; omega
      · simp only; omega

theorem Request.rawSteps_ge {feat : Features} {allocOk : Nat → Bool} {H : Headers} {rl : RequestLine}
    {rem : Bytes} {reader : Sock} {req : Request} (h : Request.fromRaw feat allocOk H rl rem reader = .ok (some req)) :
    contentLength H + (H.raw.map fun x => octets x.name + octets x.value).sum + 1 ≤
      Request.rawSteps feat H rem reader + rem.length := by
  have h1 := fromRaw_some_length h
  have h2 : (H.raw.map fun x => octets x.name + octets x.value).sum ≤ Request.parseSteps feat H := by
    unfold Request.parseSteps Headers.size octets
    omega
  unfold Request.rawSteps
  simp only
  generalize contentLength H = n at h1
  generalize Request.parseSteps feat H = y at h2
  generalize (H.raw.map fun x => octets x.name + octets x.value).sum = z at h2
  split
  · rw [if_pos (by omega)]
    omega
  · omega

end Octane
