import Verif.Model.CostWrite
import Verif.Proof.Held
import Verif.Props.AnswerSize
import Verif.Props.Work
/-
Helper lemmas for C154: the functions with counts compute the same as those without, and how their counts add up.
-/
namespace Octane
open Spec
universe u
variable {W : Type u} {S : Type u}

/-! ### forming the head -/

theorem formatC_fst (parts : List Str) : (formatC parts).1 = parts.flatten := rfl

theorem statusLineC_fst (U : Unicode) (r : Response) : (r.statusLineC U).1 = r.statusLine U := by
  simp [Response.statusLineC, Response.statusLine, Response.reasonPhrase, formatC]

theorem statusLineC_snd (U : Unicode) (r : Response) :
    octets (r.statusLine U) ≤ (r.statusLineC U).2 ∧
    (r.statusLineC U).2 ≤ octets r.statusCode.toStr + 2 * octets (r.statusLine U) ∧
    octets (U.upperStr r.statusCode.toStr) ≤ octets (r.statusLine U) := by
  have e : (formatC [c!"HTTP", c!"/", r.httpVersion, [' '], showInt r.statusCode.code, [' '],
      U.upperStr r.statusCode.toStr, c!"\r\n"]).2 = octets (r.statusLine U) := by
    rw [← statusLineC_fst]
    rfl
  have h : octets (U.upperStr r.statusCode.toStr) ≤ octets (r.statusLine U) := by
    simp only [Response.statusLine, Response.reasonPhrase, octets_append]
    omega
  simp only [Response.statusLineC, e]
  simp only [octets] at h ⊢
  omega

/-- the line of one header -/
def outLine (d : Str × Str) : Str := d.1 ++ c!":" ++ [' '] ++ d.2 ++ c!"\r\n"

theorem headerLoopC_eq (l : List (Str × Str)) (buf : Str × Nat) :
    Response.headerLoopC l buf = (buf.1 ++ l.flatMap outLine, buf.2 + 2 * octets (l.flatMap outLine)) := by
  induction l generalizing buf with
  | nil => simp [Response.headerLoopC, octets, utf8]
  | cons d l ih =>
    have e : (formatC [d.1, c!":", [' '], d.2, c!"\r\n"]).1 = outLine d := by
      simp [formatC, outLine]
    have e2 : (formatC [d.1, c!":", [' '], d.2, c!"\r\n"]).2 = octets (outLine d) := by
      rw [← e]; rfl
    rw [Response.headerLoopC, ih]
    simp only [pushC, e, e2, List.flatMap_cons, octets_append, List.append_assoc, Prod.mk.injEq, true_and]
    simp only [octets]
    omega

theorem serialiseC_fst (c : Cookie) : (Response.serialiseC c).1 = c.serialise := by
  simp [Response.serialiseC, formatC, Cookie.serialise]

theorem serialiseC_snd (c : Cookie) : (Response.serialiseC c).2 + 12 = 2 * octets c.serialise := by
  have e : (formatC [c!"Set-Cookie:", [' '], c.toStr]).2 = octets c.serialise := by
    rw [← serialiseC_fst]; rfl
  simp only [Response.serialiseC, e]
  simp only [Cookie.serialise, octets_append]
  have h1 : octets c!"Set-Cookie:" = 11 := by decide +kernel
  have h2 : octets [' '] = 1 := by decide +kernel
  simp only [h1, h2]
  simp only [octets]
  omega

theorem cookieLinesC_fst (cs : List Cookie) :
    (Response.cookieLinesC cs).1 = Response.join c!"\r\n" (cs.map Cookie.serialise) := by
  simp only [Response.cookieLinesC, List.map_map]
  congr 2
  funext c
  exact serialiseC_fst c

theorem cookieLinesC_snd (cs : List Cookie) :
    (Response.cookieLinesC cs).2 ≤ 3 * octets (Response.join c!"\r\n" (cs.map Cookie.serialise)) := by
  have e := cookieLinesC_fst cs
  have h : ((cs.map Response.serialiseC).map fun l => l.2 + 1).sum ≤ 2 * ((cs.map Cookie.serialise).map octets).sum := by
    induction cs with
    | nil => simp
    | cons c cs ih =>
      have := serialiseC_snd c
      have := ih (cookieLinesC_fst cs)
      simp only [List.map_cons, List.sum_cons]
      omega
  have h2 := octets_join c!"\r\n" (cs.map Cookie.serialise)
  have h3 : (Response.cookieLinesC cs).2 = ((cs.map Response.serialiseC).map fun l => l.2 + 1).sum +
      octets (Response.cookieLinesC cs).1 := rfl
  rw [h3, e]
  omega

theorem headersStrC_fst (cookies : Bool) (ord : MapOrder) (r : Response) :
    (r.headersStrC cookies ord).1 = r.headersStr cookies ord := by
  unfold Response.headersStrC Response.headersStr
  cases cookies with
  | false =>
    simp only [headerLoopC_eq, List.nil_append, Bool.false_eq_true, if_false, List.append_nil]
    rfl
  | true =>
    simp only [pushC, headerLoopC_eq, cookieLinesC_fst, List.nil_append, if_true]
    rfl

theorem headersStrC_snd (cookies : Bool) (ord : MapOrder) (r : Response) :
    (r.headersStrC cookies ord).2 ≤ 4 * octets (r.headersStr cookies ord) := by
  rw [← headersStrC_fst]
  unfold Response.headersStrC
  cases cookies with
  | false =>
    simp only [headerLoopC_eq, List.nil_append, Bool.false_eq_true, if_false]
    omega
  | true =>
    have h := cookieLinesC_snd r.cookies
    simp only [pushC, headerLoopC_eq, List.nil_append, if_true, octets_append]
    rw [← cookieLinesC_fst] at h
    simp only [octets] at h ⊢
    omega

theorem getDataC_fst (U : Unicode) (cookies : Bool) (ord : MapOrder) (r : Response) :
    (r.getDataC U cookies ord).1 = r.getData U cookies ord := by
  simp [Response.getDataC, Response.getData, formatC, statusLineC_fst, headersStrC_fst]

theorem getDataC_snd (U : Unicode) (cookies : Bool) (ord : MapOrder) (r : Response) :
    (r.getDataC U cookies ord).2 ≤ octets r.statusCode.toStr + 5 * octets (r.getData U cookies ord).1 := by
  have h1 := (statusLineC_snd U r).2.1
  have h2 := headersStrC_snd cookies ord r
  have e : (formatC [(r.statusLineC U).1, (r.headersStrC cookies ord).1, c!"\r\n"]).2 =
      octets (r.getData U cookies ord).1 := by
    rw [← getDataC_fst]; rfl
  simp only [Response.getDataC, e]
  simp only [Response.getData, octets_append]
  omega

/-! ### writing -/

theorem copyLoopC_fst (fuel : Nat) (r : Reader) : (copyLoopC fuel r).1 = copyLoop fuel r := by
  induction fuel generalizing r with
  | zero => rfl
  | succ fuel ih =>
    unfold copyLoopC copyLoop
    simp only
    cases r.pollRead 2048 with
    | none => rfl
    | some p =>
      simp only
      split
      · rfl
      · simp [← ih]

theorem copyLoopC_snd (fuel : Nat) (r : Reader) :
    (copyLoopC fuel r).1.1.length ≤ (copyLoopC fuel r).2 ∧
    (copyLoopC fuel r).2 ≤ 3 * (copyLoopC fuel r).1.1.length + 2049 := by
  induction fuel generalizing r with
  | zero => simp [copyLoopC]
  | succ fuel ih =>
    have h0 : r.pollC 2048 ≤ 2048 := by
      unfold Reader.pollC
      split <;> first | (rw [List.length_take]; omega) | omega
    unfold copyLoopC
    simp only
    cases hp : r.pollRead 2048 with
    | none => simp only [List.length_nil]; omega
    | some p =>
      obtain ⟨b, r'⟩ := p
      simp only
      split
      · simp only [List.length_nil]; omega
      · rename_i hb
        have h1 := ih r'
        have h2 : r.pollC 2048 = b.length := by
          unfold Reader.pollRead at hp
          split at hp
          · injection hp with hp
            injection hp with hp
            subst hp
            rfl
          · cases hp
          · injection hp with hp
            injection hp with hp
            exact absurd hp.symm hb
        have h3 : 0 < b.length := by
          cases b with
          | nil => exact absurd rfl hb
          | cons a b => simp
        simp only [List.length_append, h2]
        omega

theorem sendDataC_fst (d : Str × Reader) : (sendDataC d).1 = sendData d := by
  simp [sendDataC, sendData, copy, copyLoopC_fst]

theorem outC_fst (U : Unicode) (cookies : Bool) (ord : MapOrder) (r : Response) :
    (r.outC U cookies ord).1 = sendData (r.getData U cookies ord) := by
  simp [Response.outC, sendDataC_fst, getDataC_fst]

theorem outC_snd (U : Unicode) (cookies : Bool) (ord : MapOrder) (r : Response) :
    (r.outC U cookies ord).1.length ≤ (r.outC U cookies ord).2 ∧
    (r.outC U cookies ord).2 ≤ 6 * (r.outC U cookies ord).1.length + octets r.statusCode.toStr + 2049 := by
  have h1 := getDataC_snd U cookies ord r
  rw [← getDataC_fst] at h1
  simp only [Response.outC, sendDataC, List.length_append]
  have h2 := copyLoopC_snd ((r.getDataC U cookies ord).1.2.size + 1) (r.getDataC U cookies ord).1.2
  simp only [octets] at h1 ⊢
  omega

theorem errorPageC_fst (U : Unicode) (cookies : Bool) (ord : MapOrder) (clock : Int) (kind : StatusCode) :
    (errorPageC U cookies ord clock kind).1 = errorPage U cookies ord clock kind := by
  unfold errorPageC errorPage
  simp only
  cases ((Response.newFromSlice (utf8 notFoundPage)).status kind).defaultHeaders U clock with
  | panic => rfl
  | ok res => simp [Res.bind, outC_fst]

theorem declareErrorC_fst (sv : Server W) (w : W) (kind : StatusCode) :
    (sv.declareErrorC w kind).1 = sv.declareError w kind := by
  simp [Server.declareErrorC, Server.declareError, errorPageC_fst]

/-! ### the handlers -/

namespace Router

theorem dispatchV_fst (req : Request) (mtch : List (List (MatchedPath (Closures S)))) (k : Nat)
    (ix : List Nat) (s : S) : (dispatchV req mtch k ix s).1 = dispatch req mtch k ix s := by
  induction k generalizing ix s with
  | zero => rfl
  | succ k ih =>
    unfold dispatchV dispatch
    simp only
    cases mtch[(scanMin (mtch.zip ix) 0 (0, u64Max)).1]? with
    | none => rfl
    | some v =>
      cases ix[(scanMin (mtch.zip ix) 0 (0, u64Max)).1]? with
      | none => rfl
      | some i =>
        simp only
        cases v[i]? with
        | none => rfl
        | some x =>
          simp only
          cases x.data.closure { request := req, vars := x.vars } s with
          | panic => rfl
          | ok o =>
            simp only [Res.bind_ok']
            split
            · exact ih _ _
            · rfl

theorem dispatchV_snd (req : Request) (mtch : List (List (MatchedPath (Closures S)))) (M : Nat)
    (hM : ∀ l ∈ mtch, ∀ x ∈ l, x.vars.length ≤ M) (k : Nat) (ix : List Nat) (s : S) :
    (dispatchV req mtch k ix s).2 ≤ (dispatchC req mtch k ix s).2 + k * M := by
  induction k generalizing ix s with
  | zero => simp [dispatchV]
  | succ k ih =>
    unfold dispatchV dispatchC
    simp only [Nat.add_mul, Nat.one_mul]
    cases hv : mtch[(scanMin (mtch.zip ix) 0 (0, u64Max)).1]? with
    | none => simp only; omega
    | some v =>
      cases ix[(scanMin (mtch.zip ix) 0 (0, u64Max)).1]? with
      | none => simp only; omega
      | some i =>
        simp only
        cases hx : v[i]? with
        | none => simp only; omega
        | some x =>
          have h := hM v (List.mem_of_getElem? hv) x (List.mem_of_getElem? hx)
          simp only
          cases x.data.closure { request := req, vars := x.vars } s with
          | panic => simp only; omega
          | ok o =>
            have := ih (ix.set (scanMin (mtch.zip ix) 0 (0, u64Max)).1 (i + 1)) o.1
            simp only
            split <;> (simp only; omega)

theorem runV_fst (uv : Bool) (r : Router S) (req : Request) (s : S) : (runV uv r req s).1 = run uv r req s := by
  unfold runV run
  simp only
  cases collectMatches uv r req.requestLine with
  | panic => rfl
  | ok m => exact dispatchV_fst _ _ _ _ _

theorem mergedFrom_vars (uv : Bool) (method : RequestMethod) (q : PathBuf) (i : Nat) (L : List (Reg S)) :
    ∀ x ∈ mergedFrom uv method q i L, x.vars.length ≤ q.length := by
  induction L generalizing i with
  | nil => intro x hx; cases hx
  | cons e L ih =>
    intro x hx
    unfold mergedFrom at hx
    rcases List.mem_append.1 hx with hx | hx
    · split at hx
      · rw [List.mem_singleton] at hx
        subst hx
        exact Spec.Target.vars_length uv e.target q
      · cases hx
    · exact ih _ x hx

theorem runV_snd {r : Router S} {L : List (Reg S)} (h : Inv r L) (uv : Bool) (req : Request)
    (hm : req.requestLine.method ≠ .all) (s : S) :
    (runV uv r req s).2 ≤ (runC uv r req s).2.visited + (runC uv r req s).2.scanned + req.size +
      applicableCount uv req.requestLine.method req.requestLine.path L * req.requestLine.path.length := by
  obtain ⟨m1, h1, h1'⟩ := methodMatches_eq h uv req.requestLine.method req.requestLine.path
  obtain ⟨m2, h2, h2'⟩ := methodMatches_eq h uv .all req.requestLine.path
  have hflat : (mergedFrom uv req.requestLine.method req.requestLine.path 0 L).Perm
      (m1 ++ m2 ++ [r.middlewares.map fun c => (⟨[], c⟩ : MatchedPath (Closures S))]).flatten := by
    refine (merged_perm uv req.requestLine.method hm req.requestLine.path 0 L h.targets).trans ?_
    simp only [h.mids]
    rcases h1' with rfl | ⟨rfl, e1⟩ <;> rcases h2' with rfl | ⟨rfl, e2⟩ <;> simp_all
  obtain ⟨mtch, hmtch⟩ : ∃ m, m = m1 ++ m2 ++ [r.middlewares.map fun c => (⟨[], c⟩ : MatchedPath (Closures S))] :=
    ⟨_, rfl⟩
  have hcol : collectMatches uv r req.requestLine = .ok mtch := by
    simp only [collectMatches, h1, h2, Res.bind_ok', hmtch]
  rw [← hmtch] at hflat
  have hsum : (mtch.map List.length).sum = applicableCount uv req.requestLine.method req.requestLine.path L := by
    rw [← mergedFrom_length uv _ _ 0, hflat.length_eq, List.length_flatten]
  have hvars : ∀ l ∈ mtch, ∀ x ∈ l, x.vars.length ≤ req.requestLine.path.length := fun l hl x hx =>
    mergedFrom_vars uv _ _ 0 L x (hflat.mem_iff.2 (List.mem_flatten.2 ⟨l, hl, hx⟩))
  have hd := dispatchV_snd req mtch _ hvars (mtch.map List.length).sum (List.replicate mtch.length 0) s
  unfold runV runC
  simp only [hcol]
  rw [← hsum]
  omega

end Router

/-! ### the whole -/

theorem handleC_fst (sv : Server W) (w : W) (req : Request) : (sv.handleC w req).1 = sv.handle w req := by
  unfold Server.handleC Server.handle
  cases hv : Http.validate req with
  | panic => rfl
  | ok c =>
    simp only [Res.bind]
    split
    · cases Res.unwrap c.errCode with
      | panic => rfl
      | ok code => simp only [declareErrorC_fst]
    · split
      · rw [← Router.runV_fst]
        cases (Router.runV sv.feat.urlVariables sv.router req (w, Response.newEmpty)).1 with
        | panic => rfl
        | ok p =>
          obtain ⟨w', res⟩ := p
          simp only
          split
          · simp only [declareErrorC_fst]
          · simp only [outC_fst]
      · simp only [declareErrorC_fst]

theorem serveC_fst (sv : Server W) (w : W) (s : Sock) : (sv.serveC w s).1 = sv.serve w s := by
  unfold Server.serveC Server.serve
  simp only [C93_same, C94_same, RequestLine.parseC_fst]
  cases readHead s with
  | panic => rfl
  | pending => rfl
  | abort => rfl
  | ok r =>
    cases r with
    | badRequest => simp only [Io.bind, declareErrorC_fst]
    | head hdrs line rem reader =>
      simp only [Io.bind]
      cases (Headers.parse sv.feat.faithful hdrs).bind Res.unwrap with
      | panic => rfl
      | ok H =>
        simp only [Io.ofRes]
        cases (RequestLine.parse sv.feat.faithful line).bind Res.unwrap with
        | panic => rfl
        | ok rl =>
          simp only
          cases Request.fromRaw sv.feat sv.allocOk H rl rem reader with
          | panic => rfl
          | pending => rfl
          | abort => rfl
          | ok o =>
            cases o with
            | none => simp only [declareErrorC_fst]
            | some req => simp only [handleC_fst]

end Octane
