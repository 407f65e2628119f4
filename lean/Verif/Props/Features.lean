import Verif.Props.Frame
import Verif.Props.Fields
/-
C120: what switching off a cargo feature changes.
-/
namespace Octane
open Spec
universe u
variable {W : Type u} {S : Type u}

/-! ### `faithful` -/

theorem Header.parse_lax {b : Bool} {s : Str} {h : Header} (hp : Header.parse b s = some h) :
    Header.parse false s = some h := by
  revert hp
  unfold Header.parse
  cases splitN2 ':' s with
  | nil => exact id
  | cons name toks =>
    simp only [Bool.false_and, Bool.false_eq_true, if_false]
    by_cases hn : name = []
    · simp [hn]
    · simp only [hn, if_false]
      intro hp
      split at hp
      · cases hp
      · cases toks with
        | nil => cases hp
        | cons v rest =>
          simp only at hp ⊢
          split at hp
          · cases hp
          · exact hp

theorem Headers.parseLoop_lax {b : Bool} {toks : List Bytes} {acc H : Headers}
    (hp : Headers.parseLoop b toks acc = some H) : Headers.parseLoop false toks acc = some H := by
  induction toks generalizing acc with
  | nil => exact hp
  | cons t toks ih =>
    rw [Headers.parseLoop] at hp ⊢
    cases h1 : fromUtf8 t with
    | none => simp [h1] at hp
    | some s =>
      simp only [h1] at hp ⊢
      cases h2 : Header.parse b s with
      | none => simp [h2] at hp
      | some h =>
        simp only [h2] at hp
        simp only [Header.parse_lax h2]
        exact ih hp

theorem Headers.parse_lax {b : Bool} {s : Str} {H : Headers}
    (hp : (Headers.parse b s).bind Res.unwrap = .ok H) : (Headers.parse false s).bind Res.unwrap = .ok H := by
  unfold Headers.parse at *
  cases h1 : Spliterator.collect ((utf8 s).length + 2) (Spliterator.new (utf8 s) [13, 10]) with
  | panic => simp [h1, Res.bind] at hp
  | ok o =>
    cases o with
    | none => simp [h1, Res.bind] at hp
    | some toks =>
      simp only [h1, Res.bind_ok'] at hp ⊢
      cases h2 : Headers.parseLoop b toks { parsed := [], raw := [] } with
      | none => simp [h2, Res.unwrap] at hp
      | some H' =>
        rw [h2] at hp
        rw [Headers.parseLoop_lax h2]
        exact hp

theorem RequestLine.parse_lax {b : Bool} {s : Str} {r : RequestLine}
    (hp : (RequestLine.parse b s).bind Res.unwrap = .ok r) : (RequestLine.parse false s).bind Res.unwrap = .ok r := by
  revert hp
  unfold RequestLine.parse
  cases splitChar ' ' s with
  | nil => exact id
  | cons m l =>
    cases l with
    | nil => exact id
    | cons p toks =>
      simp only
      cases Path.parse p with
      | none => exact id
      | some path =>
        cases toks with
        | nil => exact id
        | cons v rest =>
          simp only
          cases splitAtByte 5 v with
          | panic => exact id
          | ok x =>
            simp only [Res.bind_ok']
            intro hp
            split at hp
            · simp [Res.unwrap] at hp
            · simpa using hp

/-- C120: the feature `faithful` only refuses. If a server built with it does not end the connection's task with a
panic, the same server built without it does exactly the same: what one accepts the other accepts, calls the same
handlers with the same request and writes the same bytes. -/
theorem C120_faithful (sv : Server W) (w : W) (s : Sock) (h : sv.serve w s ≠ .panic) :
    { sv with feat := { sv.feat with faithful := false } }.serve w s = sv.serve w s := by
  revert h
  unfold Server.serve
  cases readHead s with
  | ok o =>
    cases o with
    | badRequest => exact fun _ => rfl
    | head rh rl rem reader =>
      simp only [Io.bind_ok]
      intro h
      cases h1 : (Headers.parse sv.feat.faithful rh).bind Res.unwrap with
      | panic => exact absurd (by rw [h1]; rfl) h
      | ok H =>
        rw [h1] at h
        rw [Headers.parse_lax h1]
        simp only [Io.ofRes_ok, Io.bind_ok] at h ⊢
        cases h2 : (RequestLine.parse sv.feat.faithful rl).bind Res.unwrap with
        | panic => exact absurd (by rw [h2]; rfl) h
        | ok line =>
          rw [RequestLine.parse_lax h2]
          rfl
  | panic => exact fun _ => rfl
  | pending => exact fun _ => rfl
  | abort => exact fun _ => rfl

theorem decode_ne_nil {s : Str} (h : s ≠ []) : decode s ≠ [] := by
  unfold decode
  split
  · exact absurd rfl h
  · simp
  · simp
  · split
    · split <;> simp
    · simp

/-- What the feature does to `Request::get_query`: it takes away the entry of the empty name, and nothing else. Both
settings always give a map. -/
theorem C120_query (q : Str) : ∃ strict lax, Query.parseQuery true q = .ok strict ∧ Query.parseQuery false q = .ok lax ∧
    ∀ k, strict.get k = if k = [] then none else lax.get k := by
  refine ⟨_, _, Query.parseQueryLoop_eq true _ [], Query.parseQueryLoop_eq false _ [], fun k => ?_⟩
  have key : ∀ (toks : List Str) (m m' : HMap Str Str), (m.get k = if k = [] then none else m'.get k) →
      (Query.build m (toks.filterMap (pairOf true))).get k =
        if k = [] then none else (Query.build m' (toks.filterMap (pairOf false))).get k := by
    intro toks
    induction toks with
    | nil => exact fun _ _ h => h
    | cons t toks ih =>
      intro m m' h
      have hf : pairOf false t = some (decode (t.takeWhile (· != '=')), decode ((t.dropWhile (· != '=')).drop 1)) := by
        simp [pairOf]
      by_cases ht : t.takeWhile (· != '=') = []
      · have h1 : pairOf true t = none := by simp [pairOf, ht]
        rw [List.filterMap_cons_none h1, List.filterMap_cons_some hf]
        refine ih _ _ ?_
        rw [ht, HMap.get_insert, h]
        by_cases hk : k = []
        · simp [hk]
        · simp only [hk, if_false]
          rw [if_neg]
          exact fun h => hk h.symm
      · have h1 : pairOf true t = pairOf false t := by simp [pairOf, ht]
        rw [List.filterMap_cons_some hf, List.filterMap_cons_some (h1.trans hf)]
        refine ih _ _ ?_
        rw [HMap.get_insert, HMap.get_insert, h]
        by_cases hk : k = []
        · simp only [hk, if_true]
          rw [if_neg (decode_ne_nil ht)]
        · simp only [hk, if_false]
  exact key _ _ _ (by simp)

/-- a query with empty names in it -/
example : Query.parseQuery true c!"a=1&&=2&b" = .ok [(c!"a", c!"1"), (c!"b", [])] ∧
    Query.parseQuery false c!"a=1&&=2&b" = .ok [(c!"a", c!"1"), ([], c!"2"), (c!"b", [])] := by
  constructor <;> decide +kernel

/-- What the feature does to `Request::get_extended_query`: at most the entry of the empty name changes. -/
theorem C120_extended (q : Str) : ∃ strict lax, Query.parseExtendedQuery true q = .ok strict ∧
    Query.parseExtendedQuery false q = .ok lax ∧ ∀ k, k ≠ [] → strict.get k = lax.get k := by
  refine ⟨_, _, Query.extLoop_eq true _ [], Query.extLoop_eq false _ [], fun k hk => ?_⟩
  have key : ∀ (toks : List Str) (m m' : HMap Str Query.QueryValue), m.get k = m'.get k →
      HMap.get ((toks.filterMap (occOf true)).foldl Query.apply m) k =
        HMap.get ((toks.filterMap (occOf false)).foldl Query.apply m') k := by
    intro toks
    induction toks with
    | nil => exact fun _ _ h => h
    | cons t toks ih =>
      intro m m' h
      by_cases ht : t = []
      · subst ht
        rw [List.filterMap_cons_none (show occOf true [] = none from rfl),
          List.filterMap_cons_some (show occOf false [] = some (.plain [] []) from rfl)]
        refine ih _ _ ?_
        rw [Query.get_apply, if_neg (by simpa [Occ.key] using Ne.symm hk)]
        exact h
      · have ho : occOf true t = occOf false t := by simp [occOf, ht]
        simp only [List.filterMap_cons, ho]
        cases occOf false t with
        | none => exact ih _ _ h
        | some o =>
          simp only [List.foldl_cons]
          refine ih _ _ ?_
          rw [Query.get_apply, Query.get_apply, h]
  exact key _ _ _ rfl

/-- an empty token changes what is under the empty name, nothing else -/
example : Query.parseExtendedQuery true c!"a=1&&[]=2" = .ok [(c!"a", .str c!"1"), ([], .arr [c!"2"])] ∧
    Query.parseExtendedQuery false c!"a=1&&[]=2" = .ok [(c!"a", .str c!"1"), ([], .str [])] := by
  constructor <;> decide +kernel

/-! ### `cookies` -/

/-- reading the body, which depends on no feature -/
private def bodyOf (allocOk : Nat → Bool) (H : Headers) (rem : Bytes) (reader : Sock) : Io Bytes :=
  if contentLength H > 0 then
    if rem.length < contentLength H then
      if contentLength H - rem.length > i64Max then Io.panic
      else if !allocOk (contentLength H - rem.length) then Io.abort
      else
        (readExact (contentLength H - rem.length) reader).bind fun
          | none => .panic
          | some (temp, _) =>
            if contentLength H > i64Max then .panic
            else if !allocOk (contentLength H) then .abort
            else .ok (rem ++ temp)
    else .ok rem
  else .ok []

private theorem fromRaw_bodyOf (feat : Features) (allocOk : Nat → Bool) (H : Headers) (rl : RequestLine) (rem : Bytes)
    (reader : Sock) : Request.fromRaw feat allocOk H rl rem reader =
      (bodyOf allocOk H rem reader).bind fun body => Io.ofRes (Request.parse feat rl H body) := rfl

private def cookiesOf (b : Bool) (H : Headers) : Res (List Cookie) :=
  if b then
    match H.get c!"cookie" with
    | some v => Cookie.parse v
    | none => .ok []
  else .ok []

private theorem parse_cookiesOf (feat : Features) (rl : RequestLine) (H : Headers) (body : Bytes) :
    Request.parse feat rl H body = (cookiesOf feat.cookies H).bind fun cs => .ok (some ⟨rl, H, body, cs⟩) := rfl

/-- The handler does not look at the cookies of the request and puts none on the response. -/
structure Spec.NoCookies (h : Closure (W × Response)) : Prop where
  blind : ∀ req cs vars st, h ⟨{ req with cookies := cs }, vars⟩ st = h ⟨req, vars⟩ st
  sets : ∀ mr st st' fl, h mr st = .ok (st', fl) → st.2.cookies = [] → st'.2.cookies = []

theorem getData_bare (U : Unicode) (b : Bool) (ord : MapOrder) (r : Response) (h : r.cookies = []) :
    r.getData U b ord = r.getData U false ord := by
  cases b
  · rfl
  · simp [Response.getData, Response.headersStr, h, Response.join]

theorem errorPage_bare (U : Unicode) (b : Bool) (ord : MapOrder) (t : Int) (k : StatusCode) :
    errorPage U b ord t k = errorPage U false ord t k := by
  unfold errorPage
  cases h : ((Response.newFromSlice (utf8 notFoundPage)).status k).defaultHeaders U t with
  | panic => rfl
  | ok r =>
    obtain ⟨-, -, -, -, -, -, hc, -⟩ := defaultHeaders_spec h
    simp only [Res.bind_ok']
    rw [getData_bare U b ord _ (by rw [show (r.set c!"Content-Type" c!"text/html").cookies = r.cookies from rfl, hc]; rfl)]

theorem replay_blind (uv : Bool) (req : Request) (cs : List Cookie) (log : List (Reg (W × Response)))
    (hl : ∀ e ∈ log, NoCookies e.handler) (st : W × Response) :
    replay uv { req with cookies := cs } log st = replay uv req log st := by
  induction log generalizing st with
  | nil => rfl
  | cons e log ih =>
    have ih := fun s => ih (fun e he => hl e (List.mem_cons_of_mem _ he)) s
    simp only [replay, ih, (hl e List.mem_cons_self).blind]

theorem replay_bare (uv : Bool) (req : Request) (log : List (Reg (W × Response)))
    (hl : ∀ e ∈ log, NoCookies e.handler) (st st' : W × Response) (hst : st.2.cookies = [])
    (h : replay uv req log st = .ok st') : st'.2.cookies = [] := by
  induction log generalizing st with
  | nil => simp only [replay] at h; injection h with h; rw [← h]; exact hst
  | cons e log ih =>
    have ih := fun s => ih (fun e he => hl e (List.mem_cons_of_mem _ he)) s
    simp only [replay] at h
    split at h
    · split at h
      · cases h
      · rename_i s1 hs
        injection h with h
        subst h
        exact (hl e List.mem_cons_self).sets _ _ _ _ hs hst
      · rename_i s1 hs
        exact ih s1 ((hl e List.mem_cons_self).sets _ _ _ _ hs hst) h
    · exact ih st hst h

/-- C120: the feature `cookies` matters only to those who use it. If no handler looks at cookies or sets any, a server
built with it either panics or does exactly what the same server does without it. -/
theorem C120_cookies (calls : List (Call (W × Response))) (hf : FairL calls) (hn : (logOfL calls).length < 2 ^ 64)
    (sv : Server W) (hsv : execL Router.new calls = .ok sv.router) (hl : ∀ e ∈ logOfL calls, NoCookies e.handler)
    (w : W) (s : Sock) (h : sv.serve w s ≠ .panic) :
    { sv with feat := { sv.feat with cookies := false } }.serve w s = sv.serve w s := by
  have herr : ∀ w k, { sv with feat := { sv.feat with cookies := false } }.declareError w k = sv.declareError w k := by
    intro w k
    simp only [Server.declareError]
    rw [errorPage_bare sv.U sv.feat.cookies]
  revert h
  unfold Server.serve
  cases readHead s with
  | ok o =>
    cases o with
    | badRequest => simp only [Io.bind_ok, herr, ne_eq, implies_true]
    | head rh rl rem reader =>
      simp only [Io.bind_ok]
      intro h
      cases h1 : (Headers.parse sv.feat.faithful rh).bind Res.unwrap with
      | panic => rfl
      | ok H =>
        rw [h1] at h
        simp only [Io.ofRes_ok, Io.bind_ok] at h ⊢
        cases h2 : (RequestLine.parse sv.feat.faithful rl).bind Res.unwrap with
        | panic => rfl
        | ok line =>
          have hm : line.method ≠ .all := by
            cases h3 : RequestLine.parse sv.feat.faithful rl with
            | panic => rw [h3] at h2; cases h2
            | ok o =>
              cases o with
              | none => rw [h3] at h2; cases h2
              | some l =>
                rw [h3] at h2; injection h2 with h2; subst h2
                exact C12_parsed_method _ _ _ h3
          rw [h2] at h
          simp only [Io.ofRes_ok, Io.bind_ok, fromRaw_bodyOf] at h ⊢
          generalize bodyOf sv.allocOk H rem reader = B at h ⊢
          cases B with
          | panic => simp only [Io.bind]
          | pending => simp only [Io.bind]
          | abort => simp only [Io.bind]
          | ok body =>
            simp only [Io.bind_ok, parse_cookiesOf] at h ⊢
            rw [show cookiesOf false H = .ok [] from rfl]
            generalize cookiesOf sv.feat.cookies H = C at h ⊢
            cases C with
            | panic => exact absurd rfl h
            | ok cs =>
              simp only [Res.bind_ok', Io.ofRes_ok, Io.bind_ok]
              refine congrArg Io.ofRes ?_
              obtain ⟨r, hr, hrun⟩ := C12_run_is_replay calls hf hn
              rw [hsv] at hr
              injection hr with hr
              subst hr
              rw [handle_spec, handle_spec]
              simp only [herr]
              split
              · rfl
              · split
                · rfl
                · rw [hrun _ _ _ hm, hrun _ _ _ hm]
                  rw [← replay_blind sv.feat.urlVariables ⟨line, H, body, []⟩ cs _ hl]
                  cases h4 : replay sv.feat.urlVariables ⟨line, H, body, cs⟩ (logOfL calls) (w, Response.newEmpty) with
                  | panic => rfl
                  | ok st =>
                    simp only [Res.bind_ok']
                    rw [getData_bare sv.U sv.feat.cookies sv.ord _ (replay_bare _ _ _ hl _ _ rfl h4)]
  | panic => exact fun _ => rfl
  | pending => exact fun _ => rfl
  | abort => exact fun _ => rfl

/-! ### `url_variables` -/

/-- No segment of the pattern begins with `:`. -/
def Spec.Plain : Target → Prop
  | .on _ p => ∀ s ∈ p, s.head? ≠ some ':'
  | .anyMethod p => ∀ s ∈ p, s.head? ≠ some ':'
  | .everywhere => True

theorem patMatch_plain {p q : PathBuf} (h : ∀ s ∈ p, s.head? ≠ some ':') (b : Bool) :
    PatMatch b p q ↔ p = q := by
  cases b
  · simp only [PatMatch, Bool.false_eq_true, if_false]
    exact ⟨fun x => x.1, fun x => ⟨x, h⟩⟩
  · simp only [PatMatch, if_true, Matches]
    constructor
    · intro ⟨hl, hm⟩
      apply List.ext_getElem hl
      intro i h1 h2
      rcases hm i p[i] q[i] (by simp [h1]) (by simp [h2]) with h3 | h3
      · exact absurd h3 (h _ (List.getElem_mem h1))
      · exact h3
    · rintro rfl
      exact ⟨rfl, fun i a b h1 h2 => .inr (by rw [h1] at h2; exact Option.some.inj h2)⟩

theorem bindings_plain {p q : PathBuf} (h : ∀ s ∈ p, s.head? ≠ some ':') : bindings p q = [] := by
  unfold bindings
  generalize ([] : HMap Str Str) = m
  induction p generalizing q m with
  | nil => simp
  | cons a p ih =>
    cases q with
    | nil => simp
    | cons b q =>
      simp only [List.zip_cons_cons, List.foldl_cons]
      rw [show bindStep m a b = m from ?_]
      · exact ih (fun s hs => h s (List.mem_cons_of_mem _ hs)) m
      · have := h a List.mem_cons_self
        unfold bindStep
        split
        · simp at this
        · rfl

theorem replay_plain (b : Bool) (req : Request) (log : List (Reg S)) (hl : ∀ e ∈ log, Plain e.target) (s : S) :
    replay b req log s = replay false req log s := by
  induction log generalizing s with
  | nil => rfl
  | cons e log ih =>
    have ih := fun s => ih (fun e he => hl e (List.mem_cons_of_mem _ he)) s
    have hp := hl e List.mem_cons_self
    have ha : e.target.applies b req.requestLine.method req.requestLine.path =
        e.target.applies false req.requestLine.method req.requestLine.path := by
      unfold Target.applies
      cases ht : e.target <;> rw [ht] at hp
      · simp only [patMatch_plain hp]
      · simp only [patMatch_plain hp]
    have hv : e.target.vars b req.requestLine.path = e.target.vars false req.requestLine.path := by
      unfold Target.vars
      cases ht : e.target <;> rw [ht] at hp
      · simp [bindings_plain hp]
      · simp [bindings_plain hp]
    simp only [replay, ih, ha, hv]

/-- C120: the feature `url_variables` matters only to patterns that have variables: where no registered pattern has one,
the server does the same with and without it, always. -/
theorem C120_variables (calls : List (Call (W × Response))) (hf : FairL calls) (hn : (logOfL calls).length < 2 ^ 64)
    (sv : Server W) (hsv : execL Router.new calls = .ok sv.router) (hl : ∀ e ∈ logOfL calls, Plain e.target)
    (w : W) (s : Sock) :
    { sv with feat := { sv.feat with urlVariables := false } }.serve w s = sv.serve w s := by
  unfold Server.serve
  cases readHead s with
  | ok o =>
    cases o with
    | badRequest => rfl
    | head rh rl rem reader =>
      simp only [Io.bind_ok]
      cases h1 : (Headers.parse sv.feat.faithful rh).bind Res.unwrap with
      | panic => rfl
      | ok H =>
        simp only [Io.ofRes_ok, Io.bind_ok]
        cases h2 : (RequestLine.parse sv.feat.faithful rl).bind Res.unwrap with
        | panic => rfl
        | ok line =>
          have hm : line.method ≠ .all := by
            cases h3 : RequestLine.parse sv.feat.faithful rl with
            | panic => rw [h3] at h2; cases h2
            | ok o =>
              cases o with
              | none => rw [h3] at h2; cases h2
              | some l =>
                rw [h3] at h2; injection h2 with h2; subst h2
                exact C12_parsed_method _ _ _ h3
          simp only [Io.ofRes_ok, Io.bind_ok, fromRaw_bodyOf]
          generalize bodyOf sv.allocOk H rem reader = B
          cases B with
          | panic => simp only [Io.bind]
          | pending => simp only [Io.bind]
          | abort => simp only [Io.bind]
          | ok body =>
            simp only [Io.bind_ok, parse_cookiesOf]
            generalize cookiesOf sv.feat.cookies H = C
            cases C with
            | panic => rfl
            | ok cs =>
              simp only [Res.bind_ok', Io.ofRes_ok, Io.bind_ok]
              refine congrArg Io.ofRes ?_
              obtain ⟨r, hr, hrun⟩ := C12_run_is_replay calls hf hn
              rw [hsv] at hr
              injection hr with hr
              subst hr
              rw [handle_spec, handle_spec]
              simp only
              rw [hrun _ _ _ hm, hrun _ _ _ hm, replay_plain sv.feat.urlVariables _ _ hl]
              rfl
  | panic => rfl
  | pending => rfl
  | abort => rfl

namespace FeaturesExample

/-- answers everything with `ok` -/
def says : Closure (Unit × Response) := fun _ st =>
  (st.2.send Unicode.asciiOnly 0 (utf8 c!"ok")).bind fun r => .ok (((), r), .stop)

/-- answers with the number of cookies -/
def counts : Closure (Unit × Response) := fun m st =>
  (st.2.send Unicode.asciiOnly 0 (utf8 (showNat m.request.cookies.length))).bind fun r => .ok (((), r), .stop)

def asks (line : Str) : Sock := ⟨[utf8 (c!"GET /a HTTP/1.1\r\nHost: h\r\n" ++ line ++ c!"\r\n\r\n")], .eof⟩

theorem noCookies : NoCookies says where
  blind := fun _ _ _ _ => rfl
  sets := by
    intro mr st st' fl h hc
    simp only [says] at h
    cases hs : st.2.send Unicode.asciiOnly 0 (utf8 c!"ok") with
    | panic => rw [hs] at h; cases h
    | ok r =>
      rw [hs] at h
      simp only [Res.bind_ok', Res.ok.injEq, Prod.mk.injEq] at h
      rw [← h.1]
      obtain ⟨-, -, -, -, -, -, hk, -⟩ := defaultHeaders_spec hs
      exact hk.trans hc

/-- a server of the calls -/
def server (calls : List (Call (Unit × Response))) : Server Unit :=
  { empty with router := match execL Router.new calls with | .ok r => r | .panic => Router.new }

def one : List (Call (Unit × Response)) := [.route .get c!"/a" says]

theorem fair : FairL one := by simp [one, FairL, Fair]

theorem server_ok (calls : List (Call (Unit × Response))) (hf : FairL calls) (hn : (logOfL calls).length < 2 ^ 64) :
    execL Router.new calls = .ok (server calls).router := by
  obtain ⟨r, hr, -⟩ := C12_run_is_replay calls hf hn
  simp only [server, hr]

end FeaturesExample

open FeaturesExample in
/-- the hypotheses of the three theorems are met by a request that is answered -/
example : (server one).serve () (asks c!"A: b") ≠ .panic ∧ execL Router.new one = .ok (server one).router ∧
    (∀ e ∈ logOfL one, NoCookies e.handler) ∧ (∀ e ∈ logOfL one, Plain e.target) := by
  have hl : logOfL one = [⟨.on .get [c!"a"], says⟩] := by rfl
  refine ⟨by decide +kernel, server_ok _ fair (by decide), ?_, ?_⟩
  · rw [hl]; intro e he; rw [List.mem_singleton.1 he]; exact noCookies
  · rw [hl]; intro e he; rw [List.mem_singleton.1 he]; show ∀ s ∈ [c!"a"], s.head? ≠ some ':'; decide

open FeaturesExample in
/-- Each of the conditions is needed. A header name with a blank in it is refused with `faithful` and answered
without; a `Cookie` header that is no cookie ends the task with `cookies` and not without, and a handler that counts
the cookies counts none without; a pattern with a variable answers nothing without `url_variables`. -/
theorem C120_needed :
    (demo says).serve () (asks c!"A B: c") = .panic ∧
    { demo says with feat := { faithful := false, urlVariables := true, cookies := true } }.serve () (asks c!"A B: c") ≠ .panic ∧
    (demo says).serve () (asks c!"Cookie: c") = .panic ∧
    { demo says with feat := { faithful := true, urlVariables := true, cookies := false } }.serve () (asks c!"Cookie: c") ≠ .panic ∧
    (demo counts).serve () (asks c!"Cookie: c=d") ≠ .panic ∧
    { demo counts with feat := { faithful := true, urlVariables := true, cookies := false } }.serve () (asks c!"Cookie: c=d")
      ≠ (demo counts).serve () (asks c!"Cookie: c=d") ∧
    { server [.route .get c!"/:x" says] with feat := { faithful := true, urlVariables := false, cookies := true } }.serve
      () (asks c!"A: b") ≠ (server [.route .get c!"/:x" says]).serve () (asks c!"A: b") := by
  refine ⟨?_, ?_, ?_, ?_, ?_, ?_, ?_⟩ <;> decide +kernel

end Octane
