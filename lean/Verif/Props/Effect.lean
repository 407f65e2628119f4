import Verif.Proof.Effect
import Verif.Props.Answers
import Verif.Props.Order
import Verif.Props.Programs
/-
C167: when two handlers without branches do the same. Four responses tell, fewer do not.
-/
namespace Octane
open Spec
variable {W : Type u}

/-- an effect makes the same of the same responses -/
theorem Effect.Says.same {U : Unicode} {e : Effect} {r r' a a' : Response} (h : e.Says U r a) (h' : e.Says U r' a')
    (hr : SameResponse r r') : SameResponse a a' := by
  refine ⟨?_, ?_, ?_, ?_, ?_, ?_, fun k => ?_⟩
  · rw [h.body, h'.body, hr.body]
  · rw [h.status, h'.status, hr.status]
  · rw [h.len, h'.len, hr.len]
  · rw [h.version, h'.version, hr.version]
  · rw [h.charset, h'.charset, hr.charset]
  · rw [h.cookies, h'.cookies, hr.cookies]
  · by_cases h1 : k = c!"Content-Type"
    · subst h1; rw [h.ct, h'.ct, hr.header, hr.charset]
    · by_cases h2 : k = c!"Content-Length"
      · subst h2; rw [h.cl, h'.cl, hr.header, hr.len]
      · rw [h.header k h1 h2, h'.header k h1 h2, hr.header]

/-- operations panic on all responses or on none -/
theorem execOps_panics (U : Unicode) (ops : List ResOp) (r r' : Response) (h : execOps U r ops = .panic) :
    execOps U r' ops = .panic :=
  (C139_ops U r' ops).2 ((C139_ops U r ops).1 h)

theorem execOps_same (U : Unicode) (ops : List ResOp) {r r' : Response} (hu : HMap.Uniq r.headers)
    (hu' : HMap.Uniq r'.headers) (h : SameResponse r r') : SameOutcome (execOps U r ops) (execOps U r' ops) := by
  obtain ⟨e, he⟩ := effect_of U ops
  cases ha : execOps U r ops with
  | panic => rw [execOps_panics U ops r r' ha]; trivial
  | ok a =>
    cases hb : execOps U r' ops with
    | panic => rw [execOps_panics U ops r' r hb] at ha; cases ha
    | ok b => exact (he r a hu ha).same (he r' b hu' hb) h

/-- C167: two sequences of operations on a response do the same to every response exactly if they do the same to the
four test responses made from the header names they mention. -/
theorem C167_four (U : Unicode) (ops ops' : List ResOp) :
    SameWork U ops ops' ↔
      ∀ r ∈ probes (namesOf ops ops'), SameOutcome (execOps U r ops) (execOps U r ops') := by
  constructor
  · intro h r hr
    refine h r ?_
    simp only [probes, List.mem_cons, List.not_mem_nil, or_false] at hr
    rcases hr with rfl | rfl | rfl | rfl
    · exact everyX_uniq _
    all_goals exact HMap.Uniq.nil
  · intro h r hu
    obtain ⟨e, he⟩ := effect_of U ops
    obtain ⟨e', he'⟩ := effect_of U ops'
    cases ha : execOps U r ops with
    | panic =>
      have hp := h _ (.head _)
      rw [execOps_panics U ops r _ ha] at hp
      have : ∀ p, SameOutcome .panic (execOps U p ops') → execOps U r ops' = .panic := by
        intro p hp
        cases hq : execOps U p ops' with
        | panic => exact execOps_panics U ops' p r hq
        | ok q => rw [hq] at hp; exact hp.elim
      rw [this _ hp]
      trivial
    | ok a =>
      have good : ∀ p ∈ probes (namesOf ops ops'), HMap.Uniq p.headers → ∃ x y, e.Says U p x ∧ e'.Says U p y ∧
          SameResponse x y ∧ execOps U p ops = .ok x ∧ execOps U p ops' = .ok y := by
        intro p hp hup
        have hs := h p hp
        cases hx : execOps U p ops with
        | panic => rw [execOps_panics U ops p r hx] at ha; cases ha
        | ok x =>
          cases hy : execOps U p ops' with
          | panic => rw [hx, hy] at hs; exact hs.elim
          | ok y =>
            rw [hx, hy] at hs
            exact ⟨x, y, he p x hup hx, he' p y hup hy, hs, rfl, rfl⟩
      obtain ⟨x1, y1, a1, b1, s1, -, e1⟩ := good _ (.head _) (everyX_uniq _)
      obtain ⟨x2, y2, a2, b2, s2, -, -⟩ := good _ (.tail _ (.head _)) HMap.Uniq.nil
      obtain ⟨x3, y3, a3, b3, s3, -, -⟩ := good _ (.tail _ (.tail _ (.head _))) HMap.Uniq.nil
      obtain ⟨x4, y4, a4, b4, s4, -, -⟩ := good _ (.tail _ (.tail _ (.tail _ (.head _)))) HMap.Uniq.nil
      cases hb : execOps U r ops' with
      | panic => rw [execOps_panics U ops' r _ hb] at e1; cases e1
      | ok b =>
        have sa := he r a hu ha
        have sb := he' r b hu hb
        refine ⟨?_, ?_, ?_, ?_, ?_, ?_, fun k => ?_⟩
        · rw [sa.body, sb.body]
          refine two_tests ?_ (by rw [← a1.body, ← b1.body, s1.body]) (by rw [← a2.body, ← b2.body, s2.body]) _
          dsimp only; decide
        · rw [sa.status, sb.status]
          refine two_tests ?_ (by rw [← a1.status, ← b1.status, s1.status])
            (by rw [← a2.status, ← b2.status, s2.status]) _
          dsimp only; decide
        · rw [sa.len, sb.len]
          refine two_tests ?_ (by rw [← a1.len, ← b1.len, s1.len]) (by rw [← a3.len, ← b3.len, s3.len]) _
          dsimp only; decide
        · rw [sa.version, sb.version]
          refine two_tests ?_ (by rw [← a1.version, ← b1.version, s1.version])
            (by rw [← a2.version, ← b2.version, s2.version]) _
          dsimp only; decide
        · rw [sa.charset, sb.charset]
          refine two_tests ?_ (by rw [← a1.charset, ← b1.charset, s1.charset])
            (by rw [← a3.charset, ← b3.charset, s3.charset]) _
          dsimp only; decide
        · rw [sa.cookies, sb.cookies]
          exact cookies_tests (by rw [← a1.cookies, ← b1.cookies, s1.cookies])
            (by rw [← a2.cookies, ← b2.cookies, s2.cookies]) _
        · by_cases hk : k ∈ namesOf ops ops'
          · have g1 := s1.header k
            have g2 := s2.header k
            have g3 := s3.header k
            have g4 := s4.header k
            have hx := everyX_get hk
            by_cases h1 : k = c!"Content-Type"
            · subst h1
              rw [sa.ct, sb.ct]
              rw [a1.ct, b1.ct] at g1
              rw [a2.ct, b2.ct] at g2
              rw [a3.ct, b3.ct] at g3
              simp only [Response.get, hx, HMap.get] at g1 g2 g3
              exact ct_tests g1 g2 g3 _ _
            · by_cases h2 : k = c!"Content-Length"
              · subst h2
                rw [sa.cl, sb.cl]
                rw [a1.cl, b1.cl] at g1
                rw [a2.cl, b2.cl] at g2
                rw [a3.cl, b3.cl] at g3
                rw [a4.cl, b4.cl] at g4
                simp only [Response.get, hx, HMap.get] at g1 g2 g3 g4
                exact cl_tests g1 g2 g3 g4 _ _
              · rw [sa.header k h1 h2, sb.header k h1 h2]
                rw [a1.header k h1 h2, b1.header k h1 h2] at g1
                rw [a2.header k h1 h2, b2.header k h1 h2] at g2
                simp only [Response.get, hx, HMap.get] at g1 g2
                exact Fate.two_tests g1 g2 _
          · simp only [namesOf, List.mem_flatMap, List.mem_append, not_exists, not_and] at hk
            rw [execOps_frame ha hu fun o ho => hk o (.inl ho), execOps_frame hb hu fun o ho => hk o (.inr ho)]

/-! ### three are not enough -/

theorem defaultHeaders_same {U : Unicode} {a b a' b' : Response} {clock : Int}
    (ha : a.defaultHeaders U clock = .ok a') (hb : b.defaultHeaders U clock = .ok b')
    (body : a.body = b.body) (status : a.statusCode = b.statusCode) (len : a.contentLen = b.contentLen)
    (version : a.httpVersion = b.httpVersion) (charset : a.charset = b.charset) (cookies : a.cookies = b.cookies)
    (header : ∀ k, k ≠ c!"Content-Length" → a.get k = b.get k)
    (cl : a.contentLen = none → a.get c!"Content-Length" = b.get c!"Content-Length") : SameResponse a' b' := by
  obtain ⟨-, h2, h3, h4, h5, h6, h7, -, h9, h10, ⟨d, hd, h11⟩, h12⟩ := defaultHeaders_spec ha
  obtain ⟨-, g2, g3, g4, g5, g6, g7, -, g9, g10, ⟨d', hd', g11⟩, g12⟩ := defaultHeaders_spec hb
  rw [hd] at hd'
  injection hd' with hd'
  subst hd'
  refine ⟨?_, ?_, ?_, ?_, ?_, ?_, fun k => ?_⟩
  · rw [h2, g2, body]
  · rw [h3, g3, status]
  · rw [h4, g4, len]
  · rw [h5, g5, version]
  · rw [h6, g6, charset]
  · rw [h7, g7, cookies]
  · by_cases k1 : k = c!"Content-Length"
    · subst k1
      rw [h9, g9, ← len]
      cases hl : a.contentLen with
      | none => exact cl hl
      | some n => rfl
    · by_cases k2 : k = c!"Content-Type"
      · subst k2
        rw [h10, g10, header _ k1, charset]
      · by_cases k3 : k = c!"Date"
        · subst k3
          rw [h11, g11, header _ k1]
        · rw [h12 k k1 k2 k3, g12 k k1 k2 k3, header k k1]

/-- of three responses, those without a length agree on the header, or those with one agree on the length -/
theorem three_holes (rs : List Response) (h : rs.length ≤ 3) :
    (∃ o, ∀ r ∈ rs, r.contentLen = none → r.get c!"Content-Length" = o) ∨
    (∃ n, ∀ r ∈ rs, r.contentLen = none ∨ r.contentLen = some n) := by
  rcases rs with _ | ⟨a, _ | ⟨b, _ | ⟨c, _ | ⟨d, l⟩⟩⟩⟩
  · exact .inl ⟨none, by simp⟩
  · exact .inl ⟨a.get c!"Content-Length", by simp⟩
  · cases ha : a.contentLen with
    | none => 
      cases hb : b.contentLen with
      | none => exact .inr ⟨0, by simp [ha, hb]⟩
      | some n => exact .inr ⟨n, by simp [ha, hb]⟩
    | some m => exact .inl ⟨b.get c!"Content-Length", by simp [ha]⟩
  · cases ha : a.contentLen <;> cases hb : b.contentLen <;> cases hc : c.contentLen
    case none.none.none => exact .inr ⟨0, by simp [ha, hb, hc]⟩
    case none.none.some n => exact .inr ⟨n, by simp [ha, hb, hc]⟩
    case none.some.none n => exact .inr ⟨n, by simp [ha, hb, hc]⟩
    case some.none.none n => exact .inr ⟨n, by simp [ha, hb, hc]⟩
    case none.some.some => exact .inl ⟨a.get c!"Content-Length", by simp [hb, hc]⟩
    case some.none.some => exact .inl ⟨b.get c!"Content-Length", by simp [ha, hc]⟩
    case some.some.none => exact .inl ⟨c.get c!"Content-Length", by simp [ha, hb]⟩
    case some.some.some => exact .inl ⟨none, by simp [ha, hb, hc]⟩
  · simp at h

/-- C167: no three responses would do. Whatever three are tried, some two sequences of operations do the same to each
of them and yet not to every response. -/
theorem C167_not_three (U : Unicode) (rs : List Response) (h : rs.length ≤ 3) (hu : ∀ r ∈ rs, HMap.Uniq r.headers) :
    ∃ ops ops', (∀ r ∈ rs, SameOutcome (execOps U r ops) (execOps U r ops')) ∧ ¬ SameWork U ops ops' := by
  have ex : ∀ r : Response, ∃ r', r.defaultHeaders U 0 = .ok r' := fun r => defaultHeaders_ok (by decide) r
  have gs : ∀ (r : Response) (k v j : Str), (r.set k v).get j = if k = j then some v else r.get j :=
    fun r k v j => HMap.get_insert _ _ _ _
  rcases three_holes rs h with ⟨o, ho⟩ | ⟨n, hn⟩
  · cases o with
    | some v =>
      refine ⟨[.defaultHeaders 0], [.set c!"Content-Length" v, .defaultHeaders 0], fun r hr => ?_, fun hw => ?_⟩
      · obtain ⟨a, ha⟩ := ex r
        obtain ⟨b, hb⟩ := ex (r.set c!"Content-Length" v)
        simp only [execOps, ResOp.exec, Res.bind_ok', ha, hb]
        exact defaultHeaders_same ha hb rfl rfl rfl rfl rfl rfl
          (fun k hk => by rw [gs, if_neg (fun e => hk e.symm)])
          (fun hl => by rw [gs, if_pos rfl, ho r hr hl])
      · have := hw Response.newEmpty HMap.Uniq.nil
        obtain ⟨a, ha⟩ := ex Response.newEmpty
        obtain ⟨b, hb⟩ := ex (Response.newEmpty.set c!"Content-Length" v)
        simp only [execOps, ResOp.exec, Res.bind_ok', ha, hb] at this
        have h1 := this.header c!"Content-Length"
        rw [(defaultHeaders_spec ha).2.2.2.2.2.2.2.2.1, (defaultHeaders_spec hb).2.2.2.2.2.2.2.2.1] at h1
        simp [Response.newEmpty, Response.set, Response.get, HMap.get] at h1
    | none =>
      refine ⟨[.defaultHeaders 0], [.removeHeader c!"Content-Length", .defaultHeaders 0], fun r hr => ?_, fun hw => ?_⟩
      · obtain ⟨a, ha⟩ := ex r
        obtain ⟨b, hb⟩ := ex { r with headers := r.headers.remove c!"Content-Length" }
        simp only [execOps, ResOp.exec, Res.bind_ok', ha, hb]
        have g : ∀ j, Response.get { r with headers := r.headers.remove c!"Content-Length" } j =
            if c!"Content-Length" = j then none else r.get j := fun j => HMap.get_remove (hu r hr) _ j
        exact defaultHeaders_same ha hb rfl rfl rfl rfl rfl rfl
          (fun k hk => by rw [g, if_neg (fun e => hk e.symm)])
          (fun hl => by rw [g, if_pos rfl, ho r hr hl])
      · have hu0 : HMap.Uniq (Response.newEmpty.set c!"Content-Length" c!"y").headers := HMap.Uniq.insert HMap.Uniq.nil _ _
        have := hw (Response.newEmpty.set c!"Content-Length" c!"y") hu0
        obtain ⟨a, ha⟩ := ex (Response.newEmpty.set c!"Content-Length" c!"y")
        obtain ⟨b, hb⟩ := ex { Response.newEmpty.set c!"Content-Length" c!"y" with
          headers := (Response.newEmpty.set c!"Content-Length" c!"y").headers.remove c!"Content-Length" }
        simp only [execOps, ResOp.exec, Res.bind_ok', ha, hb] at this
        have h1 := this.header c!"Content-Length"
        rw [(defaultHeaders_spec ha).2.2.2.2.2.2.2.2.1, (defaultHeaders_spec hb).2.2.2.2.2.2.2.2.1] at h1
        revert h1
        decide +kernel
  · refine ⟨[.defaultHeaders 0, .set c!"Content-Length" (showNat n)],
      [.set c!"Content-Length" (showNat n), .defaultHeaders 0], fun r hr => ?_, fun hw => ?_⟩
    · obtain ⟨a, ha⟩ := ex r
      obtain ⟨b, hb⟩ := ex (r.set c!"Content-Length" (showNat n))
      simp only [execOps, ResOp.exec, Res.bind_ok', ha, hb]
      obtain ⟨-, h2, h3, h4, h5, h6, h7, -, h9, h10, ⟨d, hd, h11⟩, h12⟩ := defaultHeaders_spec ha
      obtain ⟨-, g2, g3, g4, g5, g6, g7, -, g9, g10, ⟨d', hd', g11⟩, g12⟩ := defaultHeaders_spec hb
      rw [hd] at hd'
      injection hd' with hd'
      subst hd'
      refine ⟨h2.trans g2.symm, h3.trans g3.symm, h4.trans g4.symm, h5.trans g5.symm, h6.trans g6.symm,
        h7.trans g7.symm, fun k => ?_⟩
      rw [gs]
      by_cases k1 : c!"Content-Length" = k
      · rw [if_pos k1, ← k1, g9]
        show _ = match r.contentLen with | some n => _ | none => _
        rcases hn r hr with hl | hl <;> rw [hl]
        exact (by rw [gs, if_pos rfl])
      · rw [if_neg k1]
        by_cases k2 : k = c!"Content-Type"
        · subst k2
          rw [h10, g10, gs, if_neg k1]
          rfl
        · by_cases k3 : k = c!"Date"
          · subst k3
            rw [h11, g11, gs, if_neg k1]
          · rw [h12 k (fun e => k1 e.symm) k2 k3, g12 k (fun e => k1 e.symm) k2 k3, gs, if_neg k1]
    · have := hw { Response.newEmpty with contentLen := some (n + 1) } HMap.Uniq.nil
      obtain ⟨a, ha⟩ := ex { Response.newEmpty with contentLen := some (n + 1) }
      obtain ⟨b, hb⟩ := ex (Response.set { Response.newEmpty with contentLen := some (n + 1) } c!"Content-Length" (showNat n))
      simp only [execOps, ResOp.exec, Res.bind_ok', ha, hb] at this
      have h1 := this.header c!"Content-Length"
      rw [gs, if_pos rfl, (defaultHeaders_spec hb).2.2.2.2.2.2.2.2.1] at h1
      have h2 : some (showNat n) = some (showNat (n + 1)) := h1
      injection h2 with h2
      have := showNat_inj h2
      omega

/-! ### in a server -/

theorem Spec.SameResponse.perm {a b : Response} (h : SameResponse a b) (ha : HMap.Uniq a.headers)
    (hb : HMap.Uniq b.headers) : a.headers.Perm b.headers := by
  have nd : ∀ {m : HMap Str Str}, HMap.Uniq m → m.Nodup := fun {m} h =>
    (List.pairwise_map.1 h).imp fun {_ _} hne e => hne (congrArg Prod.fst e)
  rw [List.perm_ext_iff_of_nodup (nd ha) (nd hb)]
  intro ⟨k, v⟩
  rw [← HMap.get_eq_some_iff ha, ← HMap.get_eq_some_iff hb]
  show a.get k = some v ↔ b.get k = some v
  rw [h.header]

/-- the bytes of two such responses differ at most in the order of the header lines -/
theorem sendData_same (U : Unicode) (cookies : Bool) (ord : MapOrder) {r r' : Response} (w : W)
    (h : SameResponse r r') (hu : HMap.Uniq r.headers) (hu' : HMap.Uniq r'.headers) :
    SameUpToOrder (.ok (w, sendData (r.getData U cookies ord)))
      (.ok (w, sendData (r'.getData U cookies ord))) := by
  refine ⟨rfl, c!"HTTP" ++ c!"/" ++ r.httpVersion ++ [' '] ++ showInt r.statusCode.code ++ [' '] ++
    r.reasonPhrase U, ord.enum r.headers, ord.enum r'.headers,
    utf8 ((if cookies then Response.join c!"\r\n" (r.cookies.map Cookie.serialise) else []) ++ c!"\r\n") ++
      (copy r.body.getReader).1, ((ord.perm _).trans (h.perm hu hu')).trans (ord.perm _).symm, ?_, ?_⟩
  · simp only [sendData, Response.getData, Response.headersStr, Response.statusLine, utf8_append,
      headersStr_bytes]
    have : utf8 c!"\r\n" = crlfB := rfl
    simp only [this, List.append_assoc]
  · simp only [sendData, Response.getData, Response.headersStr, Response.statusLine, utf8_append,
      headersStr_bytes, h.body, h.status, h.version, h.cookies, Response.reasonPhrase]
    have : utf8 c!"\r\n" = crlfB := rfl
    simp only [this, List.append_assoc]

/-- what scripts do if the operations of one are replaced -/
theorem allOps_replace (uv : Bool) (req : Request) (now : Int) (pre post : List Script) (t : Target) (fl : Flow) :
    (∃ ops, ∀ a : MatchedRequest → Int → List ResOp,
      Script.allOps uv req now (pre ++ ⟨t, a, fl⟩ :: post) = ops) ∨
    ∃ P Q, ∀ a : MatchedRequest → Int → List ResOp,
      Script.allOps uv req now (pre ++ ⟨t, a, fl⟩ :: post) =
        P ++ (a ⟨req, t.vars uv req.requestLine.path⟩ now ++ Q) := by
  unfold Script.allOps Script.ran
  induction pre with
  | nil =>
    have ht : ∀ a : MatchedRequest → Int → List ResOp, Target.applies uv (Script.mk t a fl).target
        req.requestLine.method req.requestLine.path = t.applies uv req.requestLine.method req.requestLine.path :=
      fun _ => rfl
    simp only [List.nil_append, List.filter_cons, ht]
    by_cases ha : t.applies uv req.requestLine.method req.requestLine.path = true
    · right
      simp only [if_pos ha]
      exact ⟨[], (if fl = .stop then [] else upToStop Script.flow (post.filter fun x =>
        x.target.applies uv req.requestLine.method req.requestLine.path)).flatMap fun x =>
          x.ops ⟨req, x.target.vars uv req.requestLine.path⟩ now, fun a => rfl⟩
    · simp only [if_neg ha]
      exact .inl ⟨(upToStop Script.flow (post.filter fun x =>
        x.target.applies uv req.requestLine.method req.requestLine.path)).flatMap fun x =>
          x.ops ⟨req, x.target.vars uv req.requestLine.path⟩ now, fun _ => rfl⟩
  | cons x pre ih =>
    simp only [List.cons_append, List.filter_cons]
    by_cases ha : x.target.applies uv req.requestLine.method req.requestLine.path = true
    · simp only [if_pos ha]
      cases hx : x.flow with
      | stop =>
        left
        refine ⟨x.ops ⟨req, x.target.vars uv req.requestLine.path⟩ now, fun a => ?_⟩
        rw [upToStop_stop _ hx]
        simp
      | next =>
        rcases ih with ⟨ops, ih⟩ | ⟨P, Q, ih⟩
        · left
          refine ⟨x.ops ⟨req, x.target.vars uv req.requestLine.path⟩ now ++ ops, fun a => ?_⟩
          rw [upToStop_next _ hx, List.flatMap_cons, ih a]
        · right
          refine ⟨x.ops ⟨req, x.target.vars uv req.requestLine.path⟩ now ++ P, Q, fun a => ?_⟩
          rw [upToStop_next _ hx, List.flatMap_cons, ih a, List.append_assoc]
    · simp only [if_neg ha]
      exact ih

/-- Doing the same is kept in context: before, after and in between. -/
theorem C167_context (U : Unicode) (P Q ops ops' : List ResOp) (h : SameWork U ops ops') :
    SameWork U (P ++ (ops ++ Q)) (P ++ (ops' ++ Q)) := by
  intro r hu
  rw [execOps_append, execOps_append]
  cases hp : execOps U r P with
  | panic => trivial
  | ok a =>
    simp only [Res.bind_ok']
    have hua := execOps_uniq hp hu
    have hs := h a hua
    rw [execOps_append, execOps_append]
    cases hx : execOps U a ops with
    | panic =>
      cases hy : execOps U a ops' with
      | panic => trivial
      | ok y => rw [hx, hy] at hs; exact hs.elim
    | ok x =>
      cases hy : execOps U a ops' with
      | panic => rw [hx, hy] at hs; exact hs.elim
      | ok y =>
        rw [hx, hy] at hs
        simp only [Res.bind_ok']
        exact execOps_same U Q (execOps_uniq hx hua) (execOps_uniq hy hua) hs

/-- C167 in a server: if the operations of a handler without branches are replaced by others that do the same, for
every request and at every time, then with every connection the server does the same: the same outcome, the same
state, and the same bytes up to the order of the header lines. -/
theorem C167_server (sv : Server W) (calls calls' : List (Call (W × Response))) (hf : FairL calls) (hf' : FairL calls')
    (hn : (logOfL calls).length < 2 ^ 64) (hn' : (logOfL calls').length < 2 ^ 64) (r' : Router (W × Response))
    (hr : execL Router.new calls = .ok sv.router) (hr' : execL Router.new calls' = .ok r')
    (pre post : List Script) (t : Target) (a b : MatchedRequest → Int → List ResOp) (fl : Flow)
    (hab : ∀ mr now, SameWork sv.U (a mr now) (b mr now))
    (hlog : logOfL calls = (pre ++ ⟨t, a, fl⟩ :: post).map (Script.reg sv.U sv.clock))
    (hlog' : logOfL calls' = (pre ++ ⟨t, b, fl⟩ :: post).map (Script.reg sv.U sv.clock))
    (w : W) (s : Sock) : SameUpToOrder (sv.serve w s) ({ sv with router := r' }.serve w s) := by
  obtain ⟨x, hx, hrx⟩ := C12_run_is_replay calls hf hn
  rw [hr] at hx
  injection hx with hx
  subst hx
  obtain ⟨y, hy, hry⟩ := C12_run_is_replay calls' hf' hn'
  rw [hr'] at hy
  injection hy with hy
  subst hy
  rw [serve_readRest, serve_readRest]
  show SameUpToOrder ((readRest sv.feat sv.allocOk s (.head [])).bind _) ((readRest sv.feat sv.allocOk s (.head [])).bind _)
  have page : ∀ k, SameUpToOrder (Io.ofRes (sv.declareError w k))
      (Io.ofRes ({ sv with router := r' }.declareError w k)) := fun k => declareError_order sv sv.ord w k
  cases hread : readRest sv.feat sv.allocOk s (.head []) with
  | panic => trivial
  | pending => trivial
  | abort => trivial
  | ok o =>
    cases o with
    | none => exact page _
    | some req =>
      simp only [Io.bind_ok]
      rw [handle_spec, handle_spec]
      obtain ⟨q, n, hq, hw, -⟩ := readRest_received hread
      split
      · exact page _
      · split
        · exact page _
        · rename_i hne
          rcases hw.method with hm | ⟨-, hm⟩
          · have hall : req.requestLine.method ≠ .all := by
              intro e
              rw [e] at hm
              simp [methodTable] at hm
            rw [hrx _ _ _ hall]
            show SameUpToOrder _ (Io.ofRes ((Router.run sv.feat.urlVariables r' req (w, Response.newEmpty)).bind _))
            rw [hry _ _ _ hall, hlog, hlog', replay_scripts, replay_scripts]
            have hs : SameOutcome
                (execOps sv.U Response.newEmpty (Script.allOps sv.feat.urlVariables req (sv.clock w) (pre ++ ⟨t, a, fl⟩ :: post)))
                (execOps sv.U Response.newEmpty (Script.allOps sv.feat.urlVariables req (sv.clock w) (pre ++ ⟨t, b, fl⟩ :: post))) := by
              rcases allOps_replace sv.feat.urlVariables req (sv.clock w) pre post t fl with ⟨ops, h⟩ | ⟨P, Q, h⟩
              · rw [h, h]
                exact execOps_same _ _ HMap.Uniq.nil HMap.Uniq.nil ⟨rfl, rfl, rfl, rfl, rfl, rfl, fun _ => rfl⟩
              · rw [h, h]
                exact C167_context _ _ _ _ _ (hab _ _) _ HMap.Uniq.nil
            revert hs
            cases ha : execOps sv.U Response.newEmpty
              (Script.allOps sv.feat.urlVariables req (sv.clock w) (pre ++ ⟨t, a, fl⟩ :: post)) with
            | panic =>
              cases hb : execOps sv.U Response.newEmpty
                (Script.allOps sv.feat.urlVariables req (sv.clock w) (pre ++ ⟨t, b, fl⟩ :: post)) with
              | panic => exact fun _ => trivial
              | ok y => exact fun hs => hs.elim
            | ok x =>
              cases hb : execOps sv.U Response.newEmpty
                (Script.allOps sv.feat.urlVariables req (sv.clock w) (pre ++ ⟨t, b, fl⟩ :: post)) with
              | panic => exact fun hs => hs.elim
              | ok y =>
                intro hs
                simp only [Res.bind_ok']
                have hbody : y.hasBody = x.hasBody := by unfold Response.hasBody; rw [hs.body]
                rw [hbody]
                split
                · exact page _
                · exact sendData_same _ _ _ _ hs (execOps_uniq ha HMap.Uniq.nil) (execOps_uniq hb HMap.Uniq.nil)
          · exact absurd hm hne

/-! ### by computation -/

/-- the comparison, computed: the fields, and the names present in one or the other -/
def Spec.sameB : Res Response → Res Response → Bool
  | .ok a, .ok b => decide (a.body = b.body) && decide (a.statusCode = b.statusCode) &&
      decide (a.contentLen = b.contentLen) && decide (a.httpVersion = b.httpVersion) &&
      decide (a.charset = b.charset) && decide (a.cookies = b.cookies) &&
      (a.headers.map (·.1) ++ b.headers.map (·.1)).all fun k => decide (a.get k = b.get k)
  | .panic, .panic => true
  | _, _ => false

theorem sameB_iff (x y : Res Response) : sameB x y = true ↔ SameOutcome x y := by
  cases x with
  | panic => cases y <;> simp [sameB, SameOutcome]
  | ok a =>
    cases y with
    | panic => simp [sameB, SameOutcome]
    | ok b =>
      simp only [sameB, SameOutcome, Bool.and_eq_true, decide_eq_true_eq, List.all_eq_true]
      constructor
      · rintro ⟨⟨⟨⟨⟨⟨h1, h2⟩, h3⟩, h4⟩, h5⟩, h6⟩, h7⟩
        refine ⟨h1, h2, h3, h4, h5, h6, fun k => ?_⟩
        by_cases hk : k ∈ a.headers.map (·.1) ++ b.headers.map (·.1)
        · exact h7 k hk
        · simp only [List.mem_append, not_or] at hk
          have ha : a.get k = none := HMap.get_eq_none_iff.2 hk.1
          have hb : b.get k = none := HMap.get_eq_none_iff.2 hk.2
          rw [ha, hb]
      · rintro ⟨h1, h2, h3, h4, h5, h6, h7⟩
        exact ⟨⟨⟨⟨⟨⟨h1, h2⟩, h3⟩, h4⟩, h5⟩, h6⟩, fun k _ => h7 k⟩

/-- C167: so it can be computed whether two sequences of operations do the same. -/
theorem C167_decides (U : Unicode) (ops ops' : List ResOp) :
    ((probes (namesOf ops ops')).all fun r => sameB (execOps U r ops) (execOps U r ops')) = true ↔
      SameWork U ops ops' := by
  rw [C167_four, List.all_eq_true]
  exact forall_congr' fun r => forall_congr' fun _ => sameB_iff _ _

namespace EffectExample

/-- the status may be set before or after the text -/
example : SameWork Unicode.asciiOnly [.status .notFound, .send 0 [104, 105]] [.send 0 [104, 105], .status .notFound] :=
  (C167_decides _ _ _).1 (by decide +kernel)

/-- a text sent twice is a text sent once -/
example : SameWork Unicode.asciiOnly [.send 0 [97], .send 0 [104, 105]] [.send 0 [104, 105]] :=
  (C167_decides _ _ _).1 (by decide +kernel)

/-- the type after a text replaces the default -/
example : SameWork Unicode.asciiOnly [.send 0 [104, 105], .withType c!"a/b"] [.withType c!"a/b", .send 0 [104, 105]] :=
  (C167_decides _ _ _).1 (by decide +kernel)

/-- the character set must be set before the text -/
example : ¬ SameWork Unicode.asciiOnly [.charset c!"utf-8", .send 0 [104, 105]] [.send 0 [104, 105], .charset c!"utf-8"] :=
  fun h => absurd ((C167_decides _ _ _).2 h) (by decide +kernel)

/-- a header that is set and removed again is not as if nothing had been done -/
example : ¬ SameWork Unicode.asciiOnly [.set c!"A" c!"b", .removeHeader c!"A"] [] :=
  fun h => absurd ((C167_decides _ _ _).2 h) (by decide +kernel)

/-- for every status, two texts and every time: with a general proof -/
example (U : Unicode) (c : StatusCode) (k v : Str) : SameWork U [.status c, .set k v] [.set k v, .status c] :=
  fun _ _ => ⟨rfl, rfl, rfl, rfl, rfl, rfl, fun _ => rfl⟩

/-- the empty response and those with length 0 and 1 do not do as tests -/
example : ∃ ops ops', (∀ r ∈ [Response.newEmpty, Response.newFromSlice [], Response.newFromSlice [97]],
    SameOutcome (execOps Unicode.asciiOnly r ops) (execOps Unicode.asciiOnly r ops')) ∧
    ¬ SameWork Unicode.asciiOnly ops ops' :=
  C167_not_three _ _ (by decide) (by intro r hr; simp at hr; rcases hr with rfl | rfl | rfl <;> exact HMap.Uniq.nil)

/-- a server whose handler sends a text and then sets the status, and one with the two exchanged; the bytes differ in
the order of the lines only, and here not at all -/
def first : List (Call (Unit × Response)) :=
  [.add (Script.reg Unicode.asciiOnly (fun _ => 0)
    ⟨.everywhere, fun _ _ => [.send 0 [104, 105], .status .notFound], .stop⟩).handler]
def second : List (Call (Unit × Response)) :=
  [.add (Script.reg Unicode.asciiOnly (fun _ => 0)
    ⟨.everywhere, fun _ _ => [.status .notFound, .send 0 [104, 105]], .stop⟩).handler]

example (s : Sock) (r r' : Router (Unit × Response)) (h : execL Router.new first = .ok r)
    (h' : execL Router.new second = .ok r') :
    SameUpToOrder ({ Octane.empty with router := r }.serve () s) ({ Octane.empty with router := r' }.serve () s) :=
  C167_server { Octane.empty with router := r } first second (by simp [first, FairL, Fair]) (by simp [second, FairL, Fair])
    (by simp [first, logOfL, logOf]) (by simp [second, logOfL, logOf]) r' h h' [] [] .everywhere
    (fun _ _ => [.send 0 [104, 105], .status .notFound]) (fun _ _ => [.status .notFound, .send 0 [104, 105]]) .stop
    (fun _ _ => (C167_decides Unicode.asciiOnly _ _).1 (by decide +kernel)) rfl rfl () s

/-- both can be set up -/
example : (∃ r, execL Router.new first = .ok r) ∧ ∃ r, execL Router.new second = .ok r := ⟨⟨_, rfl⟩, ⟨_, rfl⟩⟩

end EffectExample
end Octane
