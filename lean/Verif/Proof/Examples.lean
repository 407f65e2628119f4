import Verif.Spec.Examples
import Verif.Model.Examples
import Verif.Props.Programs
/-
Helper lemmas about the programs in the documentation.
-/
namespace Octane
open Spec
variable {W : Type u}

theorem log_atRoot (clock : W → Int) (f : Int → Response → Res Response) :
    logOfL (atRoot clock f) = [⟨.on .get [], routeStop (onResponse clock f)⟩] := by
  have hp : Path.parse c!"/" = some [] := by decide +kernel
  simp only [atRoot, logOfL, logOf, hp, List.append_nil, Verb.target, Verb.method]

/-- what an application with one handler for GET of `/` does -/
theorem atRoot_serve (sv : Server W) (f : Int → Response → Res Response)
    (hsv : execL Router.new (atRoot sv.clock f) = .ok sv.router) (w : W) (s : Sock) (m : Str) (p : PathBuf)
    (ha : Asks sv s m p) :
    (m = c!"GET" ∧ p = [] →
      (f (sv.clock w) Response.newEmpty = .panic → sv.serve w s = .panic) ∧
      ∀ r, f (sv.clock w) Response.newEmpty = .ok r →
        (r.body = .none → Page sv w s w c!"404" c!"NOT FOUND") ∧
        (r.body ≠ .none → sv.serve w s = .ok (w, sendData (r.getData sv.U sv.feat.cookies sv.ord)))) ∧
    (¬ (m = c!"GET" ∧ p = []) → Page sv w s w c!"404" c!"NOT FOUND") := by
  obtain ⟨q, n, hq, hqm, hqp, hhost⟩ := ha.asked
  subst hqm hqp
  have h1 := ((C83_connection (atRoot sv.clock f) (by simp [atRoot, FairL, Fair])
      (by simp [log_atRoot]) sv hsv w s ha.eof ha.len ha.memory (fun w => (ha.clock w).1)).2.1 q n hq).2
    (by
      rintro ⟨hv, hno⟩
      obtain ⟨h, hh, he⟩ := hhost hv
      exact hno h hh he)
  obtain ⟨req, hg, -, hpanic, hok⟩ := h1.2 ha.known
  have hget : req.requestLine.method = .get ↔ q.method = c!"GET" := by
    have : ∀ p ∈ methodTable, p.2 = .get ↔ p.1 = c!"GET" := by decide +kernel
    exact this _ hg.method
  have hmatch : patMatchB sv.feat.urlVariables [] (resolve q.pieces) = true ↔ resolve q.pieces = [] := by
    cases resolve q.pieces <;> simp [patMatchB]
  simp only [log_atRoot, replay, Target.applies, decide_patMatch, hg.path, routeStop, onResponse] at hpanic hok
  constructor
  · rintro ⟨e1, e2⟩
    have happ : (decide (RequestMethod.get = req.requestLine.method) &&
        patMatchB sv.feat.urlVariables [] (resolve q.pieces)) = true := by
      rw [hget.2 e1, hmatch.2 e2]; rfl
    simp only [happ, if_true] at hpanic hok
    constructor
    · intro hf
      exact hpanic (by rw [hf]; rfl)
    · intro r hf
      exact hok w r (by rw [hf]; rfl)
  · intro hno
    have happ : ¬ (decide (RequestMethod.get = req.requestLine.method) &&
        patMatchB sv.feat.urlVariables [] (resolve q.pieces)) = true := by
      rw [Bool.and_eq_true, decide_eq_true_eq, hmatch]
      exact fun e => hno ⟨hget.1 e.1.symm, e.2⟩
    rw [if_neg happ] at hok
    exact (hok w _ rfl).1 rfl

/-- what a client makes of a response in memory without cookies -/
theorem sees_of {sv : Server W} {w : W} {s : Sock} {r : Response} (i : Fin 61)
    (hs : sv.serve w s = .ok (w, sendData (r.getData sv.U sv.feat.cookies sv.ord)))
    (hv : r.httpVersion = c!"1.1") (hst : r.statusCode = .named i)
    (hh : ∀ k v, (k, v) ∈ r.headers → GoodHeader k v)
    (hck : ∀ c ∈ r.cookies, '\r' ∉ c.toStr ∧ ∀ d, c.toStr.head? = some d → ¬ isBlank d)
    (hc : sv.feat.cookies = false ∨ r.cookies = []) (hmem : InMemory r) {code reason : Str}
    (h1 : showInt (StatusCode.named i).code = code) (h2 : asciiUpper (StatusCode.named i).toStr = reason) :
    Sees sv w s code reason r.headers (bodyBytes r) := by
  have hw : Writable sv.U r :=
    ⟨by rw [hv]; decide, by rw [hst]; exact phrase_no_cr _ _, hh, hck⟩
  obtain ⟨v, o2, ⟨o3, o4, o5, o6, o7⟩, o8⟩ :=
    C36_roundtrip_partial sv.U sv.feat.cookies sv.ord r hw hc hmem
  have hnil : (if sv.feat.cookies then r.cookies.map fun c => (c!"Set-Cookie", c.toStr) else []) = [] := by
    rcases hc with hc | hc <;> rw [hc] <;> simp
  rw [hnil, List.append_nil] at o6
  refine ⟨_, v, hs, o2, o3.trans hv, ?_, ?_, o6, o7, o8⟩
  · rw [o4.eq, hst]; exact h1
  · rw [o5, hst]
    exact (upperStr_ascii sv.U (phrase_ascii _)).trans h2

/-- the three headers of `send` can be written -/
theorem good_length (n : Nat) : GoodHeader c!"Content-Length" (showNat n) := by
  refine ⟨by decide, by decide, by decide, ?_, ?_⟩
  · intro h; have := showNat_digits _ _ h; revert this; decide
  · intro c hcc hbl
    have hm := List.mem_of_head? hcc
    have := showNat_digits _ c hm
    rcases hbl with rfl | rfl <;> revert this <;> decide

theorem good_date {now : Int} {d : Str} (h : dateHeader now = .ok (some d)) : GoodHeader c!"Date" d := by
  obtain ⟨a, b⟩ := date_good h
  exact ⟨by decide, by decide, by decide, a, b⟩

theorem good_of (k v : Str) (h : k ≠ [] ∧ ':' ∉ k ∧ '\r' ∉ k ∧ '\r' ∉ v)
    (hb : v.head? ≠ some ' ' ∧ v.head? ≠ some '\t') : GoodHeader k v :=
  ⟨h.1, h.2.1, h.2.2.1, h.2.2.2, fun c hc hbl => by
    rcases hbl with rfl | rfl
    · exact hb.1 hc
    · exact hb.2 hc⟩

theorem inMemory_of {r : Response} {n : Nat} {b : Bytes} (h : r.body = .sized n (.cursor b)) : InMemory r := by
  intro x hx; rw [h] at hx; simp [ResBody.getReader] at hx

/-- a `send` on a response in which these headers are there already, in particular none of its own -/
theorem send_on {U : Unicode} {now : Int} {d : Str} (hd : dateHeader now = .ok (some d)) (r : Response) (b : Bytes)
    (h : ∀ e ∈ r.headers, e.1 ∉ [c!"Content-Length", c!"Date", c!"Content-Type"]) :
    r.send U now b = .ok { r with
      body := .sized b.length (.cursor b), contentLen := some b.length,
      headers := r.headers ++ [(c!"Content-Length", showNat b.length), (c!"Date", d), (c!"Content-Type",
        c!"text/html" ++ match r.charset with
          | some cs => c!" ;charset=" ++ U.debug cs
          | none => [])] } := by
  have ins : ∀ (m : HMap Str Str) (k v : Str), (∀ e ∈ m, e.1 ≠ k) → HMap.insert m k v = m ++ [(k, v)] := by
    intro m k v hm
    induction m with
    | nil => rfl
    | cons e m ih =>
      obtain ⟨k', v'⟩ := e
      rw [HMap.insert, if_neg (hm (k', v') (by simp)), ih (fun e he => hm e (by simp [he]))]; rfl
  have get : ∀ (m : HMap Str Str) (k : Str), (∀ e ∈ m, e.1 ≠ k) → HMap.get m k = none := by
    intro m k hm
    induction m with
    | nil => rfl
    | cons e m ih =>
      obtain ⟨k', v'⟩ := e
      rw [HMap.get, if_neg (hm (k', v') (by simp)), ih (fun e he => hm e (by simp [he]))]
  have h1 : ∀ e ∈ r.headers, e.1 ≠ c!"Content-Length" := fun e he hk => h e he (by simp [hk])
  have h2 : ∀ e ∈ r.headers ++ [(c!"Content-Length", showNat b.length)], e.1 ≠ c!"Date" := by
    intro e he hk
    rcases List.mem_append.1 he with he | he
    · exact h e he (by simp [hk])
    · simp only [List.mem_singleton] at he; subst he; simp at hk
  have h3 : ∀ e ∈ r.headers ++ [(c!"Content-Length", showNat b.length)] ++ [(c!"Date", d)], e.1 ≠ c!"Content-Type" := by
    intro e he hk
    rcases List.mem_append.1 he with he | he
    · rcases List.mem_append.1 he with he | he
      · exact h e he (by simp [hk])
      · simp only [List.mem_singleton] at he; subst he; simp at hk
    · simp only [List.mem_singleton] at he; subst he; simp at hk
  unfold Response.send Response.defaultHeaders
  simp only [hd, Res.bind_ok']
  rw [ins _ _ _ h1, ins _ _ _ h2, get _ _ h3]
  simp only [Response.set]
  rw [ins _ _ _ h3]
  simp only [List.append_assoc, List.cons_append, List.nil_append]
  rfl

theorem root_sends {sv : Server W} {f : Int → Response → Res Response}
    (hsv : execL Router.new (atRoot sv.clock f) = .ok sv.router) {w : W} {s : Sock}
    (ha : Asks sv s c!"GET" []) {r : Response} (hf : f (sv.clock w) Response.newEmpty = .ok r) (hb : r.body ≠ .none) :
    sv.serve w s = .ok (w, sendData (r.getData sv.U sv.feat.cookies sv.ord)) :=
  (((atRoot_serve sv f hsv w s _ _ ha).1 ⟨rfl, rfl⟩).2 r hf).2 hb

theorem good_sent {now : Int} {d : Str} (hd : dateHeader now = .ok (some d)) (hs : List (Str × Str)) (n : Nat)
    (type : Str) (ht : '\r' ∉ type ∧ type.head? ≠ some ' ' ∧ type.head? ≠ some '\t')
    (hg : ∀ e ∈ hs, (e.1 ≠ [] ∧ ':' ∉ e.1 ∧ '\r' ∉ e.1 ∧ '\r' ∉ e.2) ∧ e.2.head? ≠ some ' ' ∧ e.2.head? ≠ some '\t') :
    ∀ k v, (k, v) ∈ hs ++ [(c!"Content-Length", showNat n), (c!"Date", d), (c!"Content-Type", type)] →
      GoodHeader k v := by
  intro k v hm
  rcases List.mem_append.1 hm with hm | hm
  · exact good_of k v (hg _ hm).1 (hg _ hm).2
  · simp only [List.mem_cons, Prod.mk.injEq, List.not_mem_nil, or_false] at hm
    rcases hm with ⟨rfl, rfl⟩ | ⟨rfl, rfl⟩ | ⟨rfl, rfl⟩
    · exact good_length n
    · exact good_date hd
    · exact good_of _ _ ⟨by decide, by decide, by decide, ht.1⟩ ht.2

/-- a handler that sends a text on a response it prepared -/
theorem sees_sent {sv : Server W} {f : Int → Response → Res Response} {r0 : Response} {b : Bytes}
    (hsv : execL Router.new (atRoot sv.clock f) = .ok sv.router) {w : W} {s : Sock}
    (ha : Asks sv s c!"GET" []) (i : Fin 61) (hf : ∀ now d, dateHeader now = .ok (some d) → f now Response.newEmpty = r0.send sv.U now b)
    (hown : ∀ e ∈ r0.headers, e.1 ∉ [c!"Content-Length", c!"Date", c!"Content-Type"])
    (hg : ∀ e ∈ r0.headers, (e.1 ≠ [] ∧ ':' ∉ e.1 ∧ '\r' ∉ e.1 ∧ '\r' ∉ e.2) ∧ e.2.head? ≠ some ' ' ∧
      e.2.head? ≠ some '\t')
    (hv : r0.httpVersion = c!"1.1") (hst : r0.statusCode = .named i) (hc : r0.cookies = []) (hcs : r0.charset = none)
    {len code reason : Str} (hlen : showNat b.length = len) (h1 : showInt (StatusCode.named i).code = code)
    (h2 : asciiUpper (StatusCode.named i).toStr = reason) :
    ∃ d, dateHeader (sv.clock w) = .ok (some d) ∧ Sees sv w s code reason (r0.headers ++ sendHeaders len d) b := by
  obtain ⟨d, hd⟩ := date_some (ha.clock w).1 (ha.clock w).2
  have hr := send_on (U := sv.U) hd r0 b hown
  rw [hcs] at hr
  have := sees_of i (root_sends hsv ha ((hf _ _ hd).trans hr) (by simp)) hv hst
    (good_sent hd r0.headers b.length _ (by simp) hg) (by show ∀ c ∈ r0.cookies, _; rw [hc]; simp) (.inr hc) (inMemory_of rfl) h1 h2
  subst hlen
  exact ⟨d, hd, this⟩

/-- a `send` on a response with a type -/
theorem send_typed {U : Unicode} {now : Int} {d : Str} (hd : dateHeader now = .ok (some d)) (r : Response) (b : Bytes)
    (t : Str) (h : r.headers = [(c!"Content-Type", t)]) :
    r.send U now b = .ok { r with
      body := .sized b.length (.cursor b), contentLen := some b.length,
      headers := [(c!"Content-Type", t), (c!"Content-Length", showNat b.length), (c!"Date", d)] } := by
  unfold Response.send Response.defaultHeaders
  simp [hd, h, HMap.insert, HMap.get]

/-- a response with a cookie and a body without CR has no head a client can find -/
theorem cookie_unreadable (U : Unicode) (ord : MapOrder) (r : Response) (hw : Writable U r)
    (hc : r.cookies ≠ []) (hb : InMemory r) (h13 : 13 ∉ bodyBytes r) (v : ClientView) :
    ¬ ClientParses (sendData (r.getData U true ord)) v := by
  obtain ⟨s1, s2, s3⟩ := statusText_good hw
  obtain ⟨l1, l2⟩ := headerLines_good (ord.enum r.headers)
    (fun k v hm => hw.headers k v ((ord.perm _).mem_iff.1 hm))
  have hlines : ∀ x ∈ r.statusText U :: ((ord.enum r.headers).map headerLine ++
      r.cookies.map Cookie.serialise), '\r' ∉ x ∧ x ≠ [] := by
    intro x hx
    rcases List.mem_cons.1 hx with rfl | hx
    · exact ⟨s2, s3⟩
    · rcases List.mem_append.1 hx with hx | hx
      · exact l2 x hx
      · obtain ⟨c, hcm, rfl⟩ := List.mem_map.1 hx
        simp [Cookie.serialise, (hw.cookies c hcm).1]
  have e : sendData (r.getData U true ord) =
      utf8 (crlf.intercalate (r.statusText U :: ((ord.enum r.headers).map headerLine ++
        r.cookies.map Cookie.serialise))) ++ (crlfB ++ bodyBytes r) := by
    unfold sendData
    rw [getData_cookies U ord r hc, utf8_append, utf8_crlf, ← copy_inMemory hb, List.append_assoc]
    rfl
  rintro ⟨sl, ls, ⟨f1, -⟩, -⟩
  generalize utf8 (crlf.intercalate (sl :: ls)) = a at f1
  have ho : OccursAt (sendData (r.getData U true ord)) blankLine a.length := ⟨a, v.body, f1, rfl⟩
  rw [e] at ho f1
  have hlen := blank_not_in_lines _ _ hlines _ ho
  rw [List.append_assoc] at f1
  obtain ⟨c, rfl, f2⟩ | ⟨c, h2, f2⟩ := List.append_eq_append_iff.1 f1
  · revert f2
    cases c with
    | nil =>
      simp only [crlfB, blankLine, List.nil_append, List.cons_append, List.cons.injEq, true_and]
      intro f2
      rw [f2] at h13
      simp at h13
    | cons x c =>
      cases c with
      | nil => simp [crlfB, blankLine]
      | cons y c =>
        simp only [crlfB, blankLine, List.nil_append, List.cons_append, List.cons.injEq]
        rintro ⟨-, -, f2⟩
        rw [f2] at h13
        simp at h13
  · have : c = [] := by
      have := congrArg List.length h2
      simp only [List.length_append] at this
      exact List.eq_nil_of_length_eq_zero (by omega)
    subst this
    simp only [crlfB, blankLine, List.nil_append, List.cons_append, List.cons.injEq, true_and] at f2
    rw [← f2] at h13
    simp at h13

end Octane
