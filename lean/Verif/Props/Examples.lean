import Verif.Proof.Examples
/-
C125: the examples in the documentation of the response.
-/
namespace Octane
open Spec
variable {W : Type u}

/-! ### C125 -/

/-- The full claim of C125, for the examples whose comments or descriptions promise the client more than it gets. -/
structure Spec.Documented (sv : Server W) (w : W) (s : Sock) (fs : Str → FileAt) : Prop where
  file : ∀ contents r, fs c!"templates/index.html" = .regular contents contents.length →
    execL Router.new (atRoot sv.clock (Doc.sendFile sv.U fs)) = .ok r →
    ∃ hs, (c!"Content-Type", c!"text/html") ∈ hs ∧ Sees { sv with router := r } w s c!"200" c!"OK" hs contents
  attachment : ∀ r, execL Router.new (atRoot sv.clock Doc.attachment) = .ok r →
    ∃ hs text, (c!"Content-Disposition", c!"attachment") ∈ hs ∧ Sees { sv with router := r } w s c!"200" c!"OK" hs text
  cookie : ∀ r, execL Router.new (atRoot sv.clock (Doc.cookie sv.U)) = .ok r →
    ∃ hs, (c!"Set-Cookie", c!"name=value") ∈ hs ∧
      Sees { sv with router := r } w s c!"200" c!"OK" hs (utf8 c!"Cookie has been set!")
  charset : ∀ r, execL Router.new (atRoot sv.clock (Doc.charset sv.U)) = .ok r →
    ∃ hs, (c!"Content-Type", c!"text/html; charset=utf-8") ∈ hs ∧
      Sees { sv with router := r } w s c!"200" c!"OK" hs (utf8 c!"Hello")

def C125_statement : Prop :=
  ∀ (sv : Server Unit) (s : Sock) (fs : Str → FileAt), Asks sv s c!"GET" [] → Documented sv () s fs

/-- Each example, whatever it does, is reached by GET of `/` only: any other request gets the 404 page. -/
theorem C125_elsewhere (sv : Server W) (f : Int → Response → Res Response)
    (hsv : execL Router.new (atRoot sv.clock f) = .ok sv.router) (w : W) (s : Sock) (m : Str) (p : PathBuf)
    (ha : Asks sv s m p) (h : ¬ (m = c!"GET" ∧ p = [])) : Page sv w s w c!"404" c!"NOT FOUND" :=
  (atRoot_serve sv f hsv w s m p ha).2 h

/-- The example of `set`: the header is there, besides those of `send`. -/
theorem C125_set (sv : Server W) (hsv : execL Router.new (atRoot sv.clock (Doc.set sv.U)) = .ok sv.router) (w : W)
    (s : Sock) (ha : Asks sv s c!"GET" []) : ∃ d, dateHeader (sv.clock w) = .ok (some d) ∧
    Sees sv w s c!"200" c!"OK" ((c!"header-name", c!"header-value") :: sendHeaders c!"5" d) (utf8 c!"HELLO") :=
  sees_sent hsv ha 4 (fun _ _ _ => rfl) (by decide) (by decide) rfl rfl rfl rfl (by decide +kernel) (by decide +kernel)
    (by decide +kernel)

/-- The example of `get`: the assertion holds, and the client is shown the text. -/
theorem C125_get (sv : Server W) (hsv : execL Router.new (atRoot sv.clock (Doc.get sv.U)) = .ok sv.router) (w : W)
    (s : Sock) (ha : Asks sv s c!"GET" []) : ∃ d, dateHeader (sv.clock w) = .ok (some d) ∧
    Sees sv w s c!"200" c!"OK" (sendHeaders c!"12" d) (utf8 c!"Hello, world") :=
  sees_sent (r0 := Response.newEmpty) hsv ha 4
    (by
      intro now d hd
      unfold Doc.get
      rw [send_on (U := sv.U) hd Response.newEmpty (utf8 c!"Hello, world") (by decide)]
      rw [Res.bind_ok', assert_, if_pos (by simp [Response.get, HMap.get, Response.newEmpty])])
    (by decide) (by decide) rfl rfl rfl rfl (by decide +kernel) (by decide +kernel) (by decide +kernel)

/-- The example of `headers_sent`: both assertions hold, and the client is shown the text. -/
theorem C125_headers_sent (sv : Server W)
    (hsv : execL Router.new (atRoot sv.clock (Doc.headersSent sv.U)) = .ok sv.router) (w : W)
    (s : Sock) (ha : Asks sv s c!"GET" []) : ∃ d, dateHeader (sv.clock w) = .ok (some d) ∧
    Sees sv w s c!"200" c!"OK" (sendHeaders c!"12" d) (utf8 c!"Hello, World") :=
  sees_sent (r0 := Response.newEmpty) hsv ha 4
    (by
      intro now d hd
      unfold Doc.headersSent
      rw [show assert_ (false = Response.newEmpty.headersSent) Response.newEmpty = .ok Response.newEmpty from rfl]
      rw [Res.bind_ok', send_on (U := sv.U) hd Response.newEmpty (utf8 c!"Hello, World") (by decide)]
      rw [Res.bind_ok', assert_, if_pos (by simp [Response.headersSent])])
    (by decide) (by decide) rfl rfl rfl rfl (by decide +kernel) (by decide +kernel) (by decide +kernel)

/-- The example of `with_type`: the client is given the type `json`, as it was written. -/
theorem C125_with_type (sv : Server W) (hsv : execL Router.new (atRoot sv.clock (Doc.withType sv.U)) = .ok sv.router)
    (w : W) (s : Sock) (ha : Asks sv s c!"GET" []) : ∃ d, dateHeader (sv.clock w) = .ok (some d) ∧
    Sees sv w s c!"200" c!"OK" [(c!"Content-Type", c!"json"), (c!"Content-Length", c!"20"), (c!"Date", d)]
      (utf8 c!"{\"server\": \"Octane\"}") := by
  obtain ⟨d, hd⟩ := date_some (ha.clock w).1 (ha.clock w).2
  have hf := send_typed (U := sv.U) hd (Response.newEmpty.withType c!"json") (utf8 c!"{\"server\": \"Octane\"}")
    c!"json" rfl
  have hl : showNat (utf8 c!"{\"server\": \"Octane\"}").length = c!"20" := by decide +kernel
  have := sees_of 4 (root_sends hsv ha hf (by simp)) rfl rfl
    (by
      intro k v hm
      simp only [List.mem_cons, Prod.mk.injEq, List.not_mem_nil, or_false] at hm
      rcases hm with ⟨rfl, rfl⟩ | ⟨rfl, rfl⟩ | ⟨rfl, rfl⟩
      · exact good_of _ _ (by decide) (by decide)
      · exact good_length _
      · exact good_date hd) (by simp [Response.withType, Response.set, Response.newEmpty]) (.inr rfl)
    (inMemory_of rfl) (code := c!"200") (reason := c!"OK") (by decide +kernel) (by decide +kernel)
  rw [hl] at this
  exact ⟨d, hd, this⟩

/-- The example of `status`: 404, with the text of the handler and not the page of the server. -/
theorem C125_status (sv : Server W) (hsv : execL Router.new (atRoot sv.clock (Doc.status sv.U)) = .ok sv.router) (w : W)
    (s : Sock) (ha : Asks sv s c!"GET" []) : ∃ d, dateHeader (sv.clock w) = .ok (some d) ∧
    Sees sv w s c!"404" c!"NOT FOUND" (sendHeaders c!"14" d) (utf8 c!"Page not found") :=
  sees_sent hsv ha 25 (fun _ _ _ => rfl) (by decide) (by decide) rfl rfl rfl rfl (by decide +kernel) (by decide +kernel)
    (by decide +kernel)

/-- The example of `redirect`: 302 to `/`, which is the very target that was asked for. -/
theorem C125_redirect (sv : Server W) (hsv : execL Router.new (atRoot sv.clock (Doc.redirect sv.U)) = .ok sv.router)
    (w : W) (s : Sock) (ha : Asks sv s c!"GET" []) : ∃ d, dateHeader (sv.clock w) = .ok (some d) ∧
    Sees sv w s c!"302" c!"FOUND" ((c!"Location", c!"/") :: sendHeaders c!"18" d) (utf8 c!"Taking you to home") :=
  sees_sent hsv ha 16 (fun _ _ _ => rfl) (by decide) (by decide) rfl rfl rfl rfl (by decide +kernel) (by decide +kernel)
    (by decide +kernel)

/-- The example of `charset`: a blank before the semicolon, none behind it, and quotes. -/
theorem C125_charset (sv : Server W) (hsv : execL Router.new (atRoot sv.clock (Doc.charset sv.U)) = .ok sv.router)
    (w : W) (s : Sock) (ha : Asks sv s c!"GET" []) : ∃ d, dateHeader (sv.clock w) = .ok (some d) ∧
    Sees sv w s c!"200" c!"OK" [(c!"Content-Length", c!"5"), (c!"Date", d),
      (c!"Content-Type", c!"text/html ;charset=\"utf-8\"")] (utf8 c!"Hello") := by
  obtain ⟨d, hd⟩ := date_some (ha.clock w).1 (ha.clock w).2
  have hf := send_on (U := sv.U) hd (Response.newEmpty.setCharset c!"utf-8") (utf8 c!"Hello") (by decide)
  have hl : showNat (utf8 c!"Hello").length = c!"5" := by decide +kernel
  have ht : (Response.newEmpty.setCharset c!"utf-8").charset = some c!"utf-8" := rfl
  rw [ht] at hf
  simp only [C40_charset_text sv.U c!"utf-8" (by decide)] at hf
  have := sees_of 4 (root_sends hsv ha hf (by simp)) rfl rfl
    (good_sent hd [] _ _ (by decide) (by simp)) (by simp [Response.setCharset, Response.newEmpty]) (.inr rfl)
    (inMemory_of rfl) (code := c!"200") (reason := c!"OK") (by decide +kernel) (by decide +kernel)
  simp only [hl] at this
  exact ⟨d, hd, this⟩

/-- The examples of `attachment` and `attachment_with_filename` send nothing, so the client gets the 404 page. -/
theorem C125_attachment (sv : Server W)
    (hsv : execL Router.new (atRoot sv.clock Doc.attachment) = .ok sv.router ∨
      execL Router.new (atRoot sv.clock (Doc.attachmentNamed sv.U)) = .ok sv.router) (w : W)
    (s : Sock) (ha : Asks sv s c!"GET" []) : Page sv w s w c!"404" c!"NOT FOUND" := by
  rcases hsv with hsv | hsv
  · exact (((atRoot_serve sv _ hsv w s _ _ ha).1 ⟨rfl, rfl⟩).2 _ rfl).1 rfl
  · exact (((atRoot_serve sv _ hsv w s _ _ ha).1 ⟨rfl, rfl⟩).2 _ rfl).1 rfl

/-- The example of `cookie`: with the feature the text is sent in a way no client can read; without it, the text
arrives and the cookie does not. -/
theorem C125_cookie (sv : Server W) (hsv : execL Router.new (atRoot sv.clock (Doc.cookie sv.U)) = .ok sv.router)
    (w : W) (s : Sock) (ha : Asks sv s c!"GET" []) :
    (sv.feat.cookies = true → Unreadable sv w s) ∧
    (sv.feat.cookies = false → ∃ d, dateHeader (sv.clock w) = .ok (some d) ∧
      Sees sv w s c!"200" c!"OK" (sendHeaders c!"20" d) (utf8 c!"Cookie has been set!")) := by
  obtain ⟨d, hd⟩ := date_some (ha.clock w).1 (ha.clock w).2
  have hf := send_on (U := sv.U) hd (Response.newEmpty.cookie ⟨c!"name", c!"value", []⟩)
    (utf8 c!"Cookie has been set!") (by decide)
  have hgood := good_sent hd [] (utf8 c!"Cookie has been set!").length c!"text/html" (by decide) (by simp)
  have hs := root_sends (w := w) hsv ha hf (by simp)
  have hck : ∀ c ∈ [(⟨c!"name", c!"value", []⟩ : Cookie)], '\r' ∉ c.toStr ∧ ∀ d, c.toStr.head? = some d → ¬ isBlank d := by
    decide +kernel
  constructor
  · intro hc
    rw [hc] at hs
    refine ⟨_, hs, cookie_unreadable _ _ _ ⟨by simp only [Response.cookie]; decide, phrase_no_cr _ 4, hgood, hck⟩
      (by simp [Response.cookie, Response.newEmpty]) (inMemory_of rfl) (by show 13 ∉ utf8 c!"Cookie has been set!"; decide +kernel)⟩
  · intro hc
    have hl : showNat (utf8 c!"Cookie has been set!").length = c!"20" := by decide +kernel
    have := sees_of 4 hs rfl rfl hgood hck (.inl hc) (inMemory_of rfl) (code := c!"200") (reason := c!"OK")
      (by decide +kernel) (by decide +kernel)
    simp only [hl] at this
    exact ⟨d, hd, this⟩

/-- The example of `send_file`: if the file is there, the assertion holds, and the client is given the type of the
file and nothing else: no length, no date, and an empty body, whatever is in the file. If it is not there, there is
no answer. -/
theorem C125_file (sv : Server W) (fs : Str → FileAt)
    (hsv : execL Router.new (atRoot sv.clock (Doc.sendFile sv.U fs)) = .ok sv.router)
    (w : W) (s : Sock) (ha : Asks sv s c!"GET" []) :
    (∀ contents len, fs c!"templates/index.html" = .regular contents len →
      Sees sv w s c!"200" c!"OK" [(c!"Content-Type", c!"text/html")] []) ∧
    ((∀ contents len, fs c!"templates/index.html" ≠ .regular contents len) → sv.serve w s = .panic) := by
  constructor
  · intro contents len hfs
    have hn : FileNamed c!"templates/index.html" c!"index.html" := fileNamed_of (by decide +kernel)
    obtain ⟨r, hr, -, ht, -⟩ := C39_success sv.U fs _ _ contents len Response.newEmpty hfs hn
    have hlow : sv.U.lower c!"html" = c!"html" := sv.U.lower_ascii c!"html" (by decide)
    have hty : getExtension sv.U c!"templates/index.html" = c!"text/html" :=
      (C43_by_extension sv.U _ _ c!"html" hn ⟨c!"index", by decide, by decide, by decide⟩).1 _
        (by rw [hlow]; decide +kernel) (by rw [hlow]; decide)
    rw [hty] at ht
    obtain he | ⟨c', l', t, -, he⟩ := sendFile_spec hr
    · simp at he
    · simp only [Prod.mk.injEq, and_true] at he
      subst he
      have htt : t = c!"text/html" := by simpa [Response.get, Response.newEmpty, HMap.insert, HMap.get] using ht
      subst htt
      have hf : Doc.sendFile sv.U fs (sv.clock w) Response.newEmpty = .ok { Response.newEmpty with
          headers := HMap.insert Response.newEmpty.headers c!"Content-Type" c!"text/html", contentLen := some l',
          body := .sized l' (.file (some c')) } := by
        unfold Doc.sendFile
        rw [hr, Res.bind_ok', if_pos rfl, assert_, if_pos (by rw [ht]; rfl)]
      have hs := root_sends hsv ha hf (by simp)
      have hsame : ∀ (r : Response), sendData ({ r with body := .sized l' (.file (some c')) }.getData sv.U sv.feat.cookies sv.ord) =
          sendData ({ r with body := .sized l' (.cursor []) }.getData sv.U sv.feat.cookies sv.ord) := by
        intro r
        unfold sendData
        have h1 : (copy (ResBody.sized l' (.file (some c'))).getReader).1 =
            (copy (ResBody.sized l' (.cursor [])).getReader).1 := by
          show (copy (.file (some c'))).1 = (copy (.cursor [])).1
          rw [copy_file]; rfl
        show _ ++ (copy (ResBody.sized l' (.file (some c'))).getReader).1 = _
        rw [h1]; rfl
      rw [hsame { Response.newEmpty with
        headers := HMap.insert Response.newEmpty.headers c!"Content-Type" c!"text/html", contentLen := some l' }] at hs
      exact sees_of 4 hs rfl rfl
        (by
          intro k v hm
          simp only [Response.newEmpty, HMap.insert, List.mem_cons, Prod.mk.injEq, List.not_mem_nil, or_false] at hm
          obtain ⟨rfl, rfl⟩ := hm
          exact good_of _ _ (by decide) (by decide))
        (by simp [Response.newEmpty]) (.inr rfl) (inMemory_of rfl) (by decide +kernel) (by decide +kernel)
  · intro hno
    refine ((atRoot_serve sv _ hsv w s _ _ ha).1 ⟨rfl, rfl⟩).1 ?_
    unfold Doc.sendFile
    rw [C39_failure sv.U fs _ _ hno]
    rfl

/-- The example of `with_router`: GET of `/` shows the first text, POST the second, everything else the 404 page. -/
theorem C125_with_router (sv : Server W) (ord : Router.AppendOrder (W × Response))
    (ho : (∀ m, (ord.outer m).Perm m) ∧ ∀ meth t m, (ord.inner meth t m).Perm m)
    (hsv : execL Router.new (Doc.withRouter sv.U sv.clock ord) = .ok sv.router)
    (w : W) (s : Sock) (m : Str) (p : PathBuf) (ha : Asks sv s m p) :
    (m = c!"GET" ∧ p = [] → Shows sv w s (utf8 c!"It's a get request!!")) ∧
    (m = c!"POST" ∧ p = [] → Shows sv w s (utf8 c!"It's a post request!!")) ∧
    (¬ (m ∈ [c!"GET", c!"POST"] ∧ p = []) → Page sv w s w c!"404" c!"NOT FOUND") := by
  obtain ⟨q, n, hq, hqm, hqp, hhost⟩ := ha.asked
  have hp : Path.parse c!"/" = some [] := by decide +kernel
  have h := C123_texts (Doc.withRouter sv.U sv.clock ord) ⟨⟨⟨trivial, trivial, trivial⟩, ho.1, ho.2⟩, trivial⟩
    (by simp [Doc.withRouter, logOfL, logOf, hp]) sv hsv
    [⟨.on .get [], utf8 c!"It's a get request!!", .stop⟩, ⟨.on .post [], utf8 c!"It's a post request!!", .stop⟩]
    (by
      have e : ∀ (t : Bytes) (st : W × Response), routeStop (sendText sv.U sv.clock t) = fun _ st =>
          (execOps sv.U st.2 [.send (sv.clock st.1) t]).bind fun r => .ok ((st.1, r), .stop) := by
        intro t _
        funext mr st
        simp only [routeStop, sendText, execOps, ResOp.exec]
        cases st.2.send sv.U (sv.clock st.1) t <;> rfl
      simp only [Doc.withRouter, logOfL, logOf, hp, List.append_nil, List.map_cons, List.map_nil, Script.reg, Text.script,
        Verb.target, Verb.method, List.singleton_append, List.cons.injEq, and_true, Reg.mk.injEq, true_and]
      exact ⟨e _ (w, Response.newEmpty), e _ (w, Response.newEmpty)⟩)
    w s ha.eof ha.len ha.memory ha.clock q n hq hhost _ (method_known _ (hqm ▸ ha.known))
  rw [hqm, hqp] at h
  have hpat : PatMatch sv.feat.urlVariables [] p ↔ p = [] := by
    rw [← patMatchB_iff]
    cases p <;> simp [patMatchB]
  refine ⟨?_, ?_, ?_⟩
  · rintro ⟨rfl, rfl⟩
    have : methodOf c!"GET" = .get := by decide +kernel
    rw [this] at h
    exact h
  · rintro ⟨rfl, rfl⟩
    have : methodOf c!"POST" = .post := by decide +kernel
    rw [this] at h
    exact h
  · intro hno
    have hm : ∀ t ∈ methodTokens, (methodOf t = .get ↔ t = c!"GET") ∧ (methodOf t = .post ↔ t = c!"POST") := by
      decide +kernel
    have h1 : Target.applies sv.feat.urlVariables (.on .get []) (methodOf m) p = false := by
      simp only [Target.applies, Bool.and_eq_false_iff, decide_eq_false_iff_not, hpat]
      by_cases e : RequestMethod.get = methodOf m
      · exact .inr fun e2 => hno ⟨by simp [(hm m ha.known).1.1 e.symm], e2⟩
      · exact .inl e
    have h2 : Target.applies sv.feat.urlVariables (.on .post []) (methodOf m) p = false := by
      simp only [Target.applies, Bool.and_eq_false_iff, decide_eq_false_iff_not, hpat]
      by_cases e : RequestMethod.post = methodOf m
      · exact .inr fun e2 => hno ⟨by simp [(hm m ha.known).2.1 e.symm], e2⟩
      · exact .inl e
    simp only [shown, List.filter_cons, h1, h2] at h
    exact h

theorem Spec.Asks.with_router {sv : Server W} {s : Sock} {m : Str} {p : PathBuf} (h : Asks sv s m p)
    (r : Router (W × Response)) : Asks { sv with router := r } s m p :=
  ⟨h.asked, h.known, h.eof, h.len, h.memory, h.clock⟩

theorem root_made (clock : W → Int) (f : Int → Response → Res Response) :
    ∃ r, execL Router.new (atRoot clock f) = .ok r := by
  obtain ⟨r, h, -⟩ := C12_run_is_replay (atRoot clock f) (by simp [atRoot, FairL, Fair]) (by simp [log_atRoot])
  exact ⟨r, h⟩

theorem Spec.Sees.same {sv : Server W} {w : W} {s : Sock} {c c' p p' : Str} {h h' : List (Str × Str)} {t t' : Bytes}
    (a : Sees sv w s c p h t) (b : Sees sv w s c' p' h' t') : c = c' ∧ p = p' ∧ h.Perm h' ∧ t = t' := by
  obtain ⟨x, v, a1, a2, -, a4, a5, a6, a7, a8⟩ := a
  obtain ⟨y, u, b1, b2, -, b4, b5, b6, b7, b8⟩ := b
  rw [a1] at b1
  injection b1 with b1
  injection b1 with _ b1
  subst b1
  have := a8 u b2
  subst this
  exact ⟨a4.symm.trans b4, a5.symm.trans b5, a6.symm.trans b6, a7.symm.trans b7⟩

/-- No server keeps any of the promises for any request that reaches the example, with these exceptions: the file is
empty; the feature `cookies` is off (and then there is no cookie either). -/
theorem C125_never (sv : Server W) (w : W) (s : Sock) (fs : Str → FileAt) (ha : Asks sv s c!"GET" []) :
    (∀ contents r, contents ≠ [] → fs c!"templates/index.html" = .regular contents contents.length →
      execL Router.new (atRoot sv.clock (Doc.sendFile sv.U fs)) = .ok r →
      ∀ hs, ¬ Sees { sv with router := r } w s c!"200" c!"OK" hs contents) ∧
    (∀ r, execL Router.new (atRoot sv.clock Doc.attachment) = .ok r →
      ∀ hs text, ¬ Sees { sv with router := r } w s c!"200" c!"OK" hs text) ∧
    (∀ r, execL Router.new (atRoot sv.clock (Doc.cookie sv.U)) = .ok r →
      ∀ code reason hs text, (c!"Set-Cookie", c!"name=value") ∈ hs →
        ¬ Sees { sv with router := r } w s code reason hs text) ∧
    (∀ r, execL Router.new (atRoot sv.clock (Doc.charset sv.U)) = .ok r →
      ∀ code reason hs text, (c!"Content-Type", c!"text/html; charset=utf-8") ∈ hs →
        ¬ Sees { sv with router := r } w s code reason hs text) := by
  refine ⟨?_, ?_, ?_, ?_⟩
  · intro contents r hne hfs hr hs h
    have := (C125_file { sv with router := r } fs hr w s (ha.with_router r)).1 _ _ hfs
    exact hne (h.same this).2.2.2
  · intro r hr hs text h
    obtain ⟨x, v, a1, a2, a3, -, -, a6⟩ := C125_attachment { sv with router := r } (.inl hr) w s (ha.with_router r)
    obtain ⟨y, u, b1, b2, -, b4, -⟩ := h
    rw [a1] at b1
    injection b1 with b1
    injection b1 with _ b1
    subst b1
    have := a6 u b2
    subst this
    rw [a3] at b4
    revert b4
    decide
  · intro r hr code reason hs text hm h
    obtain ⟨h1, h2⟩ := C125_cookie { sv with router := r } hr w s (ha.with_router r)
    cases hc : sv.feat.cookies with
    | true =>
      obtain ⟨x, a1, a2⟩ := h1 hc
      obtain ⟨y, u, b1, b2, -⟩ := h
      rw [a1] at b1
      injection b1 with b1
      injection b1 with _ b1
      subst b1
      exact a2 u b2
    | false =>
      obtain ⟨d, -, h3⟩ := h2 hc
      have := (h.same h3).2.2.1.mem_iff.1 hm
      simp [sendHeaders] at this
  · intro r hr code reason hs text hm h
    obtain ⟨d, -, h3⟩ := C125_charset { sv with router := r } hr w s (ha.with_router r)
    have := (h.same h3).2.2.1.mem_iff.1 hm
    simp at this

/-- The promises that are kept, by every server for every request that reaches the example: the header that was set,
the type of a text, the status, the redirect. -/
theorem C125_kept_partial (sv : Server W) (w : W) (s : Sock) (ha : Asks sv s c!"GET" []) :
    (∀ r, execL Router.new (atRoot sv.clock (Doc.set sv.U)) = .ok r →
      ∃ hs, (c!"header-name", c!"header-value") ∈ hs ∧
        Sees { sv with router := r } w s c!"200" c!"OK" hs (utf8 c!"HELLO")) ∧
    (∀ r, execL Router.new (atRoot sv.clock (Doc.get sv.U)) = .ok r →
      ∃ hs, (c!"Content-Type", c!"text/html") ∈ hs ∧
        Sees { sv with router := r } w s c!"200" c!"OK" hs (utf8 c!"Hello, world")) ∧
    (∀ r, execL Router.new (atRoot sv.clock (Doc.headersSent sv.U)) = .ok r →
      ∃ hs, Sees { sv with router := r } w s c!"200" c!"OK" hs (utf8 c!"Hello, World")) ∧
    (∀ r, execL Router.new (atRoot sv.clock (Doc.status sv.U)) = .ok r →
      ∃ hs, Sees { sv with router := r } w s c!"404" c!"NOT FOUND" hs (utf8 c!"Page not found")) ∧
    (∀ r, execL Router.new (atRoot sv.clock (Doc.redirect sv.U)) = .ok r →
      ∃ hs, (c!"Location", c!"/") ∈ hs ∧
        Sees { sv with router := r } w s c!"302" c!"FOUND" hs (utf8 c!"Taking you to home")) := by
  refine ⟨fun r hr => ?_, fun r hr => ?_, fun r hr => ?_, fun r hr => ?_, fun r hr => ?_⟩
  · obtain ⟨d, -, h⟩ := C125_set { sv with router := r } hr w s (ha.with_router r)
    exact ⟨_, by simp, h⟩
  · obtain ⟨d, -, h⟩ := C125_get { sv with router := r } hr w s (ha.with_router r)
    exact ⟨_, by simp [sendHeaders], h⟩
  · obtain ⟨d, -, h⟩ := C125_headers_sent { sv with router := r } hr w s (ha.with_router r)
    exact ⟨_, h⟩
  · obtain ⟨d, -, h⟩ := C125_status { sv with router := r } hr w s (ha.with_router r)
    exact ⟨_, h⟩
  · obtain ⟨d, -, h⟩ := C125_redirect { sv with router := r } hr w s (ha.with_router r)
    exact ⟨_, by simp, h⟩

open ProgramsExample in
/-- a client that asks for `/` -/
theorem C125_asks (r : Router (Unit × Response)) : Asks { empty with router := r } (sock c!"GET" [[]]) c!"GET" [] :=
  ⟨⟨_, 0, asked_in c!"GET" [[]] (by decide) (by decide), rfl, by decide, host _ _⟩, by decide, rfl, by decide +kernel,
    fun _ => rfl, clock⟩

/-- So the claim is false. -/
theorem C125_counterexample : ¬ C125_statement := by
  intro h
  have ha := C125_asks empty.router
  obtain ⟨r, hr⟩ := root_made empty.clock (Doc.charset empty.U)
  obtain ⟨hs, h1, h2⟩ := (h _ _ (fun _ => .cannotOpen) ha).charset r hr
  exact (C125_never _ () _ (fun _ => .cannotOpen) ha).2.2.2 r hr _ _ hs _ h1 h2

/-! ### concrete cases -/

open ProgramsExample in
/-- C125_elsewhere: `GET /x` -/
example : ∃ r, execL Router.new (atRoot empty.clock (Doc.set empty.U)) = .ok r ∧
    Page { empty with router := r } () (sock c!"GET" [c!"x"]) () c!"404" c!"NOT FOUND" := by
  obtain ⟨r, hr⟩ := root_made empty.clock (Doc.set empty.U)
  exact ⟨r, hr, C125_elsewhere { empty with router := r } _ hr () _ c!"GET" [c!"x"]
    ⟨⟨_, 0, asked_in c!"GET" [c!"x"] (by decide) (by decide), rfl, by decide, host _ _⟩, by decide, rfl,
      by decide +kernel, fun _ => rfl, clock⟩ (by decide)⟩

/-- the client of `C125_asks` sees this of an application -/
def Spec.Shown (f : Int → Response → Res Response) (code reason : Str) (hs : Str → List (Str × Str)) (text : Str) : Prop :=
  ∃ r d, execL Router.new (atRoot empty.clock f) = .ok r ∧ dateHeader 0 = .ok (some d) ∧
    Sees { empty with router := r } () (ProgramsExample.sock c!"GET" [[]]) code reason (hs d) (utf8 text)

/-- C125_set -/
example : Shown (Doc.set empty.U) c!"200" c!"OK" ((c!"header-name", c!"header-value") :: sendHeaders c!"5" ·) c!"HELLO" := by
  obtain ⟨r, hr⟩ := root_made empty.clock (Doc.set empty.U)
  obtain ⟨d, h1, h2⟩ := C125_set { empty with router := r } hr () _ (C125_asks r)
  exact ⟨r, d, hr, h1, h2⟩
/-- C125_get -/
example : Shown (Doc.get empty.U) c!"200" c!"OK" (sendHeaders c!"12" ·) c!"Hello, world" := by
  obtain ⟨r, hr⟩ := root_made empty.clock (Doc.get empty.U)
  obtain ⟨d, h1, h2⟩ := C125_get { empty with router := r } hr () _ (C125_asks r)
  exact ⟨r, d, hr, h1, h2⟩
/-- C125_headers_sent -/
example : Shown (Doc.headersSent empty.U) c!"200" c!"OK" (sendHeaders c!"12" ·) c!"Hello, World" := by
  obtain ⟨r, hr⟩ := root_made empty.clock (Doc.headersSent empty.U)
  obtain ⟨d, h1, h2⟩ := C125_headers_sent { empty with router := r } hr () _ (C125_asks r)
  exact ⟨r, d, hr, h1, h2⟩
/-- C125_status -/
example : Shown (Doc.status empty.U) c!"404" c!"NOT FOUND" (sendHeaders c!"14" ·) c!"Page not found" := by
  obtain ⟨r, hr⟩ := root_made empty.clock (Doc.status empty.U)
  obtain ⟨d, h1, h2⟩ := C125_status { empty with router := r } hr () _ (C125_asks r)
  exact ⟨r, d, hr, h1, h2⟩
/-- C125_redirect -/
example : Shown (Doc.redirect empty.U) c!"302" c!"FOUND" ((c!"Location", c!"/") :: sendHeaders c!"18" ·) c!"Taking you to home" := by
  obtain ⟨r, hr⟩ := root_made empty.clock (Doc.redirect empty.U)
  obtain ⟨d, h1, h2⟩ := C125_redirect { empty with router := r } hr () _ (C125_asks r)
  exact ⟨r, d, hr, h1, h2⟩
/-- C125_with_type -/
example : Shown (Doc.withType empty.U) c!"200" c!"OK" (fun d => [(c!"Content-Type", c!"json"), (c!"Content-Length", c!"20"), (c!"Date", d)]) c!"{\"server\": \"Octane\"}" := by
  obtain ⟨r, hr⟩ := root_made empty.clock (Doc.withType empty.U)
  obtain ⟨d, h1, h2⟩ := C125_with_type { empty with router := r } hr () _ (C125_asks r)
  exact ⟨r, d, hr, h1, h2⟩
/-- C125_charset -/
example : Shown (Doc.charset empty.U) c!"200" c!"OK" (fun d => [(c!"Content-Length", c!"5"), (c!"Date", d),
    (c!"Content-Type", c!"text/html ;charset=\"utf-8\"")]) c!"Hello" := by
  obtain ⟨r, hr⟩ := root_made empty.clock (Doc.charset empty.U)
  obtain ⟨d, h1, h2⟩ := C125_charset { empty with router := r } hr () _ (C125_asks r)
  exact ⟨r, d, hr, h1, h2⟩
/-- C125_kept_partial, in particular `redirect` -/
example : ∃ r hs, execL Router.new (atRoot empty.clock (Doc.redirect empty.U)) = .ok r ∧ (c!"Location", c!"/") ∈ hs ∧
    Sees { empty with router := r } () (ProgramsExample.sock c!"GET" [[]]) c!"302" c!"FOUND" hs
      (utf8 c!"Taking you to home") := by
  obtain ⟨r, hr⟩ := root_made empty.clock (Doc.redirect empty.U)
  obtain ⟨hs, h1, h2⟩ := (C125_kept_partial empty () _ (C125_asks empty.router)).2.2.2.2 r hr
  exact ⟨r, hs, hr, h1, h2⟩
/-- C125_attachment -/
example : ∃ r, execL Router.new (atRoot empty.clock Doc.attachment) = .ok r ∧
    Page { empty with router := r } () (ProgramsExample.sock c!"GET" [[]]) () c!"404" c!"NOT FOUND" :=
  (root_made empty.clock Doc.attachment).elim fun r hr =>
    ⟨r, hr, C125_attachment { empty with router := r } (.inl hr) () _ (C125_asks r)⟩
/-- C125_cookie -/
example : ∃ r, execL Router.new (atRoot empty.clock (Doc.cookie empty.U)) = .ok r ∧
    Unreadable { empty with router := r } () (ProgramsExample.sock c!"GET" [[]]) :=
  (root_made empty.clock (Doc.cookie empty.U)).elim fun r hr =>
    ⟨r, hr, (C125_cookie { empty with router := r } hr () _ (C125_asks r)).1 rfl⟩

/-- C125_file and C125_never: a file of one byte -/
example : ∃ r, execL Router.new (atRoot empty.clock (Doc.sendFile empty.U fun _ => .regular [120] 1)) = .ok r ∧
    Sees { empty with router := r } () (ProgramsExample.sock c!"GET" [[]]) c!"200" c!"OK"
      [(c!"Content-Type", c!"text/html")] [] ∧
    ∀ hs, ¬ Sees { empty with router := r } () (ProgramsExample.sock c!"GET" [[]]) c!"200" c!"OK" hs [120] := by
  obtain ⟨r, hr⟩ := root_made empty.clock (Doc.sendFile empty.U fun _ => .regular [120] 1)
  exact ⟨r, hr, (C125_file { empty with router := r } _ hr () _ (C125_asks r)).1 [120] 1 rfl,
    (C125_never _ () _ (fun _ => .regular [120] 1) (C125_asks empty.router)).1 [120] r (by decide) rfl hr⟩

open ProgramsExample in
/-- C125_with_router: a POST -/
example : ∃ r, execL Router.new (Doc.withRouter empty.U empty.clock ⟨id, fun _ _ m => m⟩) = .ok r ∧
    Shows { empty with router := r } () (sock c!"POST" [[]]) (utf8 c!"It's a post request!!") := by
  have hp : Path.parse c!"/" = some [] := by decide +kernel
  obtain ⟨r, hr⟩ := made (Doc.withRouter empty.U empty.clock ⟨id, fun _ _ m => m⟩)
    ⟨⟨⟨trivial, trivial, trivial⟩, fun _ => .refl _, fun _ _ _ => .refl _⟩, trivial⟩
    (by simp [Doc.withRouter, logOfL, logOf, hp])
  exact ⟨r, hr, (C125_with_router { empty with router := r } _ ⟨fun _ => .refl _, fun _ _ _ => .refl _⟩ hr () _ c!"POST" []
    ⟨⟨_, 0, asked_in c!"POST" [[]] (by decide) (by decide), rfl, by decide, host _ _⟩, by decide, rfl,
      by decide +kernel, fun _ => rfl, clock⟩).2.1 ⟨rfl, rfl⟩⟩

end Octane
