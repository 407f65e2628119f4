import Verif.Props.Answers
import Verif.Props.Time
/-
C140: how many bytes an answer has.
-/
namespace Octane
open Spec
variable {W : Type u}

/-- bytes of a text on the wire -/
def Spec.octets (t : Str) : Nat := (utf8 t).length

/-- The bytes of an answer with this version, status code, phrase, these headers, cookie lines and this body: the line
`HTTP/version code phrase` and its end, for each header a colon, a blank and a line end besides name and value, the
cookie lines with line ends between them, a line end, and the body. -/
def Spec.answerSize (version code phrase : Str) (headers : List (Str × Str)) (cookieLines : List Str) (body : Bytes) : Nat :=
  (octets version + octets code + octets phrase + 9) + (headers.map fun h => octets h.1 + octets h.2 + 4).sum +
    ((cookieLines.map octets).sum + 2 * (cookieLines.length - 1)) + 2 + body.length

/-- the bytes of a response on the wire, by what is stored in it -/
def Spec.wireSize (U : Unicode) (cookies : Bool) (r : Response) : Nat :=
  answerSize r.httpVersion (showInt r.statusCode.code) (U.upperStr r.statusCode.toStr) r.headers
    (if cookies then r.cookies.map (fun c => c!"Set-Cookie: " ++ c.toStr) else []) (copy r.body.getReader).1

/-! ### helpers -/

theorem octets_append (s t : Str) : octets (s ++ t) = octets s + octets t := by
  simp [octets, utf8_append]

theorem octets_flatMap {α : Type v} (l : List α) (f : α → Str) : octets (l.flatMap f) = (l.map fun a => octets (f a)).sum := by
  induction l with
  | nil => rfl
  | cons a l ih => rw [List.flatMap_cons, octets_append, ih]; rfl

theorem octets_join (sep : Str) (l : List Str) :
    octets (Response.join sep l) = (l.map octets).sum + octets sep * (l.length - 1) := by
  induction l with
  | nil => simp [Response.join, octets, utf8]
  | cons s l ih =>
    cases l with
    | nil => simp [Response.join]
    | cons t l =>
      rw [Response.join, octets_append, octets_append, ih]
      · simp only [List.map_cons, List.sum_cons, List.length_cons, Nat.add_sub_cancel]
        rw [Nat.mul_add, Nat.mul_one]
        omega
      · simp

theorem octets_ascii (t : Str) (h : ∀ c ∈ t, c.toNat < 128) : octets t = t.length := by
  induction t with
  | nil => rfl
  | cons c t ih =>
    have : c :: t = [c] ++ t := rfl
    rw [this, octets_append, ih fun c hc => h c (List.mem_cons_of_mem _ hc)]
    simp only [octets, Query.utf8_ascii_singleton (h c (by simp))]
    simp only [List.length_cons, List.length_append]
    omega

/-- a number below a power of ten has no more digits than that -/
theorem showNat_short (k n : Nat) (h : n < 10 ^ (k + 1)) : (showNat n).length ≤ k + 1 := by
  induction k generalizing n with
  | zero => rw [showNat_lt (by simpa using h)]; simp
  | succ k ih =>
    rcases Classical.em (n < 10) with h' | h'
    · rw [showNat_lt h']; simp
    · rw [showNat_ge h', List.length_append]
      have := ih (n / 10) (by rw [Nat.pow_succ] at h; omega)
      simp only [List.length_singleton]
      omega

theorem months_short : ∀ m ∈ months, m.length ≤ 4 ∧ ∀ c ∈ m, c.toNat < 128 := by decide +kernel
theorem days_short : ∀ m ∈ dayNames, m.length = 3 ∧ ∀ c ∈ m, c.toNat < 128 := by decide +kernel

/-- no year of a clock has more than twelve digits -/
theorem year_bound {c : Civil} (hv : c.Valid) (h : c.instant ≤ i64Max) : c.year < 10 ^ 12 := by
  have hd := hv.dayInYear
  obtain ⟨hm, hd1, hd2, a1, a2, a3, a4, a5, a6⟩ := hv
  have hmax : (i64Max : Int) = 9223372036854775807 := by decide
  have hdn : c.dayNumber ≤ 106751991167300 := by unfold Civil.instant at h; omega
  unfold Civil.dayNumber at hdn
  rcases Int.lt_or_le c.year (10 ^ 12) with hlt | hle
  · exact hlt
  · have h1 := yearStart_closed c.year
    have h2 : leaps 1969 ≤ leaps (c.year - 1) := leaps_mono (by omega)
    omega

/-- the text of a date: ASCII, and at most 38 characters -/
theorem date_text {clock : Int} {t : Str} (h : dateHeader clock = .ok (some t)) :
    (∀ c ∈ t, c.toNat < 128) ∧ t.length ≤ 38 := by
  have h0 : 0 ≤ clock := by
    rcases Int.lt_or_le clock 0 with h' | h'
    · rw [(C45_range clock).1 h'] at h; cases h
    · exact h'
  have h1 : clock ≤ i64Max := by
    rcases Int.lt_or_le 9223372036854775807 clock with h' | h'
    · rw [(C45_range clock).2.2 h'] at h; cases h
    · exact h'
  obtain ⟨c, hv, hi, w, mon, hw, hmon, hs⟩ := dateHeader_spec clock h0 h1
  rw [h] at hs
  simp only [Res.ok.injEq, Option.some.injEq] at hs
  have hy := yearStart_nonneg_year hv (by omega)
  have hyb := year_bound hv (by omega)
  have hml : monthLength c.year c.month ≤ 31 := by
    unfold monthLength
    repeat' split
    all_goals decide
  obtain ⟨w1, w2⟩ := days_short w (List.mem_of_getElem? hw)
  obtain ⟨m1, m2⟩ := months_short mon (List.mem_of_getElem? hmon)
  obtain ⟨hm, hd1, hd2, a1, a2, a3, a4, a5, a6⟩ := hv
  have two_ok : ∀ n : Int, 0 ≤ n → n < 100 → (two n).length = 2 ∧ ∀ c ∈ two n, c.toNat < 128 := by
    intro n h0 h1
    obtain ⟨g1, g2, -⟩ := two_isDecimal n h0 h1
    refine ⟨g1, fun c hc => ?_⟩
    have := (g2 c hc).2
    rw [Char.le_def, UInt32.le_iff_toNat_le] at this
    have h9 : ('9' : Char).val.toNat = 57 := rfl
    have : c.toNat ≤ 57 := by simpa [h9] using this
    omega
  obtain ⟨d1, d2⟩ := two_ok c.day (by omega) (by omega)
  obtain ⟨e1, e2⟩ := two_ok c.hour (by omega) (by omega)
  obtain ⟨f1, f2⟩ := two_ok c.min (by omega) (by omega)
  obtain ⟨g1, g2⟩ := two_ok c.sec (by omega) (by omega)
  have y1 : (showInt c.year).length ≤ 12 := by
    rw [showInt_nonneg (by omega)]
    exact showNat_short 11 _ (by omega)
  have y2 : ∀ ch ∈ showInt c.year, ch.toNat < 128 := by
    rw [showInt_nonneg (by omega)]
    intro ch hc
    have := showNat_digits _ ch hc
    omega
  have hlit : ∀ c ∈ c!", " ++ c!" " ++ c!":" ++ c!" GMT", c.toNat < 128 := by decide
  subst hs
  constructor
  · intro ch hc
    simp only [List.mem_append] at hc hlit
    rcases hc with (((((((((((((hc | hc) | hc) | hc) | hc) | hc) | hc) | hc) | hc) | hc) | hc) | hc) | hc) | hc)
    all_goals first | exact w2 _ hc | exact d2 _ hc | exact m2 _ hc | exact y2 _ hc | exact e2 _ hc | exact f2 _ hc | exact g2 _ hc | (apply hlit; simp [hc])
  · simp only [List.length_append, d1, e1, f1, g1, w1]
    simp only [List.length_cons, List.length_nil]
    omega

/-! ### C140 -/

/-- C140, exactly: the bytes of any response as it goes out. -/
theorem C140_exact (U : Unicode) (cookies : Bool) (ord : MapOrder) (r : Response) :
    (sendData (r.getData U cookies ord)).length = wireSize U cookies r := by
  have hh : octets ((ord.enum r.headers).flatMap fun d => d.1 ++ c!":" ++ [' '] ++ d.2 ++ c!"\r\n") =
      (r.headers.map fun h => octets h.1 + octets h.2 + 4).sum := by
    rw [octets_flatMap]
    have : (fun d : Str × Str => octets (d.1 ++ c!":" ++ [' '] ++ d.2 ++ c!"\r\n")) =
        fun h => octets h.1 + octets h.2 + 4 := by
      funext d
      simp only [octets_append]
      have h1 : octets c!":" = 1 := by decide +kernel
      have h2 : octets [' '] = 1 := by decide +kernel
      have h3 : octets c!"\r\n" = 2 := by decide +kernel
      omega
    rw [this]
    exact ((ord.perm r.headers).map _).sum_nat
  have hc : octets (if cookies then Response.join c!"\r\n" (r.cookies.map Cookie.serialise) else []) =
      ((if cookies then r.cookies.map (fun c => c!"Set-Cookie: " ++ c.toStr) else []).map octets).sum +
        2 * ((if cookies then r.cookies.map (fun c => c!"Set-Cookie: " ++ c.toStr) else []).length - 1) := by
    cases cookies with
    | false => rfl
    | true =>
      simp only [if_true]
      rw [octets_join]
      rfl
  unfold sendData Response.getData
  rw [List.length_append]
  show octets _ + _ = _
  rw [octets_append, octets_append, Response.headersStr, octets_append, hh, hc]
  simp only [Response.statusLine, Response.reasonPhrase, octets_append, wireSize, answerSize]
  have h1 : octets c!"HTTP" = 4 := by decide +kernel
  have h2 : octets c!"/" = 1 := by decide +kernel
  have h3 : octets [' '] = 1 := by decide +kernel
  have h4 : octets c!"\r\n" = 2 := by decide +kernel
  omega

/-- The order in which the headers happen to be enumerated does not change the size. -/
theorem C140_order (U : Unicode) (cookies : Bool) (ord ord' : MapOrder) (r : Response) :
    (sendData (r.getData U cookies ord)).length = (sendData (r.getData U cookies ord')).length := by
  rw [C140_exact, C140_exact]

/-- The bytes of an error page: 252 and those of the phrase, and the date with 8 more if there is one. -/
theorem C140_page (U : Unicode) (cookies : Bool) (ord : MapOrder) (clock : Int) (i : Fin 61) (bytes : Bytes)
    (h : errorPage U cookies ord clock (.named i) = .ok bytes) :
    ∃ d, dateHeader clock = .ok d ∧
      bytes.length = 252 + (StatusCode.named i).toStr.length + (match d with | some t => t.length + 8 | none => 0) := by
  unfold errorPage at h
  cases hres : ((Response.newFromSlice (utf8 notFoundPage)).status (.named i)).defaultHeaders U clock with
  | panic => rw [hres] at h; cases h
  | ok res =>
    rw [hres] at h
    simp only [Res.bind_ok', Res.ok.injEq] at h
    obtain ⟨d, hd, hh⟩ := errorPage_headers hres
    obtain ⟨-, b1, b2, b3, b4, b5, b6, -⟩ := defaultHeaders_spec hres
    have e1 : (res.set c!"Content-Type" c!"text/html").body = res.body := rfl
    have e2 : (res.set c!"Content-Type" c!"text/html").statusCode = res.statusCode := rfl
    have e3 : (res.set c!"Content-Type" c!"text/html").httpVersion = res.httpVersion := rfl
    have e4 : (res.set c!"Content-Type" c!"text/html").cookies = res.cookies := rfl
    refine ⟨d, hd, ?_⟩
    rw [← h, C140_exact, wireSize, hh, e1, e2, e3, e4, b1, b2, b4, b6]
    have hck : (if cookies then List.map (fun c : Cookie => c!"Set-Cookie: " ++ c.toStr)
        ((Response.newFromSlice (utf8 notFoundPage)).status (.named i)).cookies else []) = [] := by
      cases cookies <;> rfl
    have hb : (copy ((Response.newFromSlice (utf8 notFoundPage)).status (.named i)).body.getReader).1 = utf8 notFoundPage :=
      congrArg Prod.fst (copy_cursor _)
    have hst : ((Response.newFromSlice (utf8 notFoundPage)).status (.named i)).statusCode = .named i := rfl
    have hv : octets ((Response.newFromSlice (utf8 notFoundPage)).status (.named i)).httpVersion = 3 := by
      show octets c!"1.1" = 3
      decide +kernel
    rw [hck, hb, hst, answerSize, hv]
    have hcode : ∀ i : Fin 61, octets (showInt (StatusCode.named i).code) = 3 := by decide +kernel
    have hph : octets (U.upperStr (StatusCode.named i).toStr) = (StatusCode.named i).toStr.length := by
      rw [upperStr_ascii U (phrase_ascii i)]
      have : ∀ i : Fin 61, octets (asciiUpper (StatusCode.named i).toStr) = (StatusCode.named i).toStr.length := by
        decide +kernel
      exact this i
    rw [hcode, hph]
    have hp : (utf8 notFoundPage).length = 189 := by decide +kernel
    rw [hp]
    have k1 : octets c!"Content-Length" = 14 := by decide +kernel
    have k2 : octets (showNat 189) = 3 := by decide +kernel
    have k3 : octets c!"Content-Type" = 12 := by decide +kernel
    have k4 : octets c!"text/html" = 9 := by decide +kernel
    have k5 : octets c!"Date" = 4 := by decide +kernel
    cases d with
    | none =>
      simp only [List.append_nil, List.map_append, List.map_cons, List.map_nil, List.sum_append, List.sum_cons,
        List.sum_nil, k1, k2, k3, k4, List.length_nil]
      omega
    | some t =>
      have kt : octets t = t.length := octets_ascii t (date_text hd).1
      simp only [List.map_append, List.map_cons, List.map_nil, List.sum_append, List.sum_cons,
        List.sum_nil, k1, k2, k3, k4, k5, kt, List.length_nil]
      omega

/-- The pages a server sends of itself have at most 313 bytes, at any time. -/
theorem C140_pages (U : Unicode) (cookies : Bool) (ord : MapOrder) (clock : Int) (code : StatusCode)
    (hcode : code ∈ [StatusCode.badRequest, .notFound, .notImplemented]) (bytes : Bytes)
    (h : errorPage U cookies ord clock code = .ok bytes) : bytes.length ≤ 313 := by
  have key : ∃ i : Fin 61, code = .named i ∧ (StatusCode.named i).toStr.length ≤ 15 := by
    simp only [List.mem_cons, List.not_mem_nil, or_false] at hcode
    rcases hcode with rfl | rfl | rfl
    · exact ⟨_, rfl, by decide +kernel⟩
    · exact ⟨_, rfl, by decide +kernel⟩
    · exact ⟨_, rfl, by decide +kernel⟩
  obtain ⟨i, rfl, hi⟩ := key
  obtain ⟨d, hd, hb⟩ := C140_page U cookies ord clock i bytes h
  cases d with
  | none => simp only at hb; omega
  | some t =>
    have := (date_text hd).2
    simp only at hb
    omega

/-- Whatever a client sends, and whenever: an answer of more than 313 bytes is what the handlers left, and has the size
of that. -/
theorem C140_made (sv : Server W) (w w' : W) (s : Sock) (bytes : Bytes) (h : sv.serve w s = .ok (w', bytes))
    (hb : 313 < bytes.length) :
    ∃ req res, Router.run sv.feat.urlVariables sv.router req (w, Response.newEmpty) = .ok (w', res) ∧ res.body ≠ .none ∧
      bytes.length = wireSize sv.U sv.feat.cookies res := by
  have herr : ∀ w0 code, code ∈ [StatusCode.badRequest, .notFound, .notImplemented] →
      Io.ofRes (sv.declareError w0 code) ≠ .ok (w', bytes) := by
    intro w0 code hcode h
    unfold Server.declareError at h
    cases he : errorPage sv.U sv.feat.cookies sv.ord (sv.clock w0) code with
    | panic => rw [he] at h; cases h
    | ok b =>
      rw [he] at h
      simp only [Res.bind_ok', Io.ofRes_ok, Io.ok.injEq, Prod.mk.injEq] at h
      rw [h.2] at he
      have := C140_pages _ _ _ _ code hcode bytes he
      omega
  rw [serve_readRest] at h
  cases hread : readRest sv.feat sv.allocOk s (.head []) with
  | panic => rw [hread] at h; cases h
  | pending => rw [hread] at h; cases h
  | abort => rw [hread] at h; cases h
  | ok o =>
    rw [hread, Io.bind_ok] at h
    cases o with
    | none => exact absurd h (herr w _ (by simp))
    | some req =>
      simp only at h
      rw [handle_spec] at h
      split at h
      · exact absurd h (herr w _ (by simp))
      · split at h
        · exact absurd h (herr w _ (by simp))
        · cases hrun : Router.run sv.feat.urlVariables sv.router req (w, Response.newEmpty) with
          | panic => rw [hrun] at h; cases h
          | ok st =>
            rw [hrun] at h
            simp only [Res.bind_ok'] at h
            split at h
            · exact absurd h (herr st.1 _ (by simp))
            · rename_i hbody
              simp only [Io.ofRes_ok, Io.ok.injEq, Prod.mk.injEq] at h
              refine ⟨req, st.2, ?_, ?_, ?_⟩
              · rw [hrun, ← h.1]
              · intro e
                simp [Response.hasBody, ResBody.isSome, e] at hbody
              · rw [← h.2, C140_exact]

/-- If no handler lets the response grow over `B` bytes, no answer has more than `B` and 313. -/
theorem C140_bound (B : Nat) (calls : List (Call (W × Response))) (hf : FairL calls)
    (hn : (logOfL calls).length < 2 ^ 64) (sv : Server W) (hsv : execL Router.new calls = .ok sv.router)
    (h0 : wireSize sv.U sv.feat.cookies Response.newEmpty ≤ B)
    (hl : ∀ e ∈ logOfL calls, ∀ mr st st' fl, e.handler mr st = .ok (st', fl) →
      wireSize sv.U sv.feat.cookies st.2 ≤ B → wireSize sv.U sv.feat.cookies st'.2 ≤ B)
    (w w' : W) (s : Sock) (bytes : Bytes) (h : sv.serve w s = .ok (w', bytes)) :
    bytes.length ≤ max 313 B := by
  rcases C138_invariant (fun r => wireSize sv.U sv.feat.cookies r ≤ B) calls hf hn sv hsv h0 hl w w' s bytes h with ⟨code, hcode, he⟩ | ⟨r, hr, -, rfl⟩
  · have hle := C140_pages sv.U sv.feat.cookies sv.ord (sv.clock w') code hcode bytes he
    omega
  · rw [C140_exact]
    omega

namespace AnswerSizeExample

/-- a response with a header, two cookies and a body of three bytes (the second line of cookies is not ended) -/
def made : Response :=
  { Response.newFromSlice (utf8 c!"a€") with
    headers := [(c!"A", c!"b")], cookies := [⟨c!"x", c!"1", []⟩, ⟨c!"y", c!"2", []⟩] }

example : (sendData (made.getData .asciiOnly true MapOrder.id)) =
    utf8 c!"HTTP/1.1 200 OK\r\nA: b\r\nSet-Cookie: x=1\r\nSet-Cookie: y=2\r\na€" := by decide +kernel

example : wireSize .asciiOnly true made = 61 := by decide +kernel

/-- a handler that answers with it -/
def makes : Closure (Unit × Response) := fun _ st => .ok ((st.1, made), .stop)

example (s : Sock) (bytes : Bytes) (h : (demo makes).serve () s = .ok ((), bytes)) : bytes.length ≤ max 313 61 :=
  C140_bound 61 [.add makes] (by simp [FairL, Fair]) (by simp [logOfL, logOf]) (demo makes) (by simp [execL, exec, demo])
    (by decide +kernel) (by
      intro e he mr st st' fl h _
      simp only [logOfL, logOf, List.append_nil, List.mem_singleton] at he
      subst he
      simp only [makes, Res.ok.injEq, Prod.mk.injEq] at h
      rw [← h.1]
      show wireSize .asciiOnly true made ≤ 61
      decide +kernel) () () s bytes h

/-- a page of today, and one of the longest (September of the last year there is) -/
example := C140_page .asciiOnly true MapOrder.id 1700000000 21
example : (match errorPage .asciiOnly true MapOrder.id 1700000000 (.named 21) with
    | .ok bytes => bytes.length
    | .panic => 0) = 300 := by decide +kernel
example : (match errorPage .asciiOnly true MapOrder.id (9223372036854775807 - 80 * 86400) .notImplemented with
    | .ok bytes => bytes.length
    | .panic => 0) = 313 := by decide +kernel

/-- an answer of more than 313 bytes -/
def long : Closure (Unit × Response) := fun _ st => .ok ((st.1, Response.newFromSlice (List.replicate 400 97)), .stop)

example : (match (demo long).serve () (sends c!"GET / HTTP/1.1\r\nHost: x\r\n\r\n") with
    | .ok (_, bytes) => bytes.length
    | _ => 0) = 419 := by decide +kernel

end AnswerSizeExample

end Octane
