import Verif.Proof.CostWrite
import Verif.Props.Held
/-
C154: all the work for one request, its answer included.
-/
namespace Octane
open Spec
universe u
variable {W : Type u} {S : Type u}

/-- the bytes of the answer, 0 if there is none -/
def Spec.answered : Io (W × Bytes) → Nat
  | .ok (_, bytes) => bytes.length
  | _ => 0

/-- No text becomes shorter than half of its bytes when it is put into capitals. (So it is in Unicode: `ı` of two bytes
becomes `I` of one.) -/
def Spec.HalfKept (U : Unicode) : Prop := ∀ t, octets t ≤ 2 * octets (U.upperStr t)

/-! ### helpers -/

theorem outC_le {U : Unicode} (hU : HalfKept U) (cookies : Bool) (ord : MapOrder) (r : Response) :
    (r.outC U cookies ord).2 ≤ 8 * (r.outC U cookies ord).1.length + 2049 := by
  have h1 := (outC_snd U cookies ord r).2
  have h2 := hU r.statusCode.toStr
  have h3 : octets (U.upperStr r.statusCode.toStr) ≤ (r.outC U cookies ord).1.length := by
    rw [outC_fst, C140_exact]
    unfold wireSize answerSize
    omega
  omega

theorem errorPageC_le {U : Unicode} (hU : HalfKept U) (cookies : Bool) (ord : MapOrder) (clock : Int) (kind : StatusCode) :
    (errorPageC U cookies ord clock kind).2 ≤ 9 * (match (errorPageC U cookies ord clock kind).1 with
      | .ok bytes => bytes.length | .panic => 0) + 2300 := by
  have hn : (utf8 notFoundPage).length ≤ 251 := by decide +kernel
  unfold errorPageC
  simp only
  cases ((Response.newFromSlice (utf8 notFoundPage)).status kind).defaultHeaders U clock with
  | panic => simp only; omega
  | ok res =>
    simp only
    have h1 := outC_le hU cookies ord (res.set c!"Content-Type" c!"text/html")
    have h2 : ((res.set c!"Content-Type" c!"text/html").headers.map fun h => (utf8 h.1).length + (utf8 h.2).length).sum ≤
        ((res.set c!"Content-Type" c!"text/html").outC U cookies ord).1.length := by
      rw [outC_fst, C140_exact]
      unfold wireSize answerSize
      have : ∀ l : List (Str × Str), (l.map fun h => (utf8 h.1).length + (utf8 h.2).length).sum ≤
          (l.map fun h => octets h.1 + octets h.2 + 4).sum := by
        intro l
        induction l with
        | nil => simp
        | cons a l ih => simp only [List.map_cons, List.sum_cons, octets] at ih ⊢; omega
      have := this (res.set c!"Content-Type" c!"text/html").headers
      omega
    omega

theorem declareErrorC_le (sv : Server W) (hU : HalfKept sv.U) (w : W) (kind : StatusCode) :
    (sv.declareErrorC w kind).2 ≤ 9 * answered (Io.ofRes (sv.declareErrorC w kind).1) + 2300 := by
  have h := errorPageC_le hU sv.feat.cookies sv.ord (sv.clock w) kind
  unfold Server.declareErrorC
  simp only
  cases hp : (errorPageC sv.U sv.feat.cookies sv.ord (sv.clock w) kind).1 with
  | panic => rw [hp] at h; simpa [Res.bind, Io.ofRes, answered] using h
  | ok b => rw [hp] at h; simpa [Res.bind, Io.ofRes, answered] using h

theorem handleC_le (sv : Server W) (hU : HalfKept sv.U) (calls : List (Call (W × Response))) (hf : FairL calls)
    (hr : execL Router.new calls = .ok sv.router) (w : W) (req : Request) (hm : req.requestLine.method ≠ .all) :
    (sv.handleC w req).2 ≤ sv.handleSteps w req + 2 * req.size +
      (logOfL calls).length * req.requestLine.path.length + 9 * answered (Io.ofRes (sv.handleC w req).1) + 2300 := by
  have hrun : (Router.runV sv.feat.urlVariables sv.router req (w, Response.newEmpty)).2 ≤
      (Router.runC sv.feat.urlVariables sv.router req (w, Response.newEmpty)).2.visited +
      (Router.runC sv.feat.urlVariables sv.router req (w, Response.newEmpty)).2.scanned + req.size +
      (logOfL calls).length * req.requestLine.path.length := by
    obtain ⟨r', h1, h2⟩ := Router.execL_inv calls hf Router.new [] Router.Inv.new
    rw [hr, Res.ok.injEq] at h1
    rw [List.nil_append] at h2
    rw [← h1] at h2
    have a := Router.runV_snd h2 sv.feat.urlVariables req hm (w, Response.newEmpty)
    have b : applicableCount sv.feat.urlVariables req.requestLine.method req.requestLine.path (logOfL calls)
      ≤ (logOfL calls).length := List.length_filter_le _ _
    have := Nat.mul_le_mul_right req.requestLine.path.length b
    omega
  have hd := fun w kind => declareErrorC_le sv hU w kind
  unfold Server.handleC Server.handleSteps
  cases hv : Http.validate req with
  | panic => simp only; omega
  | ok c =>
    simp only
    split
    · cases Res.unwrap c.errCode with
      | panic => simp only; omega
      | ok code => have := hd w code; simp only; omega
    · split
      · cases (Router.runV sv.feat.urlVariables sv.router req (w, Response.newEmpty)).1 with
        | panic => simp only; omega
        | ok p =>
          obtain ⟨w', res⟩ := p
          simp only
          split
          · have := hd w' .notFound
            simp only
            omega
          · have := outC_le hU sv.feat.cookies sv.ord res
            simp only [Io.ofRes, answered]
            omega
      · have := hd w .notImplemented
        simp only
        omega

/-- all steps against those of C121, once the head has been read -/
theorem serveC_after (sv : Server W) (hU : HalfKept sv.U) (calls : List (Call (W × Response))) (hf : FairL calls)
    (hr : execL Router.new calls = .ok sv.router) (w : W) (s : Sock) (hdrs line : Str) (rem : Bytes) (reader : Sock)
    (h : readHead s = .ok (.head hdrs line rem reader)) :
    (sv.serveC w s).2 ≤ sv.serveSteps w s + 2 * ((utf8 line).length + 2 * ((utf8 hdrs).length + 2)) +
      (logOfL calls).length * (utf8 line).length + 9 * answered (sv.serveC w s).1 + 2300 := by
  unfold Server.serveC Server.serveSteps
  simp only [C93_same, h, C94_same, RequestLine.parseC_fst]
  cases hH : Headers.parse sv.feat.faithful hdrs with
  | panic => simp only [Res.bind, ← Nat.add_assoc]; omega
  | ok o =>
    cases o with
    | none => simp only [Res.bind, Res.unwrap, ← Nat.add_assoc]; omega
    | some H =>
      have h5 := Headers.parse_size sv.feat.faithful hdrs H hH
      simp only [Res.bind, Res.unwrap]
      cases hL : RequestLine.parse sv.feat.faithful line with
      | panic => simp only [← Nat.add_assoc]; omega
      | ok o =>
        cases o with
        | none => simp only [Res.unwrap, ← Nat.add_assoc]; omega
        | some rl =>
          have h6 := RequestLine.parse_size sv.feat.faithful line rl hL
          have h7 := C12_parsed_method _ _ _ hL
          have h8 := RequestLine.parse_path _ _ _ hL
          simp only [Res.unwrap]
          cases hreq : Request.fromRaw sv.feat sv.allocOk H rl rem reader with
          | panic => simp only [← Nat.add_assoc]; omega
          | pending => simp only [← Nat.add_assoc]; omega
          | abort => simp only [← Nat.add_assoc]; omega
          | ok o =>
            cases o with
            | none =>
              have := declareErrorC_le sv hU w .badRequest
              simp only [← Nat.add_assoc]
              omega
            | some req =>
              obtain ⟨e1, e2⟩ := fromRaw_fields hreq
              have h9 := handleC_le sv hU calls hf hr w req (by rw [e1]; exact h7)
              have h10 : req.size = rl.size + H.size := by rw [Request.size, e1, e2]
              have h11 := Nat.mul_le_mul_left (logOfL calls).length h8
              rw [e1, h10] at h9
              simp only [← Nat.add_assoc]
              omega

theorem serveC_bad (sv : Server W) (hU : HalfKept sv.U) (w : W) (s : Sock)
    (h : ∀ hdrs line rem reader, readHead s ≠ .ok (.head hdrs line rem reader)) :
    (sv.serveC w s).2 ≤ sv.serveSteps w s + 9 * answered (sv.serveC w s).1 + 2300 := by
  rw [Server.serveSteps_bad sv w s h]
  unfold Server.serveC
  simp only [C93_same]
  cases hr : readHead s with
  | panic => simp only; omega
  | pending => simp only; omega
  | abort => simp only; omega
  | ok r =>
    cases r with
    | badRequest =>
      have := declareErrorC_le sv hU w .badRequest
      simp only
      omega
    | head a b c d => exact absurd hr (h a b c d)

/-! ### C154 -/

/-- The server with counts does the same as the one without. -/
theorem C154_same (sv : Server W) (w : W) (s : Sock) : (sv.serveC w s).1 = sv.serve w s := serveC_fst sv w s

/-- Forming and writing an answer takes no fewer steps than it has bytes, and at most six for each, besides those for
taking the phrase and for looking once at the body. -/
theorem C154_write (U : Unicode) (cookies : Bool) (ord : MapOrder) (r : Response) :
    (r.outC U cookies ord).1 = sendData (r.getData U cookies ord) ∧
    (sendData (r.getData U cookies ord)).length ≤ (r.outC U cookies ord).2 ∧
    (r.outC U cookies ord).2 ≤ 6 * (sendData (r.getData U cookies ord)).length + octets r.statusCode.toStr + 2049 := by
  have h := outC_snd U cookies ord r
  rw [outC_fst] at h
  exact ⟨outC_fst U cookies ord r, h⟩

/-- Six is reached: a byte of a cookie's value is copied by `to_string`, `format!`, `join`, `push_str` and `format!` again
before it is written. -/
theorem C154_six (U : Unicode) (ord : MapOrder) :
    ¬ ∃ c, ∀ r : Response, (r.outC U true ord).2 ≤ 5 * (r.outC U true ord).1.length + c := by
  rintro ⟨c, h⟩
  obtain ⟨k, hk⟩ : ∃ k, k = 1000 + c + 5 * octets (Response.newEmpty.statusLine U) := ⟨_, rfl⟩
  let ck : Cookie := ⟨c!"a", List.replicate k 'x', []⟩
  let r : Response := Response.newEmpty.cookie ck
  have h0 := h r
  have hen : ord.enum [] = [] := List.Perm.eq_nil (ord.perm [])
  have hs : octets ck.serialise = 14 + k := by
    have e : ck.serialise = c!"Set-Cookie: a=" ++ List.replicate k 'x' := by
      simp [ck, Cookie.serialise, Cookie.toStr]
    have e2 : octets c!"Set-Cookie: a=" = 14 := by decide +kernel
    rw [e, octets_append, e2]
    exact congrArg (14 + ·) (utf8_xs k)
  have h1 := serialiseC_snd ck
  have h2 : (r.headersStrC true ord) = (ck.serialise, (Response.serialiseC ck).2 + 1 + 2 * octets ck.serialise) := by
    simp only [Response.headersStrC, if_true, pushC, r, Response.cookie, Response.newEmpty,
      List.nil_append, Response.cookieLinesC, List.map_cons, List.map_nil, Response.join, serialiseC_fst, List.sum_cons,
      List.sum_nil, hen, Response.headerLoopC, Prod.mk.injEq, true_and]
    simp only [octets]
    omega
  have h3 : (r.outC U true ord).1 = utf8 (r.statusLine U ++ ck.serialise ++ c!"\r\n") := by
    rw [outC_fst]
    simp only [sendData, Response.getData, ← headersStrC_fst, h2]
    show _ ++ (copy (.cursor [])).1 = _
    rw [copy_cursor, List.append_nil]
  have h4 : r.statusLine U = Response.newEmpty.statusLine U := rfl
  have h5 : (r.outC U true ord).1.length = octets (Response.newEmpty.statusLine U) + octets ck.serialise + 2 := by
    rw [h3, h4]
    show octets _ = _
    rw [octets_append, octets_append]
    rfl
  have h6 : (r.headersStrC true ord).2 + octets (r.getData U true ord).1 + octets (r.getData U true ord).1 ≤
      (r.outC U true ord).2 := by
    have e : (formatC [(r.statusLineC U).1, (r.headersStrC true ord).1, c!"\r\n"]).2 =
        octets (r.getData U true ord).1 := by
      rw [← getDataC_fst]; rfl
    simp only [Response.outC, sendDataC]
    have e2 : (r.getDataC U true ord).2 = (r.statusLineC U).2 + (r.headersStrC true ord).2 +
        octets (r.getData U true ord).1 := by rw [← e]; rfl
    rw [e2, getDataC_fst]
    simp only [octets]
    omega
  have h7 : octets (r.getData U true ord).1 = octets (Response.newEmpty.statusLine U) + octets ck.serialise + 2 := by
    simp only [Response.getData, ← headersStrC_fst, h2, h4, octets_append]
    rfl
  rw [h7, h2] at h6
  simp only at h6
  omega

/-- All the work for a request, apart from its handlers and from sorting the matches: the square of the head, two steps
for every byte after it, for each registered handler two for every byte of the head, and nine for every byte of the
answer. -/
theorem C154_head (sv : Server W) (hU : HalfKept sv.U) (calls : List (Call (W × Response))) (hf : FairL calls)
    (hr : execL Router.new calls = .ok sv.router) (w : W) (s : Sock) (head rest : Bytes)
    (h : FirstSplit s.bytes blankLine head rest) :
    (sv.serveC w s).2 ≤ 5 * ((head.length + 516) * (head.length + 516)) + 39 * (head.length + 516) +
      2 * rest.length + (logOfL calls).length * (2 * head.length + 3) + 9 * answered (sv.serve w s) + 2300 := by
  have h0 := C121_head sv calls hf hr w s head rest h
  rw [← C154_same]
  have e : (logOfL calls).length * (2 * head.length + 3) =
      (logOfL calls).length * (head.length + 3) + (logOfL calls).length * head.length := by
    rw [← Nat.mul_add]; congr 1; omega
  by_cases hg : ∃ hdrs line rem reader, readHead s = .ok (.head hdrs line rem reader)
  · obtain ⟨hdrs, line, rem, reader, r1⟩ := hg
    have h1 := serveC_after sv hU calls hf hr w s hdrs line rem reader r1
    have h2 : head.length = (utf8 line).length + 2 + (utf8 hdrs).length := by
      rw [(readHead_parts h r1).1]
      simp only [utf8_append, List.length_append]
      rfl
    have h3 := Nat.mul_le_mul_left (logOfL calls).length (show (utf8 line).length ≤ head.length by omega)
    omega
  · have h1 := serveC_bad sv hU w s (fun a b c d hx => hg ⟨a, b, c, d, hx⟩)
    omega

/-- Whatever a connection brings: `n` bytes of it and an answer of `m` cause at most `5 n² + 49 n + 9 m` steps, and for
each registered handler two for every byte. -/
theorem C154_bound (sv : Server W) (hU : HalfKept sv.U) (calls : List (Call (W × Response))) (hf : FairL calls)
    (hr : execL Router.new calls = .ok sv.router) (w : W) (s : Sock) :
    (sv.serveC w s).2 ≤ 5 * (s.bytes.length * s.bytes.length) + 49 * s.bytes.length +
      (logOfL calls).length * (2 * s.bytes.length + 3) + 9 * answered (sv.serve w s) + 2301 := by
  have h0 := C121_bound sv calls hf hr w s
  rw [← C154_same]
  have e : (logOfL calls).length * (2 * s.bytes.length + 3) =
      (logOfL calls).length * (s.bytes.length + 3) + (logOfL calls).length * s.bytes.length := by
    rw [← Nat.mul_add]; congr 1; omega
  by_cases hg : ∃ hdrs line rem reader, readHead s = .ok (.head hdrs line rem reader)
  · obtain ⟨hdrs, line, rem, reader, r1⟩ := hg
    have h1 := serveC_after sv hU calls hf hr w s hdrs line rem reader r1
    have hocc : Occurs s.bytes blankLine := by
      apply Classical.byContradiction
      intro hno
      have := (C25_head_from_bytes s).1 hno
      rw [r1] at this
      cases hfin : s.fin <;> simp [hfin] at this
    obtain ⟨head, rest, h⟩ := FirstSplit.exists hocc
    have h4 : s.bytes.length = head.length + 4 + rest.length := by rw [h.1]; simp [blankLine]; omega
    have h2 : head.length = (utf8 line).length + 2 + (utf8 hdrs).length := by
      rw [(readHead_parts h r1).1]
      simp only [utf8_append, List.length_append]
      rfl
    have h3 := Nat.mul_le_mul_left (logOfL calls).length (show (utf8 line).length ≤ s.bytes.length by omega)
    omega
  · have h1 := serveC_bad sv hU w s (fun a b c d hx => hg ⟨a, b, c, d, hx⟩)
    omega

namespace CostWriteExample
open FeaturesExample WorkExample

theorem utf8_upper (c : Char) : (utf8 [asciiUpperC c]).length = (utf8 [c]).length := by
  by_cases h : isAscii c = true
  · have h1 : c.toNat < 128 := by simpa [isAscii] using h
    have h2 : (asciiUpperC c).toNat < 128 := by
      have : ∀ n < 128, (asciiUpperC (Char.ofNat n)).toNat < 128 := by decide +kernel
      have h3 := this c.toNat h1
      rwa [Char.ofNat_toNat] at h3
    rw [Query.utf8_ascii_singleton h1, Query.utf8_ascii_singleton h2]
    rfl
  · have : asciiUpperC c = c := by
      unfold asciiUpperC
      split
      · rename_i hc
        have h4 : c.toNat ≤ 122 := hc.2
        exact absurd (by simp [isAscii]; omega) h
      · rfl
    rw [this]

/-- with the simplest capitals every byte is kept -/
theorem half_kept : HalfKept Unicode.asciiOnly := by
  intro t
  have : octets (Unicode.asciiOnly.upperStr t) = octets t := by
    induction t with
    | nil => rfl
    | cons c t ih =>
      have e : Unicode.asciiOnly.upperStr (c :: t) = [asciiUpperC c] ++ Unicode.asciiOnly.upperStr t := rfl
      rw [e, octets_append, ih, show c :: t = [c] ++ t from rfl, octets_append]
      congr 1
      exact utf8_upper c
  omega

/-- a request answered by its handler, and one that gets no answer: all steps, of which C121 counts 1111 and 284 -/
example : ((server one).serveC () sock).2 = 1802 ∧ answered ((server one).serve () sock) = 102 ∧
    ((server one).serveC () stingy).2 = 284 ∧ answered ((server one).serve () stingy) = 0 := by decide +kernel

/-- the hypotheses of the theorems are met -/
example : ((server one).serveC () sock).2 ≤ 5 * ((106 + 516) * (106 + 516)) + 39 * (106 + 516) + 2 * 9 +
      1 * (2 * 106 + 3) + 9 * 102 + 2300 ∧
    ((server one).serveC () sock).2 ≤ 5 * (119 * 119) + 49 * 119 + 1 * (2 * 119 + 3) + 9 * 102 + 2301 := by
  have e : (utf8 (crlf.intercalate (c!"GET /a HTTP/1.0" :: lines))).length = 106 := by decide +kernel
  have e' : (utf8 c!"abcdefGET").length = 9 := by decide +kernel
  have e'' : sock.bytes.length = 119 := by decide +kernel
  have e3 : answered ((server one).serve () sock) = 102 := by decide +kernel
  have h1 := C154_head (server one) half_kept one fair (server_ok _ fair (by decide)) () sock _ _ split
  have h2 := C154_bound (server one) half_kept one fair (server_ok _ fair (by decide)) () sock
  rw [e, e', e3] at h1
  rw [e'', e3] at h2
  exact ⟨h1, h2⟩

end CostWriteExample
end Octane
