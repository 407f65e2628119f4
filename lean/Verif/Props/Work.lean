import Verif.Proof.CostServe
import Verif.Proof.Wire
import Verif.Props.Cost
import Verif.Props.Features
/-
C121: the work for one request.
-/
namespace Octane
open Spec
universe u
variable {W : Type u}

/-! ### the head, measured by what is held -/

theorem readHeadLoopC_own (fuel : Nat) (data : Bytes) (s : Sock) :
    let c := (readHeadLoopC fuel data s).2
    c.compared ≤ 4 * (c.reads * c.held) ∧ data.length + c.reads ≤ c.held + 1 ∧ data.length ≤ c.held := by
  induction fuel generalizing data s with
  | zero => simp [readHeadLoopC]
  | succ fuel ih =>
    unfold readHeadLoopC
    cases hrd : s.read 512 with
    | error => simp
    | pending => simp
    | data b s' =>
      simp only
      by_cases hb : b = []
      · simp [hb]
      · have hpos := List.length_pos_iff.2 hb
        have hf : (findInSliceC (data ++ b) [13, 10, 13, 10]).2 ≤ 4 * (data.length + b.length) := by
          simpa using (findInSliceC_le (data ++ b) [13, 10, 13, 10]).1
        have ih' := ih (data ++ b) s'
        rw [if_neg hb]
        cases headCheck (data ++ b) s' with
        | panic => simp only [List.length_append, Nat.one_mul]; omega
        | ok o =>
          cases o with
          | some out => simp only [List.length_append, Nat.one_mul]; omega
          | none =>
            simp only [List.length_append] at ih' ⊢
            rw [Nat.add_mul, Nat.one_mul]
            omega

theorem headSteps_le (s : Sock) (k : Nat) (h : (readHeadC s).2.held ≤ k) :
    (readHeadC s).2.compared + (readHeadC s).2.reads ≤ 4 * (k * k) + 5 * k + 1 := by
  have h1 := readHeadLoopC_own (s.bytes.length + 1) [] s
  simp only [List.length_nil, Nat.zero_add] at h1
  obtain ⟨a, b, -⟩ := h1
  have hc : (readHeadC s).2.reads ≤ k + 1 := Nat.le_trans b (Nat.add_le_add_right h 1)
  have h2 : (readHeadC s).2.reads * (readHeadC s).2.held ≤ (k + 1) * k := Nat.mul_le_mul hc h
  have h3 : (k + 1) * k = k * k + k := by rw [Nat.add_mul, Nat.one_mul]
  have h4 : (readHeadC s).2.compared ≤ 4 * ((readHeadC s).2.reads * (readHeadC s).2.held) := a
  omega

/-! ### the parts after the head -/

theorem Request.parseSteps_le (feat : Features) (H : Headers) : Request.parseSteps feat H ≤ 5 * H.size + 4 := by
  have h := Headers.get_size H c!"cookie"
  unfold Request.parseSteps
  split
  · cases hg : H.get c!"cookie" with
    | none => simp only; omega
    | some v =>
      have := Cookie.steps_le v
      rw [hg] at h
      simp only [Option.getD_some] at h ⊢
      omega
  · omega

theorem Request.rawSteps_le (feat : Features) (H : Headers) (rem : Bytes) (reader : Sock) :
    Request.rawSteps feat H rem reader ≤ 6 * H.size + 5 + 2 * (rem.length + reader.bytes.length) := by
  have h1 := Headers.get_size H c!"content-length"
  have h2 := Request.parseSteps_le feat H
  unfold Request.rawSteps
  simp only
  generalize ((H.get c!"content-length").getD []).length = x at h1
  generalize contentLength H = n
  generalize Request.parseSteps feat H = y at h2
  split
  · split <;> omega
  · omega

theorem Http.steps_le (req : Request) : Http.steps req ≤ 4 * req.headers.size + 5 := by
  have h1 := Headers.get_size req.headers c!"connection"
  have h2 := Headers.get_size req.headers c!"keep-alive"
  have h3 := KeepAlive.steps_le ((req.headers.get c!"keep-alive").getD [])
  unfold Http.steps
  split
  · split <;> omega
  · omega

/-- every registration is for one method or for all -/
theorem patterns_length (m : RequestMethod) (L : List (Reg S)) :
    (patternsOf m L).length + (patternsOfAny L).length ≤ L.length := by
  induction L with
  | nil => exact Nat.le_refl _
  | cons e L ih =>
    unfold patternsOf patternsOfAny at ih ⊢
    rw [List.filterMap_cons, List.filterMap_cons]
    cases e.target with
    | on m' p => by_cases h : m' = m <;> simp [h] <;> omega
    | anyMethod p => simp; omega
    | _ => simp; omega

theorem Server.handleSteps_le (sv : Server W) (calls : List (Call (W × Response))) (hf : FairL calls)
    (hr : execL Router.new calls = .ok sv.router) (w : W) (req : Request) (hm : req.requestLine.method ≠ .all) :
    sv.handleSteps w req ≤ 4 * req.headers.size + 7 +
      (logOfL calls).length * (req.requestLine.path.length + 3) := by
  have h1 := Http.steps_le req
  have h2 := C95_bound calls hf sv.router hr sv.feat.urlVariables req hm (w, Response.newEmpty)
  have h3 := C95_scans calls hf sv.router hr sv.feat.urlVariables req hm (w, Response.newEmpty)
  have h4 := Nat.mul_le_mul_right req.requestLine.path.length (patterns_length req.requestLine.method (logOfL calls))
  have h5 : applicableCount sv.feat.urlVariables req.requestLine.method req.requestLine.path (logOfL calls)
      ≤ (logOfL calls).length := List.length_filter_le _ _
  unfold Server.handleSteps
  rw [Nat.mul_add]
  cases Http.validate req with
  | panic => simp only; omega
  | ok c =>
    simp only
    split
    · omega
    · split
      · omega
      · omega

/-- all that comes after the head has been read -/
theorem Server.serveSteps_after (sv : Server W) (calls : List (Call (W × Response))) (hf : FairL calls)
    (hr : execL Router.new calls = .ok sv.router) (w : W) (s : Sock) (hdrs line : Str) (rem : Bytes) (reader : Sock)
    (h : readHead s = .ok (.head hdrs line rem reader)) :
    sv.serveSteps w s ≤ (readHeadC s).2.compared + (readHeadC s).2.reads +
      ((utf8 hdrs).length + 2) * ((utf8 hdrs).length + 2) + 30 * ((utf8 hdrs).length + 2) +
      3 * (utf8 line).length + 13 + 2 * (rem.length + reader.bytes.length) +
      (logOfL calls).length * ((utf8 line).length + 3) := by
  have h1 := C94_split sv.feat.faithful hdrs
  have h2 := Headers.written_le sv.feat.faithful hdrs
  have h3 := Headers.steps_le sv.feat.faithful hdrs
  have h4 := RequestLine.parseC_le sv.feat.faithful line
  unfold Server.serveSteps
  simp only [C93_same, h, C94_same]
  cases hH : Headers.parse sv.feat.faithful hdrs with
  | panic => simp only [Res.bind, ← Nat.add_assoc]; omega
  | ok o =>
    cases o with
    | none => simp only [Res.bind, Res.unwrap, ← Nat.add_assoc]; omega
    | some H =>
      have h5 := Headers.parse_size sv.feat.faithful hdrs H hH
      simp only [Res.bind, Res.unwrap, RequestLine.parseC_fst]
      cases hL : RequestLine.parse sv.feat.faithful line with
      | panic => simp only [← Nat.add_assoc]; omega
      | ok o =>
        cases o with
        | none => simp only [Res.unwrap, ← Nat.add_assoc]; omega
        | some rl =>
          have h6 := Request.rawSteps_le sv.feat H rem reader
          have h7 := C12_parsed_method _ _ _ hL
          have h8 := RequestLine.parse_path _ _ _ hL
          simp only [Res.unwrap, ← Nat.add_assoc]
          split
          · rename_i request hreq
            obtain ⟨e1, e2⟩ := fromRaw_fields hreq
            have h9 := Server.handleSteps_le sv calls hf hr w request (by rw [e1]; exact h7)
            rw [e1, e2] at h9
            have h10 := Nat.mul_le_mul_left (logOfL calls).length (Nat.add_le_add_right h8 3)
            omega
          · omega

theorem Server.serveSteps_bad (sv : Server W) (w : W) (s : Sock)
    (h : ∀ hdrs line rem reader, readHead s ≠ .ok (.head hdrs line rem reader)) :
    sv.serveSteps w s = (readHeadC s).2.compared + (readHeadC s).2.reads := by
  unfold Server.serveSteps
  simp only [C93_same]
  rfl

/-! ### C121 -/

/-- Counting changes nothing: the functions whose results the count follows are those of the model. -/
theorem C121_same (faithful : Bool) (line path : Str) :
    (Path.parseC path).1 = Path.parse path ∧
    (RequestLine.parseC faithful line).1 = RequestLine.parse faithful line :=
  ⟨Path.parseC_fst path, RequestLine.parseC_fst faithful line⟩

/-- The work for a request whose head has `head.length` bytes: the square of the head, two steps for every byte after
it (whatever length the head declares), and for each registered handler a step for every byte of the head. -/
theorem C121_head (sv : Server W) (calls : List (Call (W × Response))) (hf : FairL calls)
    (hr : execL Router.new calls = .ok sv.router) (w : W) (s : Sock) (head rest : Bytes)
    (h : FirstSplit s.bytes blankLine head rest) :
    sv.serveSteps w s ≤ 5 * ((head.length + 516) * (head.length + 516)) + 35 * (head.length + 516) +
      2 * rest.length + (logOfL calls).length * (head.length + 3) := by
  have h0 := headSteps_le s (head.length + 515) ((C92_head s).2 head rest h)
  have e : ∀ n : Nat, (n + 1) * (n + 1) = n * n + 2 * n + 1 := by
    intro n
    rw [Nat.add_mul, Nat.mul_add, Nat.mul_add]
    omega
  obtain ⟨k, hk⟩ : ∃ k, head.length + 515 = k := ⟨_, rfl⟩
  have hk1 : head.length + 516 = k + 1 := by omega
  rw [hk] at h0
  rw [hk1, e k]
  rcases Classical.em (∃ line hdrs, ∃ text, head = utf8 text ∧ FirstSplit text crlf line hdrs) with hg | hg
  · obtain ⟨line, hdrs, text, g1, g2⟩ := hg
    obtain ⟨rem, reader, r1, r2, -⟩ := ((C25_head_from_bytes s).2 _ _ h).1 line hdrs ⟨text, g1, g2⟩
    have hb := Server.serveSteps_after sv calls hf hr w s hdrs line rem reader r1
    have hlen : head.length = (utf8 line).length + 2 + (utf8 hdrs).length := by
      rw [g1, g2.1]
      simp only [utf8_append, List.length_append]
      rfl
    have hrest : rest.length = rem.length + reader.bytes.length := by rw [← r2, List.length_append]
    have hsq : ((utf8 hdrs).length + 2) * ((utf8 hdrs).length + 2) ≤ k * k :=
      Nat.mul_le_mul (by omega) (by omega)
    have hreg := Nat.mul_le_mul_left (logOfL calls).length
      (show (utf8 line).length + 3 ≤ head.length + 3 by omega)
    omega
  · have hbad := ((C25_head_from_bytes s).2 _ _ h).2 (by
      intro text ht hocc
      obtain ⟨a, b, hs⟩ := FirstSplit.exists hocc
      exact hg ⟨a, b, text, ht, hs⟩)
    rw [Server.serveSteps_bad sv w s (fun a b c d hx => by rw [hbad] at hx; cases hx)]
    omega

/-- Whatever a connection brings, `n` bytes of it cause at most `5 n² + 45 n` steps and, for each registered handler,
one step for every byte. -/
theorem C121_bound (sv : Server W) (calls : List (Call (W × Response))) (hf : FairL calls)
    (hr : execL Router.new calls = .ok sv.router) (w : W) (s : Sock) :
    sv.serveSteps w s ≤ 5 * (s.bytes.length * s.bytes.length) + 45 * s.bytes.length + 1 +
      (logOfL calls).length * (s.bytes.length + 3) := by
  have h0 := headSteps_le s s.bytes.length (C92_head s).1
  by_cases hg : ∃ hdrs line rem reader, readHead s = .ok (.head hdrs line rem reader)
  · obtain ⟨hdrs, line, rem, reader, r1⟩ := hg
    have hb := Server.serveSteps_after sv calls hf hr w s hdrs line rem reader r1
    have hocc : Occurs s.bytes blankLine := by
      apply Classical.byContradiction
      intro hno
      have := (C25_head_from_bytes s).1 hno
      rw [r1] at this
      cases hfin : s.fin <;> simp [hfin] at this
    obtain ⟨head, rest, hsp⟩ := FirstSplit.exists hocc
    rcases Classical.em (∃ line hdrs, ∃ text, head = utf8 text ∧ FirstSplit text crlf line hdrs) with hg | hg
    · obtain ⟨line', hdrs', text, g1, g2⟩ := hg
      obtain ⟨rem', reader', r1', r2, -⟩ := ((C25_head_from_bytes s).2 _ _ hsp).1 line' hdrs' ⟨text, g1, g2⟩
      rw [r1] at r1'
      simp only [Io.ok.injEq, HeadOut.head.injEq] at r1'
      obtain ⟨rfl, rfl, rfl, rfl⟩ := r1'
      have hlen : s.bytes.length = (utf8 line).length + 2 + (utf8 hdrs).length + 4 + (rem.length + reader.bytes.length) := by
        rw [hsp.1, ← r2, g1, g2.1]
        simp only [utf8_append, List.length_append]
        rfl
      have hsq : ((utf8 hdrs).length + 2) * ((utf8 hdrs).length + 2) ≤ s.bytes.length * s.bytes.length :=
        Nat.mul_le_mul (by omega) (by omega)
      have hreg := Nat.mul_le_mul_left (logOfL calls).length
        (show (utf8 line).length + 3 ≤ s.bytes.length + 3 by omega)
      omega
    · have hbad := ((C25_head_from_bytes s).2 _ _ hsp).2 (by
        intro text ht hocc
        obtain ⟨a, b, hs⟩ := FirstSplit.exists hocc
        exact hg ⟨a, b, text, ht, hs⟩)
      rw [r1] at hbad
      cases hbad
  · rw [Server.serveSteps_bad sv w s (by
      intro a b c d hx
      exact hg ⟨a, b, c, d, hx⟩)]
    omega

/-- The square is reached: no bound in proportion to the bytes sent holds for any server. -/
theorem C121_quadratic (sv : Server W) (w : W) : ¬ ∃ c, ∀ s : Sock, sv.serveSteps w s ≤ c * (s.bytes.length + 1) := by
  rintro ⟨c, h⟩
  refine C93_counterexample ⟨c, fun s => Nat.le_trans ?_ (h s)⟩
  unfold Server.serveSteps
  simp only
  omega

namespace WorkExample
open FeaturesExample

/-- a request with cookies, a body in two pieces and the first bytes of another request -/
def sock : Sock :=
  ⟨[utf8 c!"GET /a HTTP/1.0\r\nConnection: keep-alive\r\nKeep-Alive: max=5, timeout=9\r\nCookie: a=b; c=d\r\n",
    utf8 c!"Content-Length: 6\r\n\r\nabc", utf8 c!"defGET"], .eof⟩

/-- a long body declared and none sent -/
def stingy : Sock := ⟨[utf8 c!"GET /a HTTP/1.1\r\nContent-Length: 9999999999\r\n\r\n"], .silent⟩

def lines : List Str :=
  [c!"Connection: keep-alive", c!"Keep-Alive: max=5, timeout=9", c!"Cookie: a=b; c=d", c!"Content-Length: 6"]

theorem split : FirstSplit sock.bytes blankLine (utf8 (crlf.intercalate (c!"GET /a HTTP/1.0" :: lines)))
    (utf8 c!"abcdefGET") := by
  have := firstSplit_lines c!"GET /a HTTP/1.0" lines (by decide) (utf8 c!"abcdefGET")
  rw [show sock.bytes = utf8 (crlf.intercalate (c!"GET /a HTTP/1.0" :: lines)) ++ blankLine ++ utf8 c!"abcdefGET" by
    decide +kernel]
  exact this

/-- what the two requests cost, of at most `5 · (106 + 516)² + …` steps -/
example : (server one).serveSteps () sock = 1111 ∧ (server one).serveSteps () stingy = 284 := by decide +kernel

/-- the hypotheses of the theorems are met -/
example : (utf8 (crlf.intercalate (c!"GET /a HTTP/1.0" :: lines))).length = 106 ∧ (logOfL one).length = 1 ∧
    (server one).serveSteps () sock ≤ 5 * ((106 + 516) * (106 + 516)) + 35 * (106 + 516) + 2 * 9 + 1 * (106 + 3) := by
  have e : (utf8 (crlf.intercalate (c!"GET /a HTTP/1.0" :: lines))).length = 106 := by decide +kernel
  have h := C121_head (server one) one fair (server_ok _ fair (by decide)) () sock _ _ split
  rw [e] at h
  exact ⟨e, rfl, h⟩

end WorkExample
end Octane
