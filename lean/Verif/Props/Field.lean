import Verif.Props.Answer
import Verif.Props.Waiting
import Verif.Props.Whole
/-
C97, C100 – C102: expectations, white space in header lines, HEAD.
-/
namespace Octane
open Spec
variable {W : Type u}

/-! ### C97: Expect: 100-continue -/

theorem Spec.WireReq.Framed.parts {q : WireReq} (hq : q.Framed) (faithful : Bool) :
    (∀ rest, FirstSplit (utf8 (crlf.intercalate (q.line :: q.headers.map wireHeader)) ++ blankLine ++ rest) blankLine
        (utf8 (crlf.intercalate (q.line :: q.headers.map wireHeader))) rest) ∧
      FirstSplit (crlf.intercalate (q.line :: q.headers.map wireHeader)) crlf q.line
        (crlf.intercalate (q.headers.map wireHeader)) ∧ LineOk faithful q.line := by
  have hlines : ∀ x ∈ q.line :: q.headers.map wireHeader, '\r' ∉ x ∧ x ≠ [] := by
    intro x hx
    rcases List.mem_cons.1 hx with rfl | hx
    · exact ⟨hq.line_cr, by simp [WireReq.line]⟩
    · obtain ⟨h, hh, rfl⟩ := List.mem_map.1 hx
      exact hq.header_cr hh
  refine ⟨fun rest => firstSplit_lines q.line (q.headers.map wireHeader) hlines rest, ?_, ?_⟩
  · cases hh : q.headers with
    | nil => exact absurd hh hq.headers.1
    | cons h hs =>
      rw [List.map_cons, intercalate_cons_cons]
      exact firstSplit_of_not_mem hq.line_cr
  · obtain ⟨rl, e6, -⟩ := C29_roundtrip faithful q.method q.version q.pieces
      hq.method.1 hq.version.1 hq.pieces.1 (fun x hx => ⟨(hq.pieces.2 x hx).1, (hq.pieces.2 x hx).2.1⟩)
      hq.inside
    exact (RequestLine.parse_some_iff _ _).1 ⟨rl, e6⟩

/-- The full claim of C97 (RFC 7231 section 5.1.1): a client that announces a body with
`Expect: 100-continue`, and waits for an answer before sending it, gets one. -/
def C97_statement : Prop :=
  ∀ (sv : Server Unit) (q : WireReq) (s : Sock), q.Good → valuesOf q.headers c!"expect" = [c!"100-continue"] →
    q.body ≠ [] → q.body.length ≤ i64Max → (∀ k, sv.allocOk k = true) → s.bytes ++ q.body = q.bytes →
    s.fin = .silent → ∃ bytes, bytes ≠ [] ∧ sv.serve () s = .ok ((), bytes)

/-- What happens, always: while any of the body is missing the server waits for it, without a word. -/
theorem C97_waits (sv : Server W) (w : W) (q : WireReq) (hq : q.Framed) (s : Sock) (got missing : Bytes)
    (hbody : q.body = got ++ missing) (hm : missing ≠ []) (hmax : q.body.length ≤ i64Max)
    (halloc : ∀ k, sv.allocOk k = true) (hb : s.bytes ++ missing = q.bytes) (hfin : s.fin = .silent) :
    sv.serve w s = .pending := by
  obtain ⟨h1, h2, h4⟩ := hq.parts sv.feat.faithful
  have hs : s.bytes = utf8 (crlf.intercalate (q.line :: q.headers.map wireHeader)) ++ blankLine ++ got := by
    apply List.append_cancel_right (bs := missing)
    rw [hb, WireReq.bytes, hbody]; simp
  refine C68_waits_body sv w s hfin halloc _ _ _ q.headers got q.body.length ?_ h2 (hq.block _) h4 hq.length ?_ hmax
  · rw [hs]; exact h1 got
  · have := List.length_pos_iff.2 hm
    rw [hbody]; simp; omega

/-- What holds of C97: a client that does not wait is served as if it had not asked: the handlers get
the request with its body and the client gets what they leave. Missing: the client that waits. -/
theorem C97_impatient_partial (sv : Server W) (calls : List (Call (W × Response))) (hf : FairL calls)
    (hn : (logOfL calls).length < 2 ^ 64) (hsetup : execL Router.new calls = .ok sv.router)
    (q : WireReq) (hq : q.Good) (_ : valuesOf q.headers c!"expect" = [c!"100-continue"])
    (s : Sock) (hb : s.bytes = q.bytes) (halloc : ∀ k ≤ q.body.length, sv.allocOk k = true)
    (hmax : q.body.length ≤ i64Max) (m : RequestMethod) (hm : (q.method, m) ∈ methodTable)
    (hhost : q.version = c!"1.1" → ∃ h ∈ q.headers, lowered h.1 = c!"host") (w : W) :
    ∃ req, req.body = q.body ∧ (req.headers.raw.map fun h => (h.name, h.value)) = q.headers ∧
      req.requestLine.method = m ∧ req.requestLine.path = resolve q.pieces ∧
      ∀ w' res, replay sv.feat.urlVariables req (logOfL calls) (w, Response.newEmpty) = .ok (w', res) →
        res.body ≠ .none → sv.serve w s = .ok (w', sendData (res.getData sv.U sv.feat.cookies sv.ord)) := by
  obtain ⟨req, h1, h2, -, h4, h5, h6, h7, -, h8, -⟩ :=
    reads_wire sv.feat sv.allocOk q hq s [] (by simpa using hb) (.inl rfl) halloc hmax
  refine ⟨req, h8, h7, h2 m hm, h4, fun w' res hr hres => ?_⟩
  exact served_replay sv calls hf hn hsetup s req h1 (host_ok hhost h5 h6 h7)
    (by rw [h2 m hm]; exact method_ne_none hm) w w' res hr hres

namespace FieldExample

/-- the client asks before it sends five bytes -/
def expecting : WireReq :=
  ⟨c!"POST", [[], c!"a"], c!"1.1", [(c!"Host", c!"b"), (c!"Expect", c!"100-continue"), (c!"Content-Length", c!"5")],
    utf8 c!"hello"⟩

theorem expecting_good : expecting.Good := by
  refine ⟨⟨by decide, by decide, ?_, by decide, ⟨by decide, by decide +kernel⟩,
    (C86_length _ _).2 (.inl ⟨c!"5", by decide +kernel, .inl ⟨by decide, by decide, by decide, by decide⟩⟩)⟩, ?_⟩
  · rintro ⟨k, hk⟩
    have : (expecting.pieces.take k).countP isUp = 0 :=
      List.countP_eq_zero.2 fun p hp =>
        (by decide : ∀ p ∈ expecting.pieces, ¬ isUp p = true) p (List.mem_of_mem_take hp)
    omega
  · intro v hv
    have : joined expecting.headers c!"cookie" = none := by decide +kernel
    rw [this] at hv; simp at hv

/-- what it sends first -/
def asks : Str := c!"POST /a HTTP/1.1\r\nHost: b\r\nExpect: 100-continue\r\nContent-Length: 5\r\n\r\n"

theorem asks_bytes : utf8 asks ++ expecting.body = expecting.bytes := by decide +kernel

end FieldExample

open FieldExample in
/-- C97 is false of the code. -/
theorem C97_counterexample : ¬ C97_statement := by
  intro h
  have hb : (⟨[utf8 asks], .silent⟩ : Sock).bytes ++ expecting.body = expecting.bytes := by
    rw [← asks_bytes]; simp [Sock.bytes]
  obtain ⟨bytes, -, h1⟩ := h empty expecting ⟨[utf8 asks], .silent⟩ expecting_good (by decide +kernel)
    (by decide) (by decide) (fun _ => rfl) hb rfl
  rw [C97_waits empty () expecting expecting_good.1 _ [] expecting.body rfl (by decide) (by decide)
    (fun _ => rfl) hb rfl] at h1
  simp at h1

open FieldExample in
/-- The impatient client: a handler that answers with the body it got. -/
example : ∃ req, req.body = utf8 c!"hello" ∧ Reads empty.feat empty.allocOk ⟨[expecting.bytes], .eof⟩ req := by
  obtain ⟨req, h1, -, -, -, -, -, -, -, h8, -⟩ :=
    reads_wire empty.feat empty.allocOk expecting expecting_good ⟨[expecting.bytes], .eof⟩ []
      (by simp [Sock.bytes]) (.inl rfl) (fun _ _ => rfl) (by decide)
  exact ⟨req, h8, h1⟩

/-! ### C100: white space before the colon -/

/-- a header line with blanks between its name and the colon -/
def Spec.BlankBeforeColon (line : Str) : Prop :=
  ∃ name ws value, line = name ++ ws ++ ':' :: value ∧ name ≠ [] ∧ ':' ∉ name ∧ ws ≠ [] ∧ ∀ c ∈ ws, isBlank c

/-- The connection's head has these lines after its request line. -/
def Spec.HeadLines (bytes : Bytes) (lines : List Str) : Prop :=
  ∃ text line rest, FirstSplit bytes blankLine (utf8 text) rest ∧
    FirstSplit text crlf line (crlf.intercalate lines) ∧ ∀ l ∈ lines, ¬ Occurs l crlf

/-- The full claim of C100 (RFC 7230 section 3.2.4): a request with such a line is answered by 400 and no
handler runs (the state is what it was). -/
def C100_statement (faithful : Bool) : Prop :=
  ∀ (sv : Server Nat) (w : Nat) (s : Sock) (lines : List Str), sv.feat.faithful = faithful → HeadLines s.bytes lines →
    (∃ l ∈ lines, BlankBeforeColon l) → s.fin = .eof → (∀ k, sv.allocOk k = true) → (∀ w, 0 ≤ sv.clock w) →
    Page sv w s w c!"400" c!"BAD REQUEST"

/-- In faithful mode every line with a blank (in fact, with anything but a token) before its first colon,
folded lines included, makes the task panic: nothing is answered, and no handler runs. -/
theorem C100_refused_partial (sv : Server W) (hfaith : sv.feat.faithful = true) (w : W) (s : Sock)
    (lines : List Str) (h : HeadLines s.bytes lines) (a : Str) (c : Char) (b : Str) (hl : a ++ c :: b ∈ lines)
    (ha : ':' ∉ a) (hc : isBlank c) : sv.serve w s = .panic := by
  obtain ⟨text, line, rest, h1, h2, h3⟩ := h
  obtain ⟨rem, reader, r1, -⟩ := ((C25_head_from_bytes s).2 _ _ h1).1 line _ ⟨text, rfl, h2⟩
  have hp := C27_refuses sv.feat.faithful lines h3 _ hl (by
    rintro n v ⟨ws, e, -, hn, -, -, ht⟩
    have ht := (ht hfaith).1
    have hcn : c ∈ n := by
      rw [show n ++ ':' :: ws ++ v = n ++ ':' :: (ws ++ v) by simp] at e
      rcases List.append_eq_append_iff.1 e with ⟨m, e1, e2⟩ | ⟨m, e1, e2⟩
      · cases m with
        | nil =>
          simp only [List.nil_append, List.cons.injEq] at e2
          rcases hc with rfl | rfl <;> simp at e2
        | cons x m =>
          simp only [List.cons_append, List.cons.injEq] at e2
          rw [e1, e2.1]; simp
      · exact absurd (e1 ▸ (by
          cases m with
          | nil =>
            simp only [List.nil_append, List.cons.injEq] at e2
            rcases hc with rfl | rfl <;> simp at e2
          | cons x m =>
            simp only [List.cons_append, List.cons.injEq] at e2
            rw [← e2.1]; simp) : ':' ∈ a) ha
    have := ht c hcn
    rcases hc with rfl | rfl <;> exact absurd this (by decide))
  unfold Server.serve
  simp only [r1, hp, Io.bind_ok, Res.bind_ok', Res.unwrap_none, Io.ofRes_panic, Io.bind_panic]

/-- Without the feature it is a header like any other, under the name with its blanks. -/
theorem C100_lenient (name ws value : Str) (hname : name ≠ []) (hn : ':' ∉ name) (hb : ∀ c ∈ ws, isBlank c) :
    Header.parse false (name ++ ws ++ ':' :: value) =
        some ⟨name ++ ws, value.dropWhile fun c => c == ' ' || c == '\t'⟩ := by
  have hnc : ':' ∉ name ++ ws := by
    rw [List.mem_append]
    rintro (h | h)
    · exact hn h
    · rcases hb _ h with h | h <;> simp at h
  unfold Header.parse
  rw [splitN2_append hnc]
  simp [hname]

/-- So it is not found under the name without them: such a header changes nothing about any other. -/
theorem C100_hidden (hs hs' : List (Str × Str)) (name ws value k : Str) (hws : ws ≠ [])
    (hb : ∀ c ∈ ws, isBlank c) (hk : ∀ c ∈ k, ¬ isBlank c) :
    joined (hs ++ (name ++ ws, value) :: hs') k = joined (hs ++ hs') k := by
  have : lowered (name ++ ws) ≠ k := by
    rintro rfl
    obtain ⟨c, ws, rfl⟩ := List.exists_cons_of_ne_nil hws
    have hc := hb c (by simp)
    refine hk c ?_ hc
    have : small c = c := by rcases hc with rfl | rfl <;> decide
    rw [lowered, List.mem_map]
    exact ⟨c, by simp, this⟩
  unfold joined
  simp [List.filter_append, this]

/-- In particular a length announced so is not seen, and what the client then sends as its body is not
taken for one. -/
theorem C100_length (hs hs' : List (Str × Str)) (ws value : Str) (hws : ws ≠ []) (hb : ∀ c ∈ ws, isBlank c)
    (h : ∀ x ∈ hs ++ hs', lowered x.1 ≠ c!"content-length") :
    DeclaredLength (joined (hs ++ (c!"Content-Length" ++ ws, value) :: hs')) 0 := by
  have hj := C100_hidden hs hs' c!"Content-Length" ws value c!"content-length" hws hb (by decide)
  rw [(joined_none _ _).2 h] at hj
  refine (C86_length _ _).2 (.inr ⟨rfl, fun v m hv => ?_⟩)
  have h0 : valuesOf (hs ++ (c!"Content-Length" ++ ws, value) :: hs') c!"content-length" = [] := by
    rw [joined_none] at hj
    simp only [valuesOf, List.map_eq_nil_iff, List.filter_eq_nil_iff]
    simpa using hj
  rw [h0] at hv; simp at hv

/-- So the request is read with all its headers and an empty body, whatever the client sends behind the
blank line. -/
theorem C100_unread (feat : Features) (allocOk : Nat → Bool) (s : Sock) (q : Asked) (n : Nat)
    (hq : q.In feat.faithful feat.cookies s.bytes n) (hs hs' : List (Str × Str)) (ws value : Str)
    (he : q.headers = hs ++ (c!"Content-Length" ++ ws, value) :: hs') (hws : ws ≠ [])
    (hb : ∀ c ∈ ws, isBlank c) (h : ∀ x ∈ hs ++ hs', lowered x.1 ≠ c!"content-length")
    (halloc : allocOk 0 = true) :
    ∃ req, Reads feat allocOk s req ∧ (req.headers.raw.map fun h => (h.name, h.value)) = q.headers ∧
      req.headers.get c!"content-length" = none ∧ req.body = [] := by
  have h0 := C100_length hs hs' ws value hws hb h
  rw [← he] at h0
  have hn : n = 0 := by
    obtain ⟨_, _, _, _, _, _, _, h5, _⟩ := hq
    exact DeclaredLength.unique h5 h0
  subst hn
  obtain ⟨req, h1, -, h3, h4, h5, -⟩ := reads_asked feat allocOk s q 0 hq
    (fun k hk => by rw [Nat.le_zero.1 hk]; exact halloc) (by decide)
  refine ⟨req, h1, h3, ?_, ?_⟩
  · have hj := C100_hidden hs hs' c!"Content-Length" ws value c!"content-length" hws hb (by decide)
    rw [(joined_none _ _).2 h] at hj
    rw [h4, he, hj]
  · rcases h5 with ⟨-, h5⟩ | ⟨h5, -⟩
    · exact h5
    · omega

namespace FieldExample

/-- its length is lost -/
def spaced : Str := c!"POST /a HTTP/1.1\r\nHost: b\r\nContent-Length : 5\r\n\r\nhello"

def spacedLines : List Str := [c!"Host: b", c!"Content-Length : 5"]

theorem spaced_split : FirstSplit (utf8 spaced) blankLine
    (utf8 (crlf.intercalate (c!"POST /a HTTP/1.1" :: spacedLines))) (utf8 c!"hello") := by
  have := firstSplit_lines c!"POST /a HTTP/1.1" spacedLines (by decide) (utf8 c!"hello")
  rwa [show utf8 (crlf.intercalate (c!"POST /a HTTP/1.1" :: spacedLines)) ++ blankLine ++ utf8 c!"hello" =
    utf8 spaced by decide +kernel] at this

theorem spaced_lines : HeadLines (utf8 spaced) spacedLines :=
  ⟨_, c!"POST /a HTTP/1.1", _, spaced_split, firstSplit_of_not_mem (a := c!"POST /a HTTP/1.1") (b := crlf.intercalate spacedLines) (by decide),
    fun l hl => no_crlf_of_no_cr ((by decide : ∀ l ∈ spacedLines, '\r' ∉ l) l hl)⟩

theorem spaced_blank : ∃ l ∈ spacedLines, BlankBeforeColon l :=
  ⟨_, by simp [spacedLines], c!"Content-Length", c!" ", c!" 5", rfl, by decide, by decide, by decide, by decide⟩

def counting (faithful : Bool) : Server Nat :=
  { feat := { Features.default with faithful }, allocOk := fun _ => true, U := Unicode.asciiOnly, ord := MapOrder.id,
    clock := fun _ => 0, router := Router.new }

theorem spaced_asked : Asked.In false true (utf8 spaced)
    ⟨c!"POST", [[], c!"a"], c!"1.1", [(c!"Host", c!"b"), (c!"Content-Length ", c!"5")], utf8 c!"hello"⟩ 0 := by
  refine ⟨_, c!"POST /a HTTP/1.1", _, spaced_split, firstSplit_of_not_mem (a := c!"POST /a HTTP/1.1") (b := crlf.intercalate spacedLines) (by decide),
    ⟨c!"HTTP/", [], by decide, by decide, by decide, by decide, ?_, by decide, by simp⟩,
    ⟨spacedLines, by decide, rfl, fun l hl => no_crlf_of_no_cr ((by decide : ∀ l ∈ spacedLines, '\r' ∉ l) l hl),
      rfl, ?_⟩, ?_, by decide, ?_⟩
  · rintro ⟨k, hk⟩
    have : (([[], c!"a"] : List Str).take k).countP isUp = 0 :=
      List.countP_eq_zero.2 fun p hp =>
        (by decide : ∀ p ∈ ([[], c!"a"] : List Str), ¬ isUp p = true) p (List.mem_of_mem_take hp)
    simp only at hk
    omega
  · intro i line n v h1 h2
    match i with
    | 0 =>
      simp [spacedLines] at h1 h2
      subst h1; obtain ⟨rfl, rfl⟩ := h2
      exact ⟨[' '], by decide, by decide, by decide, by decide, by decide, by simp⟩
    | 1 =>
      simp [spacedLines] at h1 h2
      subst h1; obtain ⟨rfl, rfl⟩ := h2
      exact ⟨[' '], by decide, by decide, by decide, by decide, by decide, by simp⟩
    | i + 2 => simp at h2
  · exact C100_length [(c!"Host", c!"b")] [] c!" " c!"5" (by decide) (by decide) (by decide +kernel)
  · intro _ v hv
    rw [show joined _ c!"cookie" = none from (by decide +kernel :
      joined [(c!"Host", c!"b"), (c!"Content-Length ", c!"5")] c!"cookie" = none)] at hv
    simp at hv

/-- five bytes are announced and sent, none is read -/
example : ∃ req, Reads ⟨false, true, true⟩ (fun _ => true) ⟨[utf8 spaced], .eof⟩ req ∧ req.body = [] := by
  obtain ⟨req, h1, -, -, h2⟩ := C100_unread ⟨false, true, true⟩ (fun _ => true) ⟨[utf8 spaced], .eof⟩ _ 0
    (by simpa [Sock.bytes] using spaced_asked) [(c!"Host", c!"b")] [] c!" " c!"5" rfl (by decide) (by decide)
    (by decide +kernel) rfl
  exact ⟨req, h1, h2⟩

end FieldExample

open FieldExample in
/-- C100 is false of the code with the feature and without it. -/
theorem C100_counterexample (faithful : Bool) : ¬ C100_statement faithful := by
  intro h
  obtain ⟨bytes, v, h1, h2, h3, -⟩ := h (counting faithful) 0 ⟨[utf8 spaced], .eof⟩ spacedLines rfl
    (by simpa [Sock.bytes] using spaced_lines) spaced_blank rfl (fun _ => rfl) (fun _ => by simp [counting])
  cases faithful with
  | true =>
    rw [C100_refused_partial (counting true) rfl 0 _ spacedLines (by simpa [Sock.bytes] using spaced_lines)
      c!"Content-Length" ' ' c!": 5" (by simp [spacedLines]) (by decide) (by decide)] at h1
    simp at h1
  | false =>
    obtain ⟨-, g, -⟩ := C83_connection [] (by simp [FairL]) (by simp [logOfL]) (counting false) (by simp [execL, counting])
      0 ⟨[utf8 spaced], .eof⟩ rfl (by decide +kernel) (fun _ => rfl) (fun _ => by simp [counting])
    obtain ⟨req, g1, -, -, g2⟩ := ((g _ _ (show Asked.In false true ([utf8 spaced] : List Bytes).flatten _ _ by
        rw [List.flatten_singleton]; exact spaced_asked)).2
      (fun h => h.2 (c!"Host", c!"b") (by simp) (by decide +kernel))).2 (by decide)
    obtain ⟨bytes', v', k1, k2, k3, -⟩ := (g2 0 Response.newEmpty (by simp [logOfL, replay])).1 rfl
    rw [k1] at h1
    simp only [Io.ok.injEq, Prod.mk.injEq, true_and] at h1
    subst h1
    rw [ClientParses.unique h2 k2, k3] at h3
    exact absurd h3 (by decide)

/-! ### C101: white space behind the value -/

/-- a header line in its parts (RFC 7230 section 3.2: `field-name ":" OWS field-value OWS`) -/
structure Spec.Field where
  name : Str
  before : Str
  value : Str
  behind : Str

def Spec.Field.line (f : Field) : Str := f.name ++ ':' :: f.before ++ f.value ++ f.behind

/-- the name is a token, the value has no control characters and begins and ends with something that is
not blank, around it there are blanks -/
structure Spec.Field.Ok (f : Field) : Prop where
  name : f.name ≠ [] ∧ ∀ c ∈ f.name, isTchar c
  blanks : ∀ c ∈ f.before ++ f.behind, isBlank c
  value : ∀ c ∈ f.value, ¬ isControl c
  ends : ∀ c, f.value.head? = some c ∨ f.value.getLast? = some c → ¬ isBlank c

/-- The full claim of C101 (RFC 7230 section 3.2.4): the blanks on both sides are not part of the value. -/
def C101_statement (faithful : Bool) : Prop :=
  ∀ fs : List Field, fs ≠ [] → (∀ f ∈ fs, f.Ok) →
    ∃ H, Headers.parse faithful (crlf.intercalate (fs.map Field.line)) = .ok (some H) ∧
      (H.raw.map fun h => (h.name, h.value)) = fs.map fun f => (f.name, f.value)

/-- the value the program gets: the blanks behind it included, unless there is nothing else -/
def Spec.Field.kept (f : Field) : Str := if f.value = [] then [] else f.value ++ f.behind

theorem Spec.Field.Ok.line_cr {f : Field} (h : f.Ok) : '\r' ∉ f.line := by
  have h1 : '\r' ∉ f.name := fun hm => (tchar_no (h.name.2 _ hm)).1 rfl
  have h2 : '\r' ∉ f.value := fun hm => h.value _ hm (by decide)
  have h3 : '\r' ∉ f.before ++ f.behind := fun hm => absurd (h.blanks _ hm) (by decide)
  simp only [List.mem_append, not_or] at h3
  simp [Field.line, h1, h2, h3]

theorem Spec.Field.Ok.headerLine {f : Field} (h : f.Ok) (faithful : Bool)
    (ht : faithful = true → f.value ≠ [] → '\t' ∉ f.behind) : HeaderLine faithful f.line f.name f.kept := by
  have hname : ':' ∉ f.name := fun hm => (tchar_no (h.name.2 _ hm)).2 rfl
  have hbl := h.blanks
  simp only [List.mem_append] at hbl
  unfold Field.kept
  split
  · rename_i hv
    refine ⟨f.before ++ f.behind, by simp [Field.line, hv], h.name.1, hname, h.blanks, by simp, fun _ => ⟨h.name.2, by simp⟩⟩
  · rename_i hv
    refine ⟨f.before, by simp [Field.line], h.name.1, hname, fun c hc => hbl c (.inl hc), ?_, fun hf => ⟨h.name.2, ?_⟩⟩
    · intro c hc
      apply h.ends c (.inl _)
      obtain ⟨x, xs, e⟩ := List.exists_cons_of_ne_nil hv
      rw [e] at hc ⊢
      simpa using hc
    · intro c hc hr
      rcases List.mem_append.1 hc with hc | hc
      · exact h.value c hc hr.1
      · rcases hbl c (.inr hc) with rfl | rfl
        · exact absurd hr (by decide)
        · exact ht hf hv hc

/-- What happens instead, exactly. Blanks before the value are dropped, those behind it are kept; in
faithful mode a tab there makes the whole head unreadable. -/
theorem C101_exact (faithful : Bool) (fs : List Field) (hne : fs ≠ []) (hok : ∀ f ∈ fs, f.Ok) :
    ((faithful = true ∧ ∃ f ∈ fs, f.value ≠ [] ∧ '\t' ∈ f.behind) →
      Headers.parse faithful (crlf.intercalate (fs.map Field.line)) = .ok none) ∧
    (¬ (faithful = true ∧ ∃ f ∈ fs, f.value ≠ [] ∧ '\t' ∈ f.behind) →
      ∃ H, Headers.parse faithful (crlf.intercalate (fs.map Field.line)) = .ok (some H) ∧
        H.raw = fs.map fun f => ⟨f.name, f.kept⟩) := by
  have hcr : ∀ l ∈ fs.map Field.line, ¬ Occurs l crlf := by
    intro l hl
    obtain ⟨f, hf, rfl⟩ := List.mem_map.1 hl
    exact no_crlf_of_no_cr (hok f hf).line_cr
  constructor
  · rintro ⟨rfl, f, hf, hv, ht⟩
    refine C27_refuses true _ hcr f.line (List.mem_map_of_mem hf) ?_
    intro n v hl
    have hk := (hok f hf).headerLine false (by simp)
    have e := (Header.parse_iff true f.line ⟨n, v⟩).2 hl
    have hl' : HeaderLine false f.line n v := by
      obtain ⟨ws, a, b, c, d, e, -⟩ := hl
      exact ⟨ws, a, b, c, d, e, by simp⟩
    have e1 := (Header.parse_iff false f.line ⟨n, v⟩).2 hl'
    have e2 := (Header.parse_iff false f.line ⟨f.name, f.kept⟩).2 hk
    rw [e1] at e2
    simp only [Option.some.injEq, Header.mk.injEq] at e2
    obtain ⟨ws, -, -, -, -, -, hg⟩ := hl
    refine (hg rfl).2 '\t' ?_ (by decide)
    rw [e2.2, Field.kept, if_neg hv]
    simp [ht]
  · intro h
    refine C27_accepts faithful _ (by simpa using hne) hcr _ (by simp) ?_
    intro i line hd h1 h2
    rw [List.getElem?_map] at h1 h2
    cases hi : fs[i]? with
    | none => rw [hi] at h1; simp at h1
    | some f =>
      rw [hi] at h1 h2
      simp only [Option.map_some, Option.some.injEq] at h1 h2
      subst h1 h2
      have hf := List.mem_of_getElem? hi
      exact (hok f hf).headerLine faithful fun hfa hv ht => h ⟨hfa, f, hf, hv, ht⟩

/-- What holds of C101: all of it when nothing is behind the values. Missing: blanks there. -/
theorem C101_partial (faithful : Bool) (fs : List Field) (hne : fs ≠ []) (hok : ∀ f ∈ fs, f.Ok)
    (h : ∀ f ∈ fs, f.behind = []) :
    ∃ H, Headers.parse faithful (crlf.intercalate (fs.map Field.line)) = .ok (some H) ∧
      (H.raw.map fun h => (h.name, h.value)) = fs.map fun f => (f.name, f.value) := by
  obtain ⟨H, h1, h2⟩ := (C101_exact faithful fs hne hok).2 (by rintro ⟨-, f, hf, -, ht⟩; rw [h f hf] at ht; simp at ht)
  refine ⟨H, h1, ?_⟩
  rw [h2, List.map_map]
  apply List.map_congr_left
  intro f hf
  simp only [Function.comp, Field.kept, h f hf, List.append_nil]
  split
  · rename_i e; rw [e]
  · rfl

theorem length_blank (q : WireReq) (hq : q.Framed) (v blanks : Str)
    (hb : blanks ≠ []) (hbl : ∀ c ∈ blanks, isBlank c)
    (hv : valuesOf q.headers c!"content-length" = [v ++ blanks]) : q.body = [] := by
  have h := (C86_length _ _).1 hq.length
  have hdig : ∀ ds n, IsLength ds n → ∀ c ∈ ds, ¬ isBlank c := by
    rintro ds n ⟨-, hd, -⟩ c hc (rfl | rfl)
    · exact absurd (hd _ hc) (by decide)
    · exact absurd (hd _ hc) (by decide)
  obtain ⟨b, bs, rfl⟩ := List.exists_cons_of_ne_nil hb
  rcases h with ⟨x, e, h⟩ | ⟨h, -⟩
  · rw [hv] at e
    simp only [List.cons.injEq, and_true] at e
    exfalso
    rcases h with h | ⟨ds, e', h⟩
    · exact hdig _ _ h b (by rw [← e]; simp) (hbl b (by simp))
    · refine hdig _ _ h b ?_ (hbl b (by simp))
      have : b ∈ '+' :: ds := by rw [← e', ← e]; simp
      rcases List.mem_cons.1 this with rfl | h
      · exact absurd (hbl '+' (by simp)) (by decide)
      · exact h
  · exact List.length_eq_zero_iff.1 h

/-- A length with a blank behind it is none: whatever the client sends as the body, the handlers get an
empty one. -/
theorem C101_length (feat : Features) (allocOk : Nat → Bool) (q : WireReq) (hq : q.Good) (s : Sock)
    (body : Bytes) (hs : s.bytes = q.bytes ++ body) (v blanks : Str) (hb : blanks ≠ [])
    (hbl : ∀ c ∈ blanks, isBlank c) (hv : valuesOf q.headers c!"content-length" = [v ++ blanks])
    (halloc : allocOk 0 = true) : ∃ req, Reads feat allocOk s req ∧ req.body = [] := by
  have h0 := length_blank q hq.1 v blanks hb hbl hv
  obtain ⟨req, h1, -, -, -, -, -, -, -, h8, -⟩ := reads_wire feat allocOk q hq s body hs (.inr h0)
    (by rw [h0]; intro k hk; simp at hk; rw [hk]; exact halloc) (by rw [h0]; decide)
  exact ⟨req, h1, h8.trans h0⟩

namespace FieldExample

/-- `Host: b␠`, in the two kinds of blank -/
def behind (b : Str) : Field := ⟨c!"Host", c!" ", c!"b", b⟩
theorem behind_ok : ∀ b ∈ [c!"", c!" ", c!"\t"], (behind b).Ok := by
  intro b hb
  simp only [List.mem_cons, List.not_mem_nil, or_false] at hb
  rcases hb with rfl | rfl | rfl <;> exact ⟨by decide, by decide, by decide, by intro c; simp [behind]; rintro rfl; decide⟩

/-- `POST /a` with `Content-Length: 5␠` -/
def loose : WireReq := ⟨c!"POST", [[], c!"a"], c!"1.1", [(c!"Host", c!"b"), (c!"Content-Length", c!"5 ")], []⟩
theorem loose_good : loose.Good := by
  refine ⟨⟨by decide, by decide, ?_, by decide, ⟨by decide, by decide +kernel⟩,
    (C86_length _ _).2 (.inr ⟨by decide, ?_⟩)⟩, ?_⟩
  · rintro ⟨k, hk⟩
    have : (loose.pieces.take k).countP isUp = 0 :=
      List.countP_eq_zero.2 fun p hp =>
        (by decide : ∀ p ∈ loose.pieces, ¬ isUp p = true) p (List.mem_of_mem_take hp)
    omega
  · intro v m hv
    rw [show valuesOf loose.headers c!"content-length" = [c!"5 "] by decide +kernel] at hv
    simp only [List.cons.injEq, and_true] at hv
    subst hv
    rintro (⟨-, h, -⟩ | ⟨ds, h, -⟩)
    · exact absurd (h ' ' (by simp)) (by decide)
    · simp at h
  · intro v hv
    have : joined loose.headers c!"cookie" = none := by decide +kernel
    rw [this] at hv; simp at hv

/-- the hypotheses of `C101_length` are met -/
example : ∃ req, Reads .default (fun _ => true) ⟨[loose.bytes, utf8 c!"hello"], .eof⟩ req ∧ req.body = [] :=
  C101_length .default (fun _ => true) loose loose_good _ (utf8 c!"hello") (by simp [Sock.bytes]) c!"5" c!" "
    (by decide) (by decide) (by decide +kernel) rfl

example : ∃ H, Headers.parse true c!"Host: b " = .ok (some H) ∧ H.raw = [⟨c!"Host", c!"b "⟩] :=
  (C101_exact true [behind c!" "] (by simp) (by simpa using behind_ok _ (by simp))).2 (by simp [behind])
example : Headers.parse true c!"Host: b\t" = .ok none :=
  (C101_exact true [behind c!"\t"] (by simp) (by simpa using behind_ok _ (by simp))).1 (by simp [behind])
example : ∃ H, Headers.parse true c!"Host: b" = .ok (some H) ∧
    (H.raw.map fun h => (h.name, h.value)) = [(c!"Host", c!"b")] :=
  C101_partial true [behind []] (by simp) (by simpa using behind_ok _ (by simp)) (by simp [behind])

end FieldExample

open FieldExample in
/-- C101 is false of the code, with the feature and without it. -/
theorem C101_counterexample (faithful : Bool) : ¬ C101_statement faithful := by
  intro h
  have hok : ∀ f ∈ [behind c!" "], f.Ok := by simpa using behind_ok _ (by simp)
  obtain ⟨H, h1, h2⟩ := h [behind c!" "] (by simp) hok
  obtain ⟨H', h3, h4⟩ := (C101_exact faithful [behind c!" "] (by simp) hok).2 (by simp [behind])
  rw [h1] at h3
  simp only [Res.ok.injEq, Option.some.injEq] at h3
  subst h3
  rw [h4] at h2
  exact absurd h2 (by decide)

/-! ### C102: HEAD for what answers GET -/

/-- The full claim of C102 (RFC 7231 sections 4.1 and 4.3.2: GET and HEAD are to be supported, and HEAD is
answered as GET, but for the body): with handlers that do not look at the request, the code that answers
a HEAD is the one that answers the GET. -/
def C102_statement : Prop :=
  ∀ (sv : Server Unit) (calls : List (Call (Unit × Response))) (q : WireReq) (s s' : Sock), FairL calls →
    (logOfL calls).length < 2 ^ 64 → execL Router.new calls = .ok sv.router →
    (∀ e ∈ logOfL calls, Blind e.handler) → q.Good → q.body = [] → (∀ w, 0 ≤ sv.clock w) →
    s.bytes = { q with method := c!"GET" }.bytes → s'.bytes = { q with method := c!"HEAD" }.bytes →
    ∀ w bytes v, sv.serve () s = .ok (w, bytes) → ClientParses bytes v →
      ∃ w' bytes' v', sv.serve () s' = .ok (w', bytes') ∧ ClientParses bytes' v' ∧ v'.code = v.code

theorem with_method {q : WireReq} (hq : q.Good) (m : Str) (hm : ' ' ∉ m ∧ '\r' ∉ m) : { q with method := m }.Good :=
  ⟨⟨hm, hq.1.pieces, hq.1.inside, hq.1.version, hq.1.headers, hq.1.length⟩, hq.2⟩

/-- What happens instead: a handler registered for GET answers GET only. If every registration is for a
method and none of them for HEAD, every HEAD is answered by the 404 page. -/
theorem C102_not_found (sv : Server W) (calls : List (Call (W × Response))) (hf : FairL calls)
    (hn : (logOfL calls).length < 2 ^ 64) (hsetup : execL Router.new calls = .ok sv.router)
    (q : WireReq) (hq : q.Good) (s : Sock) (hb : s.bytes = { q with method := c!"HEAD" }.bytes)
    (halloc : ∀ k ≤ q.body.length, sv.allocOk k = true) (hmax : q.body.length ≤ i64Max)
    (hhost : q.version = c!"1.1" → ∃ h ∈ q.headers, lowered h.1 = c!"host")
    (honly : ∀ e ∈ logOfL calls, ∃ m p, e.target = .on m p ∧ m ≠ .head) (w : W) (hc : 0 ≤ sv.clock w) :
    ∃ bytes v, sv.serve w s = .ok (w, bytes) ∧ ClientParses bytes v ∧ v.code = c!"404" := by
  obtain ⟨bytes, v, h1, h2, h3, -⟩ := C69_unmatched sv calls hf hn hsetup _ (with_method hq c!"HEAD" (by decide)) s hb
    halloc hmax .head (by simp only; decide) hhost (by
      intro e he
      obtain ⟨m, p, h, hne⟩ := honly e he
      simp [h, Target.applies, hne]) w hc
  exact ⟨bytes, v, h1, h2, h3⟩

/-- What holds of C102: if what applies to the GET is what applies to the HEAD, the answers are the same,
body included. Missing: handlers registered for GET only. -/
theorem C102_same_partial (sv : Server W) (calls : List (Call (W × Response))) (hf : FairL calls)
    (hn : (logOfL calls).length < 2 ^ 64) (hsetup : execL Router.new calls = .ok sv.router)
    (hblind : ∀ e ∈ logOfL calls, Blind e.handler) (q : WireReq) (hq : q.Good) (s s' : Sock)
    (hb : s.bytes = { q with method := c!"GET" }.bytes) (hb' : s'.bytes = { q with method := c!"HEAD" }.bytes)
    (halloc : ∀ k ≤ q.body.length, sv.allocOk k = true) (hmax : q.body.length ≤ i64Max)
    (hboth : ∀ e ∈ logOfL calls, e.target.applies sv.feat.urlVariables .get (resolve q.pieces) =
      e.target.applies sv.feat.urlVariables .head (resolve q.pieces)) (w : W) :
    sv.serve w s = sv.serve w s' := by
  obtain ⟨req, h1, h2, h3, h4, h5, h6, h7, h7b, -⟩ := reads_wire sv.feat sv.allocOk _
    (with_method hq c!"GET" (by decide)) s [] (by simpa using hb) (.inl rfl) halloc hmax
  obtain ⟨req', h1', h2', h3', h4', h5', h6', h7', h7b', -⟩ := reads_wire sv.feat sv.allocOk _
    (with_method hq c!"HEAD" (by decide)) s' [] (by simpa using hb') (.inl rfl) halloc hmax
  obtain ⟨r, g1, g2⟩ := C12_run_is_replay calls hf hn
  rw [hsetup] at g1
  simp only [Res.ok.injEq] at g1
  subst g1
  have m1 : req.requestLine.method = .get := h2 .get (by simp only; decide)
  have m2 : req'.requestLine.method = .head := h2' .head (by simp only; decide)
  have hver : req.requestLine.version = req'.requestLine.version := by
    by_cases hk : ∃ x, (q.version, x) ∈ versionTable
    · obtain ⟨x, hx⟩ := hk
      rw [h5 x hx, h5' x hx]
    · rw [h6 fun x hx => hk ⟨x, hx⟩, h6' fun x hx => hk ⟨x, hx⟩]
  have hrun : Router.run sv.feat.urlVariables sv.router req (w, Response.newEmpty) =
      Router.run sv.feat.urlVariables sv.router req' (w, Response.newEmpty) := by
    rw [g2 _ _ _ h1.facts.2, g2 _ _ _ h1'.facts.2]
    apply replay_same _ _ _ _ _ hblind
    intro e he
    rw [h4, h4', m1, m2]
    exact hboth e he
  have hhost : req.headers.get c!"host" = req'.headers.get c!"host" := by rw [h7b, h7b']
  rw [serve_reads h1, serve_reads h1', handle_spec, handle_spec, hver, hhost, hrun, m1, m2]
  simp

namespace FieldExample
open StrictExample

theorem hello_blind : Blind hello := fun _ _ => rfl

/-- the request of these examples is answered by the handler -/
theorem get_hello (sv : Server Unit) (hsetup : execL Router.new calls = .ok sv.router) (s : Sock)
    (hb : s.bytes = { qa with method := c!"GET" }.bytes) (halloc : ∀ k, sv.allocOk k = true) :
    sv.serve () s = .ok ((), sendData
      ({ Response.newEmpty with body := .sized 2 (.cursor (utf8 c!"hi")) }.getData sv.U sv.feat.cookies sv.ord)) := by
  obtain ⟨req, h1, h2, -, h4, h5, h6, h7, -⟩ :=
    reads_wire sv.feat sv.allocOk _ (with_method qa_good c!"GET" (by decide)) s [] (by simpa using hb) (.inl rfl)
      (fun _ _ => halloc _) (by decide)
  have hm := h2 .get (by simp only; decide)
  refine served_replay sv calls (by simp [calls, FairL, Fair]) (by decide +kernel) hsetup s req h1
    (host_ok (fun _ => ⟨(c!"Host", c!"b"), by decide, by decide +kernel⟩) h5 h6 h7) (by rw [hm]; decide) () () _ ?_ (by simp)
  rw [log_calls]
  have hp : req.requestLine.path = [c!"a"] := h4.trans (by decide +kernel)
  have ha : Target.applies sv.feat.urlVariables (.on .get [c!"a"]) .get [c!"a"] = true := by
    cases sv.feat.urlVariables <;> decide +kernel
  simp only [replay, hm, hp, ha, if_true, hello]

end FieldExample

open FieldExample StrictExample in
/-- C102 is false of the code: `/a` answers GET and is not there for HEAD. -/
theorem C102_counterexample : ¬ C102_statement := by
  intro h
  obtain ⟨r, hr⟩ := made
  let sv : Server Unit := { StrictExample.sv with router := r }
  have hf : FairL calls := by simp [calls, FairL, Fair]
  have hn : (logOfL calls).length < 2 ^ 64 := by decide +kernel
  have hget := get_hello sv hr ⟨[{ qa with method := c!"GET" }.bytes], .eof⟩ (by simp [Sock.bytes]) (fun _ => rfl)
  obtain ⟨v, p1, p2, -⟩ := client_all sv.U sv.feat.cookies sv.ord
    { Response.newEmpty with body := .sized 2 (.cursor (utf8 c!"hi")) } 
    (AnswerExample.writable (by decide) (by decide +kernel) (by decide +kernel) rfl) (.inr rfl)
  obtain ⟨w', bytes', v', k1, k2, k3⟩ := h sv calls qa ⟨[{ qa with method := c!"GET" }.bytes], .eof⟩
    ⟨[{ qa with method := c!"HEAD" }.bytes], .eof⟩ hf hn hr
    (by rw [log_calls]; simpa using hello_blind) qa_good rfl (by simp [sv, StrictExample.sv]) (by simp [Sock.bytes]) (by simp [Sock.bytes])
    _ _ v hget p1
  obtain ⟨b, u, n1, n2, n3⟩ := C102_not_found sv calls hf hn hr qa qa_good ⟨[{ qa with method := c!"HEAD" }.bytes], .eof⟩
    (by simp [Sock.bytes]) (fun _ _ => rfl) (by decide) (fun _ => ⟨(c!"Host", c!"b"), by decide, by decide +kernel⟩)
    (by rw [log_calls]; simp) () (by simp [sv, StrictExample.sv])
  rw [n1] at k1
  simp only [Io.ok.injEq, Prod.mk.injEq] at k1
  obtain ⟨-, rfl⟩ := k1
  rw [ClientParses.unique k2 n2, n3, p2.eq] at k3
  exact absurd k3 (by decide +kernel)

open FieldExample StrictExample in
/-- the hypotheses of `C102_same_partial` are met: a handler for every method -/
example : (demo hello).serve () ⟨[{ qa with method := c!"GET" }.bytes], .eof⟩ =
    (demo hello).serve () ⟨[{ qa with method := c!"HEAD" }.bytes], .eof⟩ := by
  have hlog : logOfL [Call.add hello] = [⟨.everywhere, hello⟩] := by simp [logOfL, logOf]
  refine C102_same_partial (demo hello) [.add hello] (by simp [FairL, Fair]) (by rw [hlog]; simp)
    (by simp [execL, exec, demo]) (by rw [hlog]; simpa using hello_blind) qa qa_good _ _ (by simp [Sock.bytes])
    (by simp [Sock.bytes]) (fun _ _ => rfl) (by decide) (by rw [hlog]; simp [Target.applies]) ()

namespace FieldExample

/-- the hypotheses of `C97_impatient_partial` are met -/
example : ∃ req, req.body = utf8 c!"hello" ∧
    (req.headers.raw.map fun h => (h.name, h.value)) = expecting.headers ∧ req.requestLine.method = .post ∧
    req.requestLine.path = [c!"a"] ∧ ∀ w' res, replay true req [] ((), Response.newEmpty) = .ok (w', res) →
      res.body ≠ .none → empty.serve () ⟨[expecting.bytes], .eof⟩ =
        .ok (w', sendData (res.getData empty.U empty.feat.cookies empty.ord)) :=
  C97_impatient_partial empty [] (by simp [FairL]) (by simp [logOfL]) rfl expecting expecting_good (by decide +kernel)
    ⟨[expecting.bytes], .eof⟩ (by simp [Sock.bytes]) (fun _ _ => rfl) (by decide) .post (by decide +kernel)
    (fun _ => ⟨_, List.mem_cons_self, by decide +kernel⟩) ()

/-- the hypotheses of `C100_lenient` are met -/
example : Header.parse false c!"Content-Length\t : 5" = some ⟨c!"Content-Length\t ", c!"5"⟩ :=
  C100_lenient c!"Content-Length" c!"\t " c!" 5" (by decide) (by decide) (by decide)

end FieldExample

end Octane
