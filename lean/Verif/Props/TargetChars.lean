import Verif.Props.Forms
import Verif.Props.Lines
/-
C147: targets with characters no URI has.
-/
namespace Octane
open Spec
variable {W : Type u}

/-- The characters of a URI (RFC 3986 section 2): letters and digits of ASCII, the percent sign, and these marks. -/
def Spec.uriChar (c : Char) : Bool := c.isAlphanum || c ∈ c!"%-._~:/?#[]@!$&'()*+,;="

/-- The full claim of C147 (RFC 7230 section 3.1.1): a request whose target has another character is refused with
400. -/
def C147_statement : Prop :=
  ∀ (sv : Server Unit) (q : WireReq) (s : Sock), q.Good → (∃ p ∈ q.pieces, ∃ c ∈ p, uriChar c = false) →
    s.bytes = q.bytes → (∀ k, sv.allocOk k = true) → q.body.length ≤ i64Max → (∀ w, 0 ≤ sv.clock w) →
    Page sv () s () c!"400" c!"BAD REQUEST"

/-- What happens instead: the request is read, with the path of the target, whatever its characters are. -/
theorem C147_read (feat : Features) (allocOk : Nat → Bool) (q : WireReq) (hq : q.Good) (s : Sock)
    (hb : s.bytes = q.bytes) (halloc : ∀ k ≤ q.body.length, allocOk k = true) (hmax : q.body.length ≤ i64Max) :
    ∃ req, Reads feat allocOk s req ∧ req.requestLine.path = resolve q.pieces := by
  obtain ⟨req, h1, -, -, h2, -⟩ := reads_wire feat allocOk q hq s [] (by simpa using hb) (.inl rfl) halloc hmax
  exact ⟨req, h1, h2⟩

/-- So the characters of the target are never a reason to refuse: a request with a known method is answered by 400 before
any handler, by every server, exactly when it is one of HTTP/1.1 without Host, whatever its target is. -/
theorem C147_iff (q : WireReq) (hq : q.Good) (hm : q.method ∈ methodTokens) (s : Sock)
    (hb : s.bytes = q.bytes) (hmax : q.body.length ≤ i64Max) :
    (∀ sv : Server Unit, (∀ k, sv.allocOk k = true) → (∀ w, 0 ≤ sv.clock w) →
      Page sv () s () c!"400" c!"BAD REQUEST") ↔
    (q.version = c!"1.1" ∧ ∀ h ∈ q.headers, lowered h.1 ≠ c!"host") := by
  constructor
  · intro h
    refine Classical.byContradiction fun hn => ?_
    have hhost : q.version = c!"1.1" → ∃ h ∈ q.headers, lowered h.1 = c!"host" := by
      intro hv
      refine Classical.byContradiction fun hx => hn ⟨hv, fun h hh he => hx ⟨h, hh, he⟩⟩
    obtain ⟨m, hmt⟩ : ∃ m, (q.method, m) ∈ methodTable := ⟨_, method_known _ hm⟩
    obtain ⟨bytes, v, h1, h2, h3, -⟩ := C69_unmatched (W := Unit) empty [] (by simp [FairL]) (by decide) rfl q hq s hb
      (fun _ _ => rfl) hmax m hmt hhost (by simp [logOfL]) () (by simp [empty])
    obtain ⟨bytes', v', g1, g2, g3, -, -, g6⟩ := h empty (fun _ => rfl) (by simp [empty])
    rw [h1] at g1
    simp only [Io.ok.injEq, Prod.mk.injEq, true_and] at g1
    subst g1
    rw [g6 v h2, g3] at h3
    exact absurd h3 (by decide)
  · intro h sv halloc hc
    have hin := C83_written sv.feat.faithful sv.feat.cookies q hq []
    rw [List.append_nil, ← hb] at hin
    obtain ⟨req, r1, r2, -, r4, -⟩ := reads_asked sv.feat sv.allocOk s _ _ hin (fun k _ => halloc k) hmax
    have hserve := serve_reads r1 ()
    rw [handle_spec, r2, r4] at hserve
    simp only [version_http11, joined_none_iff] at hserve
    rw [if_pos h] at hserve
    exact page_of 21 (hc ()) hserve (by decide +kernel) (by decide +kernel)

/-- What holds of C147: with the feature `faithful` a target with a space in it, or with one behind it, reaches no
handler. Missing: the answer, for the task panics, and every other character. -/
theorem C147_space_partial (sv : Server W) (hfaith : sv.feat.faithful = true) (w : W) (s : Sock) (m target v : Str)
    (lines : List Str) (rest : Bytes)
    (hcr : ∀ x ∈ (m ++ c!" " ++ target ++ c!" HTTP/" ++ v) :: lines, '\r' ∉ x ∧ x ≠ [])
    (hb : s.bytes = written (m ++ c!" " ++ target ++ c!" HTTP/" ++ v) lines rest) (hsp : ' ' ∈ target) (hl : lines ≠ [])
    (hfin : s.fin = .eof) (hlen : s.bytes.length ≤ i64Max) (halloc : ∀ k, sv.allocOk k = true) :
    sv.serve w s = .panic := by
  refine (C30_exact_partial sv w s hfin hlen halloc).2 ?_
  have hsplit := firstSplit_lines _ lines hcr rest
  have hline : FirstSplit (crlf.intercalate ((m ++ c!" " ++ target ++ c!" HTTP/" ++ v) :: lines)) crlf
      (m ++ c!" " ++ target ++ c!" HTTP/" ++ v) (crlf.intercalate lines) := by
    cases lines with
    | nil => exact absurd rfl hl
    | cons l ls =>
      rw [intercalate_cons_cons]
      exact firstSplit_of_not_mem (hcr _ (by simp)).1
  have hbytes : s.bytes = utf8 (crlf.intercalate ((m ++ c!" " ++ target ++ c!" HTTP/" ++ v) :: lines)) ++ blankLine ++ rest := hb
  rw [← hbytes] at hsplit
  rintro (h | ⟨head, rest', h3, h4 | ⟨text, line, hdrs, hs, n, e1, e2, e3, e4, e5, e6, e7⟩⟩)
  · exact h ⟨_, _, _, hsplit.1, rfl⟩
  · have := (h3.unique hsplit).1
    exact h4 _ this ⟨_, _, _, hline.1, rfl⟩
  · have := (h3.unique hsplit).1
    rw [e1] at this
    have := utf8_injective this
    subst this
    have := (e2.unique hline).1
    subst this
    obtain ⟨m', pieces, first, ver, more, l1, l2, -, -, -, -, l7⟩ := e4
    obtain ⟨-, rfl⟩ := l7 hfaith
    have hcount := congrArg (List.count ' ') l1
    have h1 : 1 ≤ target.count ' ' := List.count_pos_iff.2 hsp
    have z1 := List.count_eq_zero.2 (l2 m' (by simp))
    have z2 := List.count_eq_zero.2 (l2 (['/'].intercalate pieces) (by simp))
    have z3 := List.count_eq_zero.2 (l2 (first ++ ver) (by simp))
    have hlast : [' '].intercalate [first ++ ver] = first ++ ver := by simp [List.intercalate]
    rw [intercalate_cons_cons, intercalate_cons_cons, hlast] at hcount
    simp only [List.count_append] at hcount z3
    rw [z1, z2] at hcount
    have hk : List.count ' ' c!" HTTP/" = 1 := by decide
    have hk' : List.count ' ' c!" " = 1 := by decide
    omega

namespace TargetCharsExample
open StrictExample

/-- `GET /<line feed><umlaut><control>` -/
def odd : WireReq := { qa with pieces := [[], c!"\nä\x01"] }
theorem odd_good : odd.Good :=
  good odd rfl (by decide) (by decide) (by decide) (by decide) (by decide) (by decide +kernel)
    (by decide +kernel) (by decide +kernel)

theorem odd_chars : ∃ p ∈ odd.pieces, ∃ c ∈ p, uriChar c = false := ⟨c!"\nä\x01", by decide, '\n', by decide, by decide⟩

/-- and a target in which all characters may occur -/
example : ∀ c ∈ c!"/a-b/~c;d=1?e=%20&f=[::1]@!$'()*+,", uriChar c = true := by decide

/-- the path the handlers see of the odd one -/
example (sv : Server Unit) (halloc : ∀ k, sv.allocOk k = true) : ∃ req,
    Reads sv.feat sv.allocOk ⟨[odd.bytes], .eof⟩ req ∧ req.requestLine.path = [c!"\nä\x01"] :=
  C147_read sv.feat sv.allocOk odd odd_good _ (by simp [Sock.bytes]) (fun _ _ => halloc _) (by decide)

/-- the hypotheses of `C147_space_partial`: `GET /a b HTTP/1.0` -/
example (sv : Server Unit) (hf : sv.feat.faithful = true) (halloc : ∀ k, sv.allocOk k = true) :
    sv.serve () ⟨[written c!"GET /a b HTTP/1.0" [c!"A: b"] []], .eof⟩ = .panic :=
  C147_space_partial sv hf () _ c!"GET" c!"/a b" c!"1.0" [c!"A: b"] [] (by decide) (by simp [Sock.bytes]) (by decide)
    (by decide) rfl (by simp [Sock.bytes]; decide +kernel) halloc

end TargetCharsExample

open TargetCharsExample StrictExample in
/-- C147 is false of the code: the request with a line feed, an umlaut and a control character in its target is read and
given to the handlers. -/
theorem C147_counterexample : ¬ C147_statement := by
  intro h
  have := (C147_iff odd odd_good (by decide) ⟨[odd.bytes], .eof⟩ (by simp [Sock.bytes]) (by decide)).1
    (fun sv halloc hc => h sv odd _ odd_good odd_chars (by simp [Sock.bytes]) halloc (by decide) hc)
  exact this.2 (c!"Host", c!"b") (by decide) (by decide +kernel)

end Octane
