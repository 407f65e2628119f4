import Verif.Proof.CostLeast
/-
C121 and C154 from below: the counts are not empty.
-/
namespace Octane
open Spec
universe u
variable {W : Type u}

/-- C121 from below: a request that is read costs at least one step for every byte of its head, one for every character
of its first line, four for every byte of its headers, and one for every byte of the body, apart from the up to 511 bytes
that come in the same read as the end of the head. -/
theorem C121_least (sv : Server W) (w : W) {s : Sock} {req : Request} (h : Reads sv.feat sv.allocOk s req)
    {text line hdrs : Str} {rest : Bytes} (hs : FirstSplit s.bytes blankLine (utf8 text) rest)
    (hl : FirstSplit text crlf line hdrs) {n : Nat} (hn : DeclaredLength req.headers.get n) :
    octets text + line.length + 4 * (req.headers.raw.map fun x => octets x.name + octets x.value).sum +
      3 * req.headers.raw.length + n ≤ sv.serveSteps w s + 506 := by
  obtain ⟨hdrs', line', rem, reader, H, rl, h1, h2, h3, h4⟩ := h
  obtain ⟨e1, e2⟩ := fromRaw_fields h4
  have hc : contentLength H = n := DeclaredLength.unique (contentLength_declared H) (e2 ▸ hn)
  have a1 := readHeadLoopC_head (s.bytes.length + 1) [] s (by omega) not_occurs_nil_blank _ _ (by simpa using hs)
  have a1 : (utf8 text).length + 1 ≤ (readHeadC s).2.compared := a1
  have a2 := (C92_head s).2 _ _ hs
  have a3 := readHeadC_taken s _ _ _ _ h1
  have a4 := Headers.steps_ge _ _ _ h2
  have a5 := RequestLine.parseC_ge sv.feat.faithful line'
  have a6 := Request.rawSteps_ge h4
  have hlen : (utf8 text).length + 4 + (rem.length + reader.bytes.length) = s.bytes.length ∧ line = line' := by
    rcases head_cases s with ⟨g, -⟩ | ⟨t, l, hd, r, m, d, g1, g2, g3, g4, -⟩ | ⟨_, _, _, _, g⟩
    · exact absurd hs.occurs g
    · obtain ⟨f1, f2⟩ := hs.unique g1
      have ft := utf8_injective f1
      subst ft
      obtain ⟨f3, f4⟩ := hl.unique g2
      rw [h1] at g3
      simp only [Io.ok.injEq, HeadOut.head.injEq] at g3
      obtain ⟨-, k2, k3, k4⟩ := g3
      have := congrArg List.length g1.1
      rw [← g4, ← k3, ← k4] at this
      simp [blankLine] at this
      exact ⟨by omega, by rw [f3, k2]⟩
    · rw [h1] at g
      simp at g
  obtain ⟨hlen, rfl⟩ := hlen
  have a7 : 3 ≤ Http.steps req := by unfold Http.steps; omega
  have e3 : (H.raw.map fun x => octets x.name + octets x.value + 1).sum =
      (H.raw.map fun x => octets x.name + octets x.value).sum + H.raw.length := by
    induction H.raw with
    | nil => rfl
    | cons x l ih => simp only [List.map_cons, List.sum_cons, List.length_cons, ih]; omega
  rw [e3] at a4
  unfold Server.serveSteps
  simp only [C93_same, h1, C94_same, h2, Res.bind, Res.unwrap, RequestLine.parseC_fst, h3, h4]
  unfold Server.handleSteps
  rw [e2, ← hc]
  generalize (H.raw.map fun x => octets x.name + octets x.value).sum = X at a4 a6 ⊢
  have e4 : octets text = (utf8 text).length := rfl
  rw [e4]
  simp only [← Nat.add_assoc]
  omega

/-- C154 from below: all steps are at least those of C121 and two for every byte of the answer, whatever is sent. -/
theorem C154_least (sv : Server W) (w : W) (s : Sock) :
    sv.serveSteps w s + 2 * answered (sv.serve w s) ≤ (sv.serveC w s).2 := by
  rw [← C154_same]
  exact serveC_ge sv w s

/-! ### a concrete case -/

namespace LeastExample
open FeaturesExample WorkExample

deriving instance DecidableEq for HeadOut

private def hdrs : Str := crlf.intercalate lines
private def H : Headers := match Headers.parse true hdrs with | .ok (some H) => H | _ => ⟨[], []⟩
private def rl : RequestLine := ⟨.get, [c!"a"], .http10⟩
private def req : Request :=
  match Request.fromRaw (server one).feat (server one).allocOk H rl (utf8 c!"abc") ⟨[utf8 c!"defGET"], .eof⟩ with
  | .ok (some req) => req
  | _ => ⟨rl, H, [], []⟩

private theorem reads : Reads (server one).feat (server one).allocOk sock req :=
  ⟨hdrs, c!"GET /a HTTP/1.0", utf8 c!"abc", ⟨[utf8 c!"defGET"], .eof⟩, H, rl, by decide +kernel, by decide +kernel,
    by decide +kernel, by decide +kernel⟩

/-- the request of the examples of C121: 106 bytes of head, 15 characters of the first line, four headers of 75 bytes and
a body of 6 bytes; 1111 steps, and 1802 with an answer of 102 bytes -/
example : 106 + 15 + 4 * 75 + 3 * 4 + 6 ≤ (server one).serveSteps () sock + 506 ∧
    (server one).serveSteps () sock + 2 * 102 ≤ ((server one).serveC () sock).2 := by
  have e3 : answered ((server one).serve () sock) = 102 := by decide +kernel
  have h2 := C154_least (server one) () sock
  rw [e3] at h2
  refine ⟨?_, h2⟩
  have hn : DeclaredLength req.headers.get 6 := by
    have : contentLength req.headers = 6 := by decide +kernel
    rw [← this]
    exact contentLength_declared _
  have hl : FirstSplit (crlf.intercalate (c!"GET /a HTTP/1.0" :: lines)) crlf c!"GET /a HTTP/1.0" hdrs := by
    rw [show crlf.intercalate (c!"GET /a HTTP/1.0" :: lines) = c!"GET /a HTTP/1.0" ++ crlf ++ hdrs by decide +kernel]
    exact firstSplit_of_not_mem (by decide)
  have h := C121_least (server one) () reads split hl hn
  have e1 : octets (crlf.intercalate (c!"GET /a HTTP/1.0" :: lines)) = 106 := by decide +kernel
  have e2 : (req.headers.raw.map fun x => octets x.name + octets x.value).sum = 75 := by decide +kernel
  have e4 : req.headers.raw.length = 4 := by decide +kernel
  rw [e1, e2, e4] at h
  exact h

end LeastExample
end Octane
