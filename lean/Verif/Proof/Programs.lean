import Verif.Spec.Programs
import Verif.Props.Whole
import Verif.Props.Frame
import Verif.Proof.ResOps
/-
Helper lemmas about handlers without branches.
-/
namespace Octane
open Spec
variable {W : Type u}

theorem upToStop_next {α : Type v} {flow : α → Flow} {x : α} (xs : List α) (h : flow x = .next) :
    upToStop flow (x :: xs) = x :: upToStop flow xs := by
  rw [upToStop, if_neg (by rw [h]; decide)]

theorem upToStop_stop {α : Type v} {flow : α → Flow} {x : α} (xs : List α) (h : flow x = .stop) :
    upToStop flow (x :: xs) = [x] := by
  rw [upToStop, if_pos h]

/-- running scripts one after the other is running all they do -/
theorem replay_scripts (U : Unicode) (clock : W → Int) (uv : Bool) (req : Request) (w : W) (xs : List Script)
    (r : Response) :
    replay uv req (xs.map (Script.reg U clock)) (w, r) =
      (execOps U r (Script.allOps uv req (clock w) xs)).bind fun r' => .ok (w, r') := by
  induction xs generalizing r with
  | nil => rfl
  | cons x xs ih =>
    rw [List.map_cons, replay]
    by_cases ha : x.target.applies uv req.requestLine.method req.requestLine.path = true
    · have e : Script.ran uv req (x :: xs) = x :: (if x.flow = .stop then [] else Script.ran uv req xs) := by
        unfold Script.ran
        rw [List.filter_cons, if_pos ha, upToStop]
      have hr : (Script.reg U clock x).target.applies uv req.requestLine.method req.requestLine.path = true := ha
      rw [if_pos hr]
      have hh : (Script.reg U clock x).handler ⟨req, (Script.reg U clock x).target.vars uv req.requestLine.path⟩ (w, r) =
          (execOps U r (x.ops ⟨req, x.target.vars uv req.requestLine.path⟩ (clock w))).bind
            fun r' => .ok ((w, r'), x.flow) := rfl
      rw [hh]
      rw [Script.allOps, e, List.flatMap_cons, execOps_append]
      cases h1 : execOps U r (x.ops ⟨req, x.target.vars uv req.requestLine.path⟩ (clock w)) with
      | panic => rfl
      | ok r1 =>
        simp only [Res.bind_ok']
        cases hf : x.flow with
        | stop => simp [execOps]
        | next => simpa [Script.allOps] using ih r1
    · have e : Script.ran uv req (x :: xs) = Script.ran uv req xs := by
        unfold Script.ran
        rw [List.filter_cons, if_neg ha]
      have hr : ¬ (Script.reg U clock x).target.applies uv req.requestLine.method req.requestLine.path = true := ha
      rw [if_neg hr, ih, Script.allOps, Script.allOps, e]

/-- a response to which nothing but texts was sent -/
structure Plain (U : Unicode) (now : Int) (text : Bytes) (r : Response) : Prop where
  body : r.body = .sized text.length (.cursor text)
  status : r.statusCode = Response.newEmpty.statusCode
  version : r.httpVersion = Response.newEmpty.httpVersion
  cookies : r.cookies = []
  charset : r.charset = none
  uniq : HMap.Uniq r.headers
  len : r.get c!"Content-Length" = some (showNat text.length)
  type : r.get c!"Content-Type" = some c!"text/html"
  date : ∃ d, dateHeader now = .ok (some d) ∧ r.get c!"Date" = some d
  rest : ∀ k, k ≠ c!"Content-Length" → k ≠ c!"Content-Type" → k ≠ c!"Date" → r.get k = none

theorem date_some {now : Int} (h0 : 0 ≤ now) (h1 : now ≤ i64Max) : ∃ d, dateHeader now = .ok (some d) := by
  obtain ⟨c, -, -, _, _, -, -, e⟩ := dateHeader_spec now h0 h1
  exact ⟨_, e⟩

theorem send_plain {U : Unicode} {now : Int} (h1 : now ≤ i64Max) {r r' : Response} {b : Bytes}
    (h : r.send U now b = .ok r') (hr : r = Response.newEmpty ∨ ∃ t, Plain U now t r) : Plain U now b r' := by
  obtain ⟨h0, s1, s2, -, s4, s5, s6, s7, s8, s9, s10⟩ := send_spec h
  obtain ⟨-, -, -, -, -, -, -, -, -, -, ⟨d, d1, d2⟩, -⟩ := defaultHeaders_spec h
  obtain ⟨d', hd⟩ := date_some h0 h1
  rw [hd] at d1
  injection d1 with d1
  subst d1
  rcases hr with rfl | ⟨t, ht⟩
  · exact ⟨s1, s2, s4, s6, s5, s7 HMap.Uniq.nil, s8, s9, ⟨d', hd, d2⟩, fun k a b c => s10 k a b c⟩
  · refine ⟨s1, s2.trans ht.status, s4.trans ht.version, s6.trans ht.cookies, s5.trans ht.charset, s7 ht.uniq, s8, ?_,
      ⟨d', hd, d2⟩, fun k a b c => (s10 k a b c).trans (ht.rest k a b c)⟩
    rw [s9, ht.type]

theorem sends_plain {U : Unicode} {now : Int} (h0 : 0 ≤ now) (h1 : now ≤ i64Max) (ts : List Bytes) (r : Response)
    (hr : r = Response.newEmpty ∨ ∃ t, Plain U now t r) :
    ∃ r', execOps U r (ts.map fun t => ResOp.send now t) = .ok r' ∧
      match ts.getLast? with
      | none => r' = r
      | some t => Plain U now t r' := by
  induction ts generalizing r with
  | nil => exact ⟨r, rfl, rfl⟩
  | cons t ts ih =>
    obtain ⟨r1, e1⟩ := send_ok (U := U) h0 r t
    have hp := send_plain h1 e1 hr
    obtain ⟨r2, e2, e3⟩ := ih r1 (.inr ⟨t, hp⟩)
    refine ⟨r2, ?_, ?_⟩
    · show (r.send U now t).bind _ = _
      rw [e1]; exact e2
    · cases ts with
      | nil =>
        have : r2 = r1 := e3
        subst this
        exact hp
      | cons u us =>
        rw [List.getLast?_cons_cons]
        cases hl : (u :: us).getLast? with
        | none => simp at hl
        | some z => rw [hl] at e3; exact e3

theorem Plain.writable {U : Unicode} {now : Int} {t : Bytes} {res : Response} (h : Plain U now t res) :
    Writable U res := by
  refine ⟨by rw [h.version]; decide, by rw [h.status]; exact phrase_no_cr U _, ?_, by rw [h.cookies]; simp⟩
  intro k v hkv
  have hg : res.get k = some v := HMap.get_of_mem h.uniq hkv
  by_cases k1 : k = c!"Content-Length"
  · subst k1
    rw [h.len] at hg
    simp only [Option.some.injEq] at hg
    subst hg
    refine ⟨by decide, by decide, by decide, ?_, ?_⟩
    · intro h; have := showNat_digits _ _ h; revert this; decide
    · intro c hcc hbl
      have hm := List.mem_of_head? hcc
      have := showNat_digits _ c hm
      rcases hbl with rfl | rfl <;> revert this <;> decide
  · by_cases k2 : k = c!"Content-Type"
    · subst k2
      rw [h.type] at hg
      simp only [Option.some.injEq] at hg
      subst hg
      refine ⟨by decide, by decide, by decide, by decide, ?_⟩
      intro c hcc; simp at hcc; subst hcc; decide
    · by_cases k3 : k = c!"Date"
      · subst k3
        obtain ⟨d, d1, d2⟩ := h.date
        rw [hg] at d2
        simp only [Option.some.injEq] at d2
        subst d2
        obtain ⟨a, b⟩ := date_good d1
        exact ⟨by decide, by decide, by decide, a, b⟩
      · rw [h.rest k k1 k2 k3] at hg
        cases hg

theorem Plain.headers {U : Unicode} {now : Int} {t : Bytes} {res : Response} (h : Plain U now t res) :
    ∃ d, dateHeader now = .ok (some d) ∧
      res.headers.Perm [(c!"Content-Length", showNat t.length), (c!"Date", d), (c!"Content-Type", c!"text/html")] := by
  obtain ⟨d, d1, d2⟩ := h.date
  refine ⟨d, d1, ?_⟩
  have hn : res.headers.Nodup := by
    have := h.uniq
    unfold HMap.Uniq List.Nodup at this
    rw [List.pairwise_map] at this
    exact this.imp fun hne e => hne (by rw [e])
  rw [List.perm_ext_iff_of_nodup hn (by simp)]
  rintro ⟨k, v⟩
  constructor
  · intro hm
    have hg : res.get k = some v := HMap.get_of_mem h.uniq hm
    by_cases k1 : k = c!"Content-Length"
    · subst k1; rw [h.len] at hg; injection hg with hg; subst hg; simp
    · by_cases k2 : k = c!"Content-Type"
      · subst k2; rw [h.type] at hg; injection hg with hg; subst hg; simp
      · by_cases k3 : k = c!"Date"
        · subst k3; rw [d2] at hg; injection hg with hg; subst hg; simp
        · rw [h.rest k k1 k2 k3] at hg; cases hg
  · intro hm
    simp only [List.mem_cons, Prod.mk.injEq, List.not_mem_nil, or_false] at hm
    rcases hm with ⟨rfl, rfl⟩ | ⟨rfl, rfl⟩ | ⟨rfl, rfl⟩
    · exact HMap.mem_of_get h.len
    · exact HMap.mem_of_get d2
    · exact HMap.mem_of_get h.type

/-- what a client makes of it -/
theorem Plain.shows {sv : Server W} {w : W} {s : Sock} {t : Bytes} {res : Response}
    (h : Plain sv.U (sv.clock w) t res)
    (hs : sv.serve w s = .ok (w, sendData (res.getData sv.U sv.feat.cookies sv.ord))) : Shows sv w s t := by
  have hmem : InMemory res := by intro b hb; rw [h.body] at hb; simp [ResBody.getReader] at hb
  obtain ⟨v, o2, ⟨o3, o4, o5, o6, o7⟩, o8⟩ :=
    C36_roundtrip_partial sv.U sv.feat.cookies sv.ord res h.writable (.inr h.cookies) hmem
  have hnil : (if sv.feat.cookies then res.cookies.map fun c => (c!"Set-Cookie", c.toStr) else []) = [] := by
    rw [h.cookies]; simp
  rw [hnil, List.append_nil] at o6
  obtain ⟨d, d1, d2⟩ := h.headers
  refine ⟨_, v, showNat t.length, d, hs, o2, ?_, ?_, ?_, ?_, showNat_numeral _, d1, o6.trans d2, o8⟩
  · rw [o3, h.version]; rfl
  · rw [o4.eq, h.status]; decide +kernel
  · rw [o5, h.status]
    exact (upperStr_ascii sv.U (phrase_ascii _)).trans (by decide +kernel)
  · rw [o7]; unfold bodyBytes; rw [h.body]

end Octane
