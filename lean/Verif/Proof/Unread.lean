import Verif.Spec.Unread
import Verif.Proof.Listen
import Verif.Proof.Server
/-
Invariants of the single connections of a concurrent execution, and what has been read by the time of
the answer.
-/
namespace Octane
open Spec
variable {W : Type u} {sv : Server W}

/-! ### invariants of single connections -/

/-- What every connection satisfies when it is accepted, and every step of its own task preserves, holds
of all connections at all times. -/
theorem run_each (P : Sock → Task → Sock → Prop) (hplain : ∀ s, P s (.head []) s) (htls : ∀ s, P s .handshake s)
    (hhand : ∀ s0 ok t s, P s0 t s → P s0 (Sys.handshakeStep ok t) s)
    (hpoll : ∀ s0 w t s r, P s0 t s → sv.poll w t s = some r → P s0 r.2.1 r.2.2)
    (hwrite : ∀ s0 n t s, P s0 t s → P s0 (Sys.writeStep n t) s)
    (hfail : ∀ s0 t s, P s0 t s → P s0 (Sys.writeFail t) s) (evs : List (Event W)) :
    ∀ (S : List (Bool × Sock)) (y : Sys W), S.length = y.conns.length →
      (∀ (i : Nat) (c : Conn), y.conns[i]? = some c → ∃ s0, S[i]? = some (c.tls, s0) ∧ P s0 c.task c.sock) →
      ∀ (i : Nat) (c : Conn), (y.run sv evs).conns[i]? = some c →
        ∃ s0, (S ++ accepted (y.plain = .listening) (y.tls = .listening) evs)[i]? = some (c.tls, s0) ∧
          P s0 c.task c.sock := by
  induction evs with
  | nil =>
    intro S y _ h i c hc
    obtain ⟨s0, h1, h2⟩ := h i c hc
    exact ⟨s0, by simpa [accepted] using h1, h2⟩
  | cons e evs ih =>
    intro S y hlen h i c hc
    cases hd : y.dead with
    | true =>
      rw [run_dead y hd] at hc
      obtain ⟨s0, h1, h2⟩ := h i c hc
      have hi := (List.getElem?_eq_some_iff.1 h1).1
      exact ⟨s0, by rw [List.getElem?_append_left hi]; exact h1, h2⟩
    | false =>
      rw [run_cons] at hc
      rw [accepted_cons (sv := sv) y hd, ← List.append_assoc]
      refine ih (S ++ accepts y e) (y.step sv e) ?_ ?_ i c hc
      · unfold Sys.step
        rw [hd]
        cases e with
        | connect tls s => simp only [accepts]; split <;> simp [*]
        | acceptErr tls => simp only [accepts]; (repeat' split) <;> simp [hlen]
        | poll k =>
          simp only [accepts]
          (repeat' split) <;> simp [hlen]
        | exit => simp only [accepts]; (repeat' split) <;> simp [hlen]
        | env f => simp [accepts, hlen]
        | _ => simp only [accepts]; (repeat' split) <;> simp [hlen, Sys.setTask]
      · have hset : ∀ (k : Nat) (c c' : Conn), y.conns[k]? = some c → c'.tls = c.tls →
            (∀ s0, P s0 c.task c.sock → P s0 c'.task c'.sock) → ∀ (j : Nat) (x : Conn), (y.conns.set k c')[j]? = some x →
            ∃ s0, (S ++ [])[j]? = some (x.tls, s0) ∧ P s0 x.task x.sock := by
          intro k c c' hk htls hp j x hx
          rw [List.append_nil]
          by_cases hj : k = j
          · subst hj
            have hlt := (List.getElem?_eq_some_iff.1 hk).1
            rw [List.getElem?_set_self hlt] at hx
            simp only [Option.some.injEq] at hx
            subst hx
            obtain ⟨s0, h1, h2⟩ := h k c hk
            exact ⟨s0, by rw [htls]; exact h1, hp s0 h2⟩
          · rw [List.getElem?_set_ne hj] at hx
            exact h j x hx
        intro j x hx
        unfold Sys.step at hx
        rw [hd] at hx
        simp only [Bool.false_eq_true, if_false] at hx
        cases e with
        | connect tls s =>
          simp only [accepts] at hx ⊢
          split at hx
          · rename_i hl
            rw [if_pos hl]
            simp only at hx
            by_cases hj : j < y.conns.length
            · rw [List.getElem?_append_left hj] at hx
              rw [List.getElem?_append_left (by omega)]
              exact h j x hx
            · rw [List.getElem?_append_right (by omega)] at hx
              rw [List.getElem?_append_right (by omega), hlen]
              have hj0 : j - y.conns.length = 0 := by
                have := (List.getElem?_eq_some_iff.1 hx).1
                simp at this; omega
              rw [hj0] at hx ⊢
              simp only [List.getElem?_cons_zero, Option.some.injEq] at hx ⊢
              subst hx
              refine ⟨s, rfl, ?_⟩
              cases tls
              · exact hplain s
              · exact htls s
          · rename_i hl
            rw [if_neg hl, List.append_nil]
            exact h j x hx
        | acceptErr tls =>
          simp only [accepts, List.append_nil] at hx ⊢
          split at hx
          · split at hx <;> exact h j x hx
          · exact h j x hx
        | handshake k ok =>
          simp only [accepts] at hx ⊢
          split at hx
          · rename_i c hk
            exact hset k c { c with task := Sys.handshakeStep ok c.task } hk rfl (fun s0 => hhand s0 ok c.task c.sock) j x hx
          · rw [List.append_nil]; exact h j x hx
        | poll k =>
          simp only [accepts] at hx ⊢
          split at hx
          · rename_i c hk
            split at hx
            · rename_i w' t' s' hp
              exact hset k c ⟨c.tls, t', s'⟩ hk rfl (fun s0 hP => hpoll s0 _ _ _ _ hP hp) j x hx
            · rw [List.append_nil]; exact h j x hx
          · rw [List.append_nil]; exact h j x hx
        | write k n =>
          simp only [accepts] at hx ⊢
          split at hx
          · rename_i c hk
            exact hset k c { c with task := Sys.writeStep n c.task } hk rfl (fun s0 => hwrite s0 n c.task c.sock) j x hx
          · rw [List.append_nil]; exact h j x hx
        | writeErr k =>
          simp only [accepts] at hx ⊢
          split at hx
          · rename_i c hk
            exact hset k c { c with task := Sys.writeFail c.task } hk rfl (fun s0 => hfail s0 c.task c.sock) j x hx
          · rw [List.append_nil]; exact h j x hx
        | env f =>
          simp only [accepts, List.append_nil] at hx ⊢
          exact h j x hx
        | exit =>
          simp only [accepts, List.append_nil] at hx ⊢
          split at hx <;> exact h j x hx

/-! ### what has been read -/

/-- what a task has taken of `bytes`, with `sock` still to be read -/
def Taken (faithful : Bool) (s0 : Sock) (t : Task) (s : Sock) : Prop :=
  match t with
  | .handshake => s = s0
  | .head data => data ++ s.bytes = s0.bytes ∧ ¬ Occurs data blankLine
  | .body _ _ got need => 0 < need ∧ ∃ text line hdrs hs,
      FirstSplit s0.bytes blankLine (utf8 text) (got ++ s.bytes) ∧ FirstSplit text crlf line hdrs ∧
      BlockOk faithful hdrs hs ∧ DeclaredLength (joined hs) (got.length + need)
  | .writing _ _ | .finished _ | .broken _ => LeftUnread faithful s0.bytes s.bytes
  | .panicked | .refused => True

theorem respond_left {w : W} {s : Sock} {x : Res (W × Bytes)} {r : W × Task × Sock}
    (h : Server.respond w s x = some r) : r.2.2 = s ∧ (r.2.1 = .panicked ∨ ∃ bs, r.2.1 = .writing [] bs) := by
  cases x with
  | ok p =>
    obtain ⟨w', bs⟩ := p
    simp only [Server.respond, Option.some.injEq] at h
    subst h
    exact ⟨rfl, .inr ⟨bs, rfl⟩⟩
  | panic =>
    simp only [Server.respond, Option.some.injEq] at h
    subst h
    exact ⟨rfl, .inl rfl⟩

theorem withBody_left {w : W} {H : Headers} {rl : RequestLine} {body : Bytes} {s : Sock} {r : W × Task × Sock}
    (h : sv.withBody w H rl body s = some r) : r.2.2 = s ∧ (r.2.1 = .panicked ∨ ∃ bs, r.2.1 = .writing [] bs) := by
  unfold Server.withBody at h
  split at h
  · simp only [Option.some.injEq] at h
    subst h
    exact ⟨rfl, .inl rfl⟩
  · exact respond_left h
  · exact respond_left h

theorem taken_answer {faithful : Bool} {s0 s : Sock} {r : W × Task × Sock}
    (h : r.2.2 = s ∧ (r.2.1 = .panicked ∨ ∃ bs, r.2.1 = .writing [] bs))
    (hl : LeftUnread faithful s0.bytes s.bytes) : Taken faithful s0 r.2.1 r.2.2 := by
  obtain ⟨w, t, s'⟩ := r
  obtain ⟨h1, h2⟩ := h
  simp only at h1 h2 ⊢
  subst h1
  rcases h2 with rfl | ⟨bs, rfl⟩
  · trivial
  · exact hl

theorem declared_parsed {faithful : Bool} {hdrs : Str} {H : Headers}
    (h : Headers.parse faithful hdrs = .ok (some H)) :
    BlockOk faithful hdrs (H.raw.map hpair) ∧ DeclaredLength (joined (H.raw.map hpair)) (contentLength H) := by
  obtain ⟨h1, -⟩ := Headers.parse_some h
  obtain ⟨H', e1, -, e3⟩ := Headers.parse_block h1
  rw [h] at e1
  simp only [Res.ok.injEq, Option.some.injEq] at e1
  subst e1
  refine ⟨h1, ?_⟩
  rw [← show H.get = joined (H.raw.map hpair) from funext e3]
  exact contentLength_declared H

theorem withHead_taken {w : W} {s0 s : Sock} {text line hdrs : Str} {rem : Bytes}
    (h1 : FirstSplit s0.bytes blankLine (utf8 text) (rem ++ s.bytes)) (h2 : FirstSplit text crlf line hdrs)
    (hrem : rem.length < 512) {r : W × Task × Sock} (h : sv.withHead w hdrs line rem s = some r) :
    Taken sv.feat.faithful s0 r.2.1 r.2.2 := by
  have hp : ∀ {t : Task × Sock}, t = (.panicked, s) → Taken sv.feat.faithful s0 t.1 t.2 := by
    rintro _ rfl; trivial
  unfold Server.withHead at h
  rcases Headers.parse_cases sv.feat.faithful hdrs with ⟨H, hH⟩ | hH
  · obtain ⟨hb, hn⟩ := declared_parsed hH
    simp only [hH, Res.bind_ok', Res.unwrap_some] at h
    split at h
    · simp only [Option.some.injEq] at h; subst h; trivial
    · rename_i rl _
      split at h
      · rename_i hpos
        split at h
        · rename_i hlt
          split at h
          · simp only [Option.some.injEq] at h; subst h; trivial
          · split at h
            · simp at h
            · simp only [Option.some.injEq] at h
              subst h
              refine ⟨by omega, text, line, hdrs, _, h1, h2, hb, ?_⟩
              rw [show rem.length + (contentLength H - rem.length) = contentLength H by omega]
              exact hn
        · rename_i hge
          exact taken_answer (withBody_left h)
            (.inr (.inr ⟨text, line, hdrs, _, _, rem, h1, h2, hb, hn, by omega, .inr hrem⟩))
      · exact taken_answer (withBody_left h)
          (.inr (.inr ⟨text, line, hdrs, _, _, rem, h1, h2, hb, hn, by omega, .inr hrem⟩))
  · simp only [hH, Res.bind_ok', Res.unwrap_none, Option.some.injEq] at h
    subst h; trivial

theorem read_nil {cap : Nat} (hcap : 0 < cap) {s s' : Sock} (h : s.read cap = .data [] s') : s'.bytes = [] := by
  obtain ⟨segs, fin⟩ := s
  simp only [Sock.read] at h
  induction segs with
  | nil =>
    cases fin <;> simp only [readSegs, ReadOut.data.injEq, true_and, reduceCtorEq] at h
    subst h; rfl
  | cons a segs ih =>
    cases a with
    | nil => exact ih h
    | cons x xs =>
      simp only [readSegs] at h
      split at h
      · simp at h
      · rename_i hlen
        cases cap with
        | zero => omega
        | succ n => simp at h

theorem poll_taken (s0 : Sock) (w : W) (t : Task) (s : Sock) (r : W × Task × Sock)
    (hP : Taken sv.feat.faithful s0 t s) (h : sv.poll w t s = some r) :
    Taken sv.feat.faithful s0 r.2.1 r.2.2 := by
  cases t with
  | head data =>
    obtain ⟨hP1, hP2⟩ := hP
    simp only [Server.poll] at h
    have hr := read_spec 512 (by omega) s
    cases hrd : s.read 512 with
    | error => rw [hrd] at h; simp only [Option.some.injEq] at h; subst h; trivial
    | pending => rw [hrd] at h; simp only [Option.some.injEq] at h; subst h; exact ⟨hP1, hP2⟩
    | data b s' =>
      rw [hrd] at hr h
      simp only at hr h
      by_cases hb : b = []
      · rw [if_pos hb] at h
        have h0 := (hr.1 hb).1
        have hs' : s'.bytes = [] := read_nil (by omega) (hb ▸ hrd)
        refine taken_answer (respond_left h) (.inl ⟨hs', ?_⟩)
        rw [← hP1, h0, List.append_nil]
        exact hP2
      · rw [if_neg hb] at h
        obtain ⟨hbytes, -, hcap⟩ := hr.2 hb
        have hall : (data ++ b) ++ s'.bytes = s0.bytes := by rw [← hP1, hbytes]; simp
        by_cases hocc : Occurs (data ++ b) blankLine
        · obtain ⟨x, y, hxy⟩ := FirstSplit.exists hocc
          have hy : y.length < 512 := by
            have hlen := congrArg List.length hxy.1
            have : data.length < x.length + 4 := by
              apply Classical.byContradiction
              intro hcon
              apply hP2
              have ho : OccursAt (data ++ b) blankLine x.length := ⟨x, y, hxy.1, rfl⟩
              exact ⟨x.length, ho.of_append (by simp only [show blankLine.length = 4 from rfl]; omega)⟩
            simp only [List.length_append, show blankLine.length = 4 from rfl] at hlen
            omega
          have hfs := hxy.append s'.bytes
          rw [hall] at hfs
          rw [(headCheck_spec (data ++ b) s').2 x y hxy] at h
          simp only [headOutcome] at h
          cases hu : fromUtf8 x with
          | none =>
            rw [hu] at h
            refine taken_answer (respond_left h) (.inr (.inl ⟨x, y, hfs, hy, ?_⟩))
            rintro text rfl
            rw [fromUtf8_utf8] at hu
            simp at hu
          | some text =>
            rw [hu] at h
            have hx := utf8_of_fromUtf8 hu
            subst hx
            rcases parseWithoutBody_spec text with ⟨hp, hno⟩ | ⟨line, hdrs, hsp, hp⟩
            · simp only [hp] at h
              refine taken_answer (respond_left h) (.inr (.inl ⟨_, y, hfs, hy, ?_⟩))
              intro text' he
              have : text = text' := by
                have := congrArg fromUtf8 he
                rw [fromUtf8_utf8, fromUtf8_utf8] at this
                exact Option.some.inj this
              subst this
              exact hno
            · simp only [hp] at h
              exact withHead_taken hfs hsp hy h
        · rw [(headCheck_spec (data ++ b) s').1 hocc] at h
          simp only [Option.some.injEq] at h
          subst h
          exact ⟨hall, hocc⟩
  | body H rl got need =>
    obtain ⟨hneed, text, line, hdrs, hs, h1, h2, h3, h4⟩ := hP
    simp only [Server.poll] at h
    have hr := read_spec need hneed s
    cases hrd : s.read need with
    | error => rw [hrd] at h; simp only [Option.some.injEq] at h; subst h; trivial
    | pending =>
      rw [hrd] at h; simp only [Option.some.injEq] at h; subst h
      exact ⟨hneed, text, line, hdrs, hs, h1, h2, h3, h4⟩
    | data b s' =>
      rw [hrd] at hr h
      simp only at hr h
      by_cases hb : b = []
      · rw [if_pos hb] at h
        simp only [Option.some.injEq] at h
        subst h; trivial
      · rw [if_neg hb] at h
        obtain ⟨hbytes, -, hcap⟩ := hr.2 hb
        rw [hbytes, ← List.append_assoc] at h1
        split at h
        · rename_i hfull
          split at h
          · simp only [Option.some.injEq] at h; subst h; trivial
          · split at h
            · simp at h
            · exact taken_answer (withBody_left h)
                (.inr (.inr ⟨text, line, hdrs, hs, _, got ++ b, h1, h2, h3, h4, by simp; omega,
                  .inl (by simp; omega)⟩))
        · rename_i hnot
          simp only [Option.some.injEq] at h
          subst h
          refine ⟨by omega, text, line, hdrs, hs, h1, h2, h3, ?_⟩
          rw [List.length_append, show got.length + b.length + (need - b.length) = got.length + need by omega]
          exact h4
  | _ =>
    simp only [Server.poll, Option.some.injEq] at h
    subst h
    exact hP

/-- every connection at every time -/
theorem run_taken (w : W) (tlsFeature tlsOk plainOk : Bool) (evs : List (Event W)) (i : Nat) (c : Conn)
    (hc : ((Sys.start w tlsFeature tlsOk plainOk).run sv evs).conns[i]? = some c) :
    ∃ s0, (accepted plainOk (tlsFeature && tlsOk) evs)[i]? = some (c.tls, s0) ∧
      Taken sv.feat.faithful s0 c.task c.sock := by
  have := run_each (sv := sv) (Taken sv.feat.faithful) (fun s => ⟨rfl, not_occurs_nil_blank⟩) (fun s => rfl)
    (fun s0 ok t s hP => by
      cases t <;> try exact hP
      cases hP
      cases ok
      · trivial
      · exact ⟨rfl, not_occurs_nil_blank⟩)
    (fun s0 w t s r hP h => poll_taken s0 w t s r hP h)
    (fun s0 n t s hP => by
      cases t <;> try exact hP
      simp only [Sys.writeStep]
      split <;> exact hP)
    (fun s0 t s hP => by cases t <;> exact hP) evs [] (Sys.start w tlsFeature tlsOk plainOk) rfl
    (by simp [Sys.start]) i c hc
  have hacc : accepted ((Sys.start w tlsFeature tlsOk plainOk).plain = .listening)
      ((Sys.start w tlsFeature tlsOk plainOk).tls = .listening) evs =
      accepted plainOk (tlsFeature && tlsOk) evs := by
    cases tlsFeature <;> cases tlsOk <;> cases plainOk <;> rfl
  rw [List.nil_append, hacc] at this
  exact this

end Octane
