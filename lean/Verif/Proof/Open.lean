import Verif.Spec.Open
import Verif.Proof.ProcessRun
/-
What one event does to the connections.
-/
namespace Octane
open Spec
universe u
variable {W : Type u} {sv : PServer W} {allocOk : Nat → Bool}

/-- what one event may do to one task -/
inductive Moves (sv : PServer W) (allocOk : Nat → Bool) (c : PConn W) : PTask W → Sock → Prop
  | handshake (ok : Bool) : Moves sv allocOk c (c.task.handshakeStep ok) c.sock
  | waits {r r' : Reading} {s : Sock} : c.task = .reading r → r.turn sv.feat allocOk c.sock = .waits r' s →
      Moves sv allocOk c (.reading r') s
  | request {r : Reading} {req : Request} {s : Sock} : c.task = .reading r →
      r.turn sv.feat allocOk c.sock = .request req s → Moves sv allocOk c (.handling req []) s
  | bad {r : Reading} {s : Sock} (x : Res Bytes) : c.task = .reading r →
      r.turn sv.feat allocOk c.sock = .bad s → Moves sv allocOk c (.respond x) s
  | panicked {r : Reading} {s : Sock} : c.task = .reading r →
      r.turn sv.feat allocOk c.sock = .panicked s → Moves sv allocOk c .panicked s
  | access {req : Request} {reads reads' : List W} : c.task = .handling req reads →
      Moves sv allocOk c (.handling req reads') c.sock
  | finish {req : Request} {reads : List W} (x : Res Bytes) : c.task = .handling req reads →
      Moves sv allocOk c (.respond x) c.sock
  | write (n : Nat) : Moves sv allocOk c (c.task.writeStep n) c.sock
  | writeErr : Moves sv allocOk c c.task.writeFail c.sock

theorem step_cases (y : Process W) (e : Happening W) :
    (y.step sv allocOk e).conns = y.conns ∨
    (∃ tls s, e = .connect tls s ∧
      (y.step sv allocOk e).conns = y.conns ++ [⟨tls, if tls then .handshake else .reading (.head []), s⟩]) ∨
    (∃ i c t s, y.conns[i]? = some c ∧ Moves sv allocOk c t s ∧
      (y.step sv allocOk e).conns = y.conns.set i { c with task := t, sock := s }) := by
  unfold Process.step
  split
  · exact .inl rfl
  · cases e with
    | connect tls s =>
      simp only
      split
      · exact .inr (.inl ⟨tls, s, rfl, rfl⟩)
      · exact .inl rfl
    | acceptErr tls => simp only; split <;> (try split) <;> exact .inl rfl
    | handshake i ok =>
      simp only
      split
      · rename_i c hc
        split
        · exact .inr (.inr ⟨i, c, _, _, hc, .handshake ok, rfl⟩)
        · exact .inl rfl
      · exact .inl rfl
    | poll i =>
      simp only
      split
      · rename_i c hc
        split
        · rename_i r hr
          split
          · split
            · rename_i r' s' ht; exact .inr (.inr ⟨i, c, _, _, hc, .waits hr ht, rfl⟩)
            · rename_i req s' ht; exact .inr (.inr ⟨i, c, _, _, hc, .request hr ht, rfl⟩)
            · rename_i s' ht; exact .inr (.inr ⟨i, c, _, _, hc, .bad _ hr ht, rfl⟩)
            · rename_i s' ht; exact .inr (.inr ⟨i, c, _, _, hc, .panicked hr ht, rfl⟩)
            · exact .inl rfl
          · exact .inl rfl
        · exact .inl rfl
      · exact .inl rfl
    | access i =>
      simp only
      split
      · rename_i c hc
        split
        · rename_i req reads hr
          split
          · exact .inr (.inr ⟨i, c, _, _, hc, .access hr, rfl⟩)
          · exact .inl rfl
        · exact .inl rfl
      · exact .inl rfl
    | finish i =>
      simp only
      split
      · rename_i c hc
        split
        · rename_i req reads hr
          split
          · exact .inr (.inr ⟨i, c, _, _, hc, .finish _ hr, rfl⟩)
          · exact .inr (.inr ⟨i, c, _, _, hc, .finish .panic hr, rfl⟩)
          · exact .inl rfl
        · exact .inl rfl
      · exact .inl rfl
    | write i n =>
      simp only
      split
      · rename_i c hc
        split
        · exact .inr (.inr ⟨i, c, _, _, hc, .write n, rfl⟩)
        · exact .inl rfl
      · exact .inl rfl
    | writeErr i =>
      simp only
      split
      · rename_i c hc
        split
        · exact .inr (.inr ⟨i, c, _, _, hc, .writeErr, rfl⟩)
        · exact .inl rfl
      · exact .inl rfl
    | env f => exact .inl rfl
    | exit => simp only; split <;> exact .inl rfl

/-! ### idle clients -/

theorem read_idle (cap : Nat) {s : Sock} (h : Idle s) : s.read cap = .pending := by
  obtain ⟨segs, fin⟩ := s
  obtain ⟨h1, h2⟩ := h
  simp only at h2
  subst h2
  simp only [Sock.bytes] at h1
  simp only [Sock.read]
  induction segs with
  | nil => rfl
  | cons a segs ih =>
    simp only [List.flatten_cons, List.append_eq_nil_iff] at h1
    obtain ⟨rfl, h1⟩ := h1
    exact ih h1

theorem turn_idle (feat : Features) (r : Reading) {s : Sock} (h : Idle s) :
    r.turn feat allocOk s = .waits r s := by
  cases r with
  | head data => simp only [Reading.turn, read_idle 512 h]
  | body H l got need => simp only [Reading.turn, read_idle need h]

/-- a task that waits for an idle client is not moved by anything -/
theorem Moves.idle {c : PConn W} {r : Reading} (hr : c.task = .reading r) (hi : Idle c.sock) {t : PTask W} {s : Sock}
    (h : Moves sv allocOk c t s) : t = c.task ∧ s = c.sock := by
  have hturn := turn_idle (allocOk := allocOk) sv.feat r hi
  cases h with
  | handshake ok => exact ⟨by rw [hr]; rfl, rfl⟩
  | waits h1 h2 =>
    rw [hr] at h1; cases h1
    rw [hturn] at h2; cases h2
    exact ⟨hr.symm, rfl⟩
  | request h1 h2 => rw [hr] at h1; cases h1; rw [hturn] at h2; cases h2
  | bad x h1 h2 => rw [hr] at h1; cases h1; rw [hturn] at h2; cases h2
  | panicked h1 h2 => rw [hr] at h1; cases h1; rw [hturn] at h2; cases h2
  | access h1 => rw [hr] at h1; cases h1
  | finish x h1 => rw [hr] at h1; cases h1
  | write n => exact ⟨by rw [hr]; rfl, rfl⟩
  | writeErr => exact ⟨by rw [hr]; rfl, rfl⟩

theorem run_idle (evs : List (Happening W)) (y : Process W) {i : Nat} {c : PConn W} {r : Reading}
    (hc : y.conns[i]? = some c) (hr : c.task = .reading r) (hi : Idle c.sock) :
    (y.run sv allocOk evs).conns[i]? = some c := by
  induction evs generalizing y with
  | nil => exact hc
  | cons e evs ih =>
    rw [Process.run_cons]
    refine ih _ ?_
    rcases step_cases (sv := sv) (allocOk := allocOk) y e with h | ⟨tls, s, -, h⟩ | ⟨j, c', t, s, hj, hm, h⟩
    · rw [h]; exact hc
    · rw [h, List.getElem?_append_left (List.getElem?_eq_some_iff.1 hc).1]; exact hc
    · rw [h]
      by_cases hij : j = i
      · subst hij
        rw [hc] at hj; cases hj
        obtain ⟨rfl, rfl⟩ := hm.idle hr hi
        rw [List.getElem?_set_self (List.getElem?_eq_some_iff.1 hc).1]
      · rw [List.getElem?_set_ne hij]; exact hc

/-! ### what is kept -/

theorem request_body {feat : Features} {rl : RequestLine} {H : Headers} {body : Bytes} {req : Request}
    (h : Request.parse feat rl H body = .ok (some req)) : req.body = body := by
  obtain ⟨cs, h1, -⟩ := Request.parse_some feat rl H body h
  injection h1 with h1
  rw [h1]

theorem read_le (cap : Nat) {s s' : Sock} {b : Bytes} (h : s.read cap = .data b s') :
    b.length + s'.bytes.length ≤ s.bytes.length := by
  obtain ⟨segs, fin⟩ := s
  simp only [Sock.read] at h
  simp only [Sock.bytes]
  induction segs with
  | nil =>
    cases fin <;> simp only [readSegs, ReadOut.data.injEq, reduceCtorEq] at h
    obtain ⟨rfl, rfl⟩ := h
    simp
  | cons a segs ih =>
    cases a with
    | nil => simpa using ih h
    | cons x xs =>
      simp only [readSegs] at h
      split at h
      · obtain ⟨rfl, rfl⟩ := ReadOut.data.inj h
        simp
        omega
      · obtain ⟨rfl, rfl⟩ := ReadOut.data.inj h
        simp only [List.flatten_cons, List.length_append, List.length_take, List.length_drop]
        omega

theorem headCheck_rem {data : Bytes} {s' r : Sock} {rh rl : Str} {rem : Bytes}
    (hc : headCheck data s' = .ok (some (.head rh rl rem r))) : rem.length ≤ data.length := by
  by_cases ho : Occurs data blankLine
  · obtain ⟨x, y, hxy⟩ := Spec.FirstSplit.exists ho
    have hlen : y.length ≤ data.length := by rw [hxy.1]; simp; omega
    rw [(headCheck_spec data s').2 x y hxy] at hc
    simp only [headOutcome, Res.ok.injEq, Option.some.injEq] at hc
    split at hc
    · cases hc
    · split at hc
      · injection hc with _ _ h _; rw [← h]; exact hlen
      · cases hc
  · rw [(headCheck_spec data s').1 ho] at hc; cases hc

/-- what is kept of the client's bytes, and what is still to come -/
def Turn.size : Turn → Nat
  | .waits (.head data) s => data.length + s.bytes.length
  | .waits (.body _ _ got _) s => got.length + s.bytes.length
  | .request req s => req.body.length + s.bytes.length
  | .bad s => s.bytes.length
  | .panicked s => s.bytes.length
  | .abort => 0

theorem withBody_size (feat : Features) (H : Headers) (l : RequestLine) (body : Bytes) (s : Sock) :
    (Reading.withBody feat H l body s).size ≤ body.length + s.bytes.length := by
  unfold Reading.withBody
  cases h : Request.parse feat l H body with
  | panic => simp [Turn.size]
  | ok o =>
    cases o with
    | none => simp [Turn.size]
    | some req => simp [Turn.size, request_body h]

theorem withHead_size (feat : Features) (rh rl : Str) (rem : Bytes) (s : Sock) :
    (Reading.withHead feat allocOk rh rl rem s).size ≤ rem.length + s.bytes.length := by
  unfold Reading.withHead
  split
  · simp [Turn.size]
  · split
    · simp [Turn.size]
    · split
      · split
        · simp only
          split
          · simp [Turn.size]
          · split <;> simp [Turn.size]
        · exact withBody_size _ _ _ _ _
      · exact Nat.le_trans (withBody_size _ _ _ _ _) (by simp)

theorem turn_size (feat : Features) (r : Reading) (s : Sock) :
    (r.turn feat allocOk s).size ≤ (Turn.waits r s).size := by
  cases r with
  | head data =>
    unfold Reading.turn
    simp only
    cases hx : s.read 512 with
    | error => simp [Turn.size]
    | pending => simp
    | data b s' =>
      have hle := read_le 512 hx
      simp only
      split
      · simp only [Turn.size]; omega
      · split
        · simp only [Turn.size]; omega
        · rename_i hs rl rem r hc
          have h1 := headCheck_reader hc
          have h2 := headCheck_rem hc
          have h3 := withHead_size (allocOk := allocOk) feat hs rl rem r
          subst h1
          rw [List.length_append] at h2
          have h4 : (Turn.waits (.head data) s).size = data.length + s.bytes.length := rfl
          omega
        · simp only [Turn.size]; omega
        · simp only [Turn.size, List.length_append]; omega
  | body H l got need =>
    unfold Reading.turn
    simp only
    cases hx : s.read need with
    | error => simp [Turn.size]
    | pending => simp
    | data b s' =>
      have hle := read_le need hx
      simp only
      split
      · simp only [Turn.size]; omega
      · split
        · split
          · simp only [Turn.size]; omega
          · split
            · simp [Turn.size]
            · have := withBody_size feat H l (got ++ b) s'
              simp only [Turn.size, List.length_append] at this ⊢
              omega
        · simp only [Turn.size, List.length_append]; omega

theorem kept_respond (x : Res Bytes) : kept (PTask.respond x : PTask W) = 0 := by cases x <;> rfl

theorem kept_write (n : Nat) (t : PTask W) : kept (t.writeStep n) = kept t := by
  cases t <;> simp only [PTask.writeStep]
  split <;> rfl

theorem kept_fail (t : PTask W) : kept t.writeFail = kept t := by
  cases t <;> simp only [PTask.writeFail]; rfl

theorem kept_handshake (ok : Bool) (t : PTask W) : kept (t.handshakeStep ok) = kept t := by
  cases t <;> simp only [PTask.handshakeStep]
  split <;> rfl

theorem kept_reading (r : Reading) (s : Sock) :
    kept (PTask.reading r : PTask W) + s.bytes.length = (Turn.waits r s).size := by
  cases r <;> rfl

/-- no event makes a task keep more than has come -/
theorem Moves.kept_le {c : PConn W} {t : PTask W} {s : Sock} (h : Moves sv allocOk c t s) :
    kept t + s.bytes.length ≤ kept c.task + c.sock.bytes.length := by
  cases h with
  | handshake ok => rw [kept_handshake]; exact Nat.le_refl _
  | waits h1 h2 =>
    rw [h1, kept_reading, kept_reading]
    rename_i r _
    have := turn_size (allocOk := allocOk) sv.feat r c.sock
    rw [h2] at this
    exact this
  | request h1 h2 =>
    rename_i r _
    have := turn_size (allocOk := allocOk) sv.feat r c.sock
    rw [h2] at this
    rw [h1, kept_reading]
    exact this
  | bad x h1 h2 =>
    rename_i r
    have := turn_size (allocOk := allocOk) sv.feat r c.sock
    rw [h2] at this
    rw [h1, kept_reading, kept_respond, Nat.zero_add]
    exact this
  | panicked h1 h2 =>
    rename_i r
    have := turn_size (allocOk := allocOk) sv.feat r c.sock
    rw [h2] at this
    rw [h1, kept_reading]
    simpa [kept, Turn.size] using this
  | access h1 => rw [h1]; exact Nat.le_refl _
  | finish x h1 => rw [kept_respond]; omega
  | write n => rw [kept_write]; exact Nat.le_refl _
  | writeErr => rw [kept_fail]; exact Nat.le_refl _

theorem sum_set {α : Type u} (f : α → Nat) {l : List α} {i : Nat} {a : α} (h : l[i]? = some a) (b : α) (hle : f b ≤ f a) :
    ((l.set i b).map f).sum ≤ (l.map f).sum := by
  induction l generalizing i with
  | nil => simp at h
  | cons x l ih =>
    cases i with
    | zero =>
      simp only [List.getElem?_cons_zero, Option.some.injEq] at h
      subst h
      simp only [List.set_cons_zero, List.map_cons, List.sum_cons]
      omega
    | succ i =>
      simp only [List.getElem?_cons_succ] at h
      have := ih h
      simp only [List.set_cons_succ, List.map_cons, List.sum_cons]
      omega

/-- what is kept and what is still to come, of all connections -/
def heldSum (y : Process W) : Nat := (y.conns.map fun c => kept c.task + c.sock.bytes.length).sum

theorem run_held (evs : List (Happening W)) (y : Process W) :
    heldSum (y.run sv allocOk evs) ≤ heldSum y + ((clients evs).map fun s => s.bytes.length).sum := by
  induction evs generalizing y with
  | nil => exact Nat.le_add_right _ _
  | cons e evs ih =>
    rw [Process.run_cons]
    refine Nat.le_trans (ih _) ?_
    have key : heldSum (y.step sv allocOk e) ≤ heldSum y + ((clients [e]).map fun s => s.bytes.length).sum := by
      rcases step_cases (sv := sv) (allocOk := allocOk) y e with h | ⟨tls, s, rfl, h⟩ | ⟨j, c', t, s, hj, hm, h⟩
      · unfold heldSum; rw [h]; exact Nat.le_add_right _ _
      · have h0 : kept (if tls then .handshake else .reading (.head []) : PTask W) = 0 := by cases tls <;> rfl
        unfold heldSum
        rw [h]
        simp only [List.map_append, List.sum_append, List.map_cons, List.map_nil, List.sum_cons, List.sum_nil, h0,
          clients, List.filterMap_cons, List.filterMap_nil]
        omega
      · unfold heldSum
        rw [h]
        refine Nat.le_trans (sum_set _ hj _ ?_) (Nat.le_add_right _ _)
        exact hm.kept_le
    have hc : clients (e :: evs) = clients [e] ++ clients evs := by
      unfold clients
      rw [← List.filterMap_append]; rfl
    rw [hc, List.map_append, List.sum_append]
    omega

theorem kept_le_held (y : Process W) : keptInAll y ≤ heldSum y := by
  unfold keptInAll heldSum
  induction y.conns with
  | nil => exact Nat.le_refl _
  | cons c l ih => simp only [List.map_cons, List.sum_cons]; omega

theorem run_length (evs : List (Happening W)) (y : Process W) :
    (y.run sv allocOk evs).conns.length ≤ y.conns.length + (clients evs).length := by
  induction evs generalizing y with
  | nil => exact Nat.le_add_right _ _
  | cons e evs ih =>
    rw [Process.run_cons]
    refine Nat.le_trans (ih _) ?_
    have hc : clients (e :: evs) = clients [e] ++ clients evs := by
      unfold clients
      rw [← List.filterMap_append]; rfl
    rw [hc, List.length_append]
    rcases step_cases (sv := sv) (allocOk := allocOk) y e with h | ⟨tls, s, rfl, h⟩ | ⟨j, c', t, s, hj, hm, h⟩
    · rw [h]; omega
    · rw [h]; simp [clients]; omega
    · rw [h]; simp

/-! ### clients that do not read -/

theorem step_unread (y : Process W) (e : Happening W) {i : Nat} {c : PConn W} {sent rest : Bytes}
    (hc : y.conns[i]? = some c) (ht : c.task = .writing sent rest) (hw : ∀ n, e ≠ .write i n) (he : e ≠ .writeErr i) :
    (y.step sv allocOk e).conns[i]? = some c := by
  have hput : ∀ (w : W) (j : Nat) (d : PConn W) (t : PTask W) (s : Sock), j ≠ i →
      (y.put w j d t s).conns[i]? = some c := by
    intro w j d t s hj
    simp only [Process.put]
    rw [List.getElem?_set_ne hj, hc]
  have hi : i < y.conns.length := (List.getElem?_eq_some_iff.1 hc).1
  unfold Process.step
  split
  · exact hc
  · cases e with
    | connect tls s =>
      simp only
      split
      · show (y.conns ++ [_])[i]? = _
        rw [List.getElem?_append_left hi, hc]
      · exact hc
    | acceptErr tls => simp only; split <;> (try split) <;> exact hc
    | handshake j ok =>
      simp only
      split
      · rename_i d hd
        split
        · by_cases hj : j = i
          · subst hj
            rw [hc] at hd
            injection hd with hd
            subst hd
            have hs : c.task.handshakeStep ok = c.task := by rw [ht]; rfl
            show (y.conns.set j { c with task := c.task.handshakeStep ok, sock := c.sock })[j]? = _
            rw [hs, List.getElem?_set_self hi]
          · exact hput _ _ _ _ _ hj
        · exact hc
      · exact hc
    | poll j =>
      simp only
      split
      · rename_i d hd
        split
        · rename_i r hr
          have hj : j ≠ i := by
            rintro rfl
            rw [hc] at hd
            injection hd with hd
            subst hd
            rw [ht] at hr
            cases hr
          split
          · split <;> first | exact hput _ _ _ _ _ hj | exact hc
          · exact hc
        · exact hc
      · exact hc
    | access j =>
      simp only
      split
      · rename_i d hd
        split
        · rename_i req reads hr
          have hj : j ≠ i := by
            rintro rfl
            rw [hc] at hd
            injection hd with hd
            subst hd
            rw [ht] at hr
            cases hr
          split <;> first | exact hput _ _ _ _ _ hj | exact hc
        · exact hc
      · exact hc
    | finish j =>
      simp only
      split
      · rename_i d hd
        split
        · rename_i req reads hr
          have hj : j ≠ i := by
            rintro rfl
            rw [hc] at hd
            injection hd with hd
            subst hd
            rw [ht] at hr
            cases hr
          split <;> first | exact hput _ _ _ _ _ hj | exact hc
        · exact hc
      · exact hc
    | write j n =>
      have hj : j ≠ i := by rintro rfl; exact hw n rfl
      simp only
      split
      · split <;> first | exact hput _ _ _ _ _ hj | exact hc
      · exact hc
    | writeErr j =>
      have hj : j ≠ i := by rintro rfl; exact he rfl
      simp only
      split
      · split <;> first | exact hput _ _ _ _ _ hj | exact hc
      · exact hc
    | env f => exact hc
    | exit => simp only; split <;> exact hc

end Octane
