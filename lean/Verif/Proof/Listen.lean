import Verif.Spec.Listen
import Verif.Proof.Http1x
namespace Octane
open Spec

theorem readHeadLoop_fuel : ∀ (f g : Nat) (data : Bytes) (s : Sock), s.bytes.length < f →
    s.bytes.length < g → readHeadLoop f data s = readHeadLoop g data s := by
  intro f
  induction f with
  | zero => intro g data s h; omega
  | succ f ih =>
    intro g data s hf hg
    cases g with
    | zero => omega
    | succ g =>
      have hr := read_spec 512 (by omega) s
      rw [readHeadLoop.eq_def, readHeadLoop.eq_def]
      simp only
      cases hrd : s.read 512 with
      | error => rfl
      | pending => rfl
      | data b s' =>
        rw [hrd] at hr
        simp only at hr ⊢
        by_cases hb : b = []
        · simp [hb]
        · obtain ⟨hbytes, -, -⟩ := hr.2 hb
          have := List.length_pos_iff.2 hb
          have hl : s.bytes.length = b.length + s'.bytes.length := by rw [hbytes]; simp
          rw [if_neg hb, if_neg hb, ih g (data ++ b) s' (by omega) (by omega)]

theorem readExactLoop_fuel : ∀ (f g n : Nat) (s : Sock), s.bytes.length < f →
    s.bytes.length < g → readExactLoop f n s = readExactLoop g n s := by
  intro f
  induction f with
  | zero => intro g n s h; omega
  | succ f ih =>
    intro g n s hf hg
    cases g with
    | zero => omega
    | succ g =>
      rw [readExactLoop.eq_def, readExactLoop.eq_def]
      simp only
      by_cases hn : n = 0
      · rw [if_pos hn, if_pos hn]
      rw [if_neg hn, if_neg hn]
      have hr := read_spec n (by omega) s
      cases hrd : s.read n with
      | error => rfl
      | pending => rfl
      | data b s' =>
        rw [hrd] at hr
        simp only at hr ⊢
        by_cases hb : b = []
        · simp [hb]
        · obtain ⟨hbytes, -, -⟩ := hr.2 hb
          have := List.length_pos_iff.2 hb
          have hl : s.bytes.length = b.length + s'.bytes.length := by rw [hbytes]; simp
          rw [if_neg hb, if_neg hb, ih g _ s' (by omega) (by omega)]

section
variable {W : Type u} (sv : Server W)

/-- the rest of `serve` after the body -/
def afterBody (w : W) (headers : Headers) (line : RequestLine) (body : Bytes) : Io (W × Bytes) :=
  match Request.parse sv.feat line headers body with
  | .panic => .panic
  | .ok none => Io.ofRes (sv.declareError w .badRequest)
  | .ok (some req) => Io.ofRes (sv.handle w req)

/-- the rest of `serve` after reading a body that did not come with the head -/
def afterRead (w : W) (headers : Headers) (line : RequestLine) (body : Bytes) : Io (W × Bytes) :=
  if body.length > i64Max then .panic
  else if !sv.allocOk body.length then .abort
  else afterBody sv w headers line body

/-- the rest of `serve` after the head -/
def afterHead (w : W) : HeadOut → Io (W × Bytes)
  | .badRequest => Io.ofRes (sv.declareError w .badRequest)
  | .head rawHeaders rawLine rem reader =>
    match (Headers.parse sv.feat.faithful rawHeaders).bind Res.unwrap with
    | .panic => .panic
    | .ok headers =>
      match (RequestLine.parse sv.feat.faithful rawLine).bind Res.unwrap with
      | .panic => .panic
      | .ok line =>
        if contentLength headers > 0 then
          if rem.length < contentLength headers then
            if contentLength headers - rem.length > i64Max then .panic
            else if !sv.allocOk (contentLength headers - rem.length) then .abort
            else (readExact (contentLength headers - rem.length) reader).bind fun
              | none => .panic
              | some (temp, _) => afterRead sv w headers line (rem ++ temp)
          else afterBody sv w headers line rem
        else afterBody sv w headers line []

/-- the rest of `serve` from a state of its task -/
def resume (w : W) (s : Sock) : Task → Io (W × Bytes)
  | .head data => (readHeadLoop (s.bytes.length + 1) data s).bind (afterHead sv w)
  | .body headers line got need =>
    (readExact need s).bind fun
      | none => .panic
      | some (temp, _) => afterRead sv w headers line (got ++ temp)
  | _ => .pending

theorem readExact_length {n : Nat} {s s' : Sock} {t : Bytes} (h : readExact n s = .ok (some (t, s'))) :
    t.length = n := by
  obtain ⟨h1, h2⟩ := readExact_spec n s
  by_cases hl : n ≤ s.bytes.length
  · obtain ⟨s'', e, -, -⟩ := h1 hl
    rw [e] at h
    simp only [Io.ok.injEq, Option.some.injEq, Prod.mk.injEq] at h
    rw [← h.1, List.length_take]; omega
  · rw [h2 (by omega)] at h
    cases hf : s.fin <;> rw [hf] at h <;> simp at h

theorem serve_eq (w : W) (s : Sock) : sv.serve w s = (readHead s).bind (afterHead sv w) := by
  unfold Server.serve
  congr 1
  funext out
  cases out with
  | badRequest => rfl
  | head rh rl rem reader =>
    simp only [afterHead]
    cases (Headers.parse sv.feat.faithful rh).bind Res.unwrap with
    | panic => rfl
    | ok headers =>
      simp only [Io.ofRes_ok, Io.bind_ok]
      cases (RequestLine.parse sv.feat.faithful rl).bind Res.unwrap with
      | panic => rfl
      | ok line =>
        simp only [Io.ofRes_ok, Io.bind_ok]
        have hb : ∀ body, ((Io.ofRes (Request.parse sv.feat line headers body)).bind fun
            | some request => Io.ofRes (sv.handle w request)
            | none => Io.ofRes (sv.declareError w .badRequest)) = afterBody sv w headers line body := by
          intro body
          unfold afterBody
          rcases Request.parse sv.feat line headers body with (_ | _) | _ <;> rfl
        unfold Request.fromRaw
        simp only
        split
        · split
          · split
            · rfl
            · split
              · rfl
              · cases hx : readExact (contentLength headers - rem.length) reader with
                | ok r =>
                  cases r with
                  | none => rfl
                  | some p =>
                    have hlen : (rem ++ p.1).length = contentLength headers := by
                      rw [List.length_append, readExact_length hx]; omega
                    simp only [Io.bind_ok, afterRead, hlen]
                    split
                    · rfl
                    · split
                      · rfl
                      · exact hb _
                | _ => rfl
          · exact hb _
        · exact hb _

theorem serve_resume (w : W) (s : Sock) : resume sv w s (.head []) = sv.serve w s := by
  rw [serve_eq]; rfl

/-- the tasks that are waiting for a read -/
def Task.reading : Task → Prop
  | .head _ => True
  | .body _ _ _ need => 0 < need
  | _ => False

/-- how one step refines the sequential execution -/
def StepSpec (w : W) (t : Task) (s : Sock) (r : Io (W × Bytes)) : Server.StepOut W → Prop
  | none => r = .abort
  | some (w', t', s') =>
    (∃ bs, t' = .writing [] bs ∧ r = .ok (w', bs)) ∨
    (t' = .panicked ∧ w' = w ∧ r = .panic) ∨
    (t'.reading ∧ w' = w ∧ (∀ w, resume sv w s' t' = resume sv w s t) ∧
      (s'.bytes.length < s.bytes.length ∨ t' = t ∧ s' = s ∧ r = .pending))

theorem respond_spec (w : W) (t : Task) (s s' : Sock) (x : Res (W × Bytes)) :
    StepSpec sv w t s (Io.ofRes x) (Server.respond w s' x) := by
  cases x with
  | ok p => exact .inl ⟨p.2, rfl, rfl⟩
  | panic => exact .inr (.inl ⟨rfl, rfl, rfl⟩)

theorem withBody_spec (w : W) (t : Task) (s s' : Sock) (headers : Headers) (line : RequestLine)
    (body : Bytes) :
    StepSpec sv w t s (afterBody sv w headers line body) (sv.withBody w headers line body s') := by
  unfold afterBody Server.withBody
  rcases Request.parse sv.feat line headers body with (_ | _) | _
  · exact respond_spec ..
  · exact respond_spec ..
  · exact .inr (.inl ⟨rfl, rfl, rfl⟩)

theorem withHead_spec (w : W) (t : Task) (s s' : Sock) (rh rl : Str) (rem : Bytes)
    (hr : ∀ w, resume sv w s t = afterHead sv w (.head rh rl rem s'))
    (hl : s'.bytes.length < s.bytes.length) :
    StepSpec sv w t s (resume sv w s t) (sv.withHead w rh rl rem s') := by
  have hpanic : ∀ r, r = .panic → StepSpec sv w t s r (some (w, .panicked, s')) :=
    fun r h => .inr (.inl ⟨rfl, rfl, h⟩)
  have hr' := hr
  rw [hr w]
  unfold afterHead at hr ⊢
  unfold Server.withHead
  simp only at hr ⊢
  cases h1 : (Headers.parse sv.feat.faithful rh).bind Res.unwrap with
  | panic => exact hpanic _ rfl
  | ok headers =>
    simp only [h1] at hr ⊢
    cases h2 : (RequestLine.parse sv.feat.faithful rl).bind Res.unwrap with
    | panic => exact hpanic _ rfl
    | ok line =>
      simp only [h2] at hr ⊢
      split
      · split
        · split
          · exact hpanic _ rfl
          · split
            · rfl
            · rename_i c1 c2 c3 c4
              simp only [c1, c2, c3, c4, if_true, if_false] at hr
              refine .inr (.inr ⟨?_, rfl, fun w => ?_, .inl hl⟩)
              · exact Nat.sub_pos_of_lt c2
              · rw [hr w]; rfl
        · exact withBody_spec ..
      · exact withBody_spec ..

/-- Every step of a waiting task refines the sequential execution. -/
theorem poll_spec (w : W) (t : Task) (s : Sock) (ht : t.reading) :
    StepSpec sv w t s (resume sv w s t) (sv.poll w t s) := by
  cases t with
  | head data =>
    have hr := read_spec 512 (by omega) s
    have hu : ∀ w, resume sv w s (.head data) =
        (readHeadLoop (s.bytes.length + 1) data s).bind (afterHead sv w) := fun _ => rfl
    rw [readHeadLoop.eq_def] at hu
    unfold Server.poll
    simp only at hu ⊢
    cases hrd : s.read 512 with
    | error =>
      simp only [hrd] at hu ⊢
      exact .inr (.inl ⟨rfl, rfl, hu w⟩)
    | pending =>
      simp only [hrd] at hu ⊢
      exact .inr (.inr ⟨trivial, rfl, fun _ => rfl, .inr ⟨rfl, rfl, hu w⟩⟩)
    | data b s' =>
      rw [hrd] at hr
      simp only [hrd] at hu hr ⊢
      by_cases hb : b = []
      · simp only [hb, if_true] at hu ⊢
        rw [hu w]
        exact respond_spec ..
      · obtain ⟨hbytes, -, -⟩ := hr.2 hb
        have hpos := List.length_pos_iff.2 hb
        have hl : s.bytes.length = b.length + s'.bytes.length := by rw [hbytes]; simp
        simp only [hb, if_false] at hu ⊢
        cases hc : headCheck (data ++ b) s' with
        | panic =>
          simp only [hc] at hu ⊢
          exact .inr (.inl ⟨rfl, rfl, hu w⟩)
        | ok o =>
          cases o with
          | none =>
            simp only [hc] at hu ⊢
            refine .inr (.inr ⟨trivial, rfl, fun w => ?_, .inl (by omega)⟩)
            rw [hu w]
            simp only [resume]
            rw [readHeadLoop_fuel (s'.bytes.length + 1) _ (data ++ b) s' (by omega)
              (show s'.bytes.length < s.bytes.length by omega)]
          | some out =>
            cases out with
            | badRequest =>
              simp only [hc] at hu ⊢
              rw [hu w]
              exact respond_spec ..
            | head rh rl rem r =>
              simp only [hc] at hu ⊢
              have hrs : r = s' := by
                by_cases ho : Occurs (data ++ b) blankLine
                · obtain ⟨x, y, hxy⟩ := Spec.FirstSplit.exists ho
                  rw [(headCheck_spec (data ++ b) s').2 x y hxy] at hc
                  simp only [headOutcome, Res.ok.injEq, Option.some.injEq] at hc
                  split at hc
                  · cases hc
                  · split at hc
                    · injection hc with _ _ _ h; exact h.symm
                    · cases hc
                · rw [(headCheck_spec (data ++ b) s').1 ho] at hc; cases hc
              exact withHead_spec sv w _ s r rh rl rem hu (by rw [hrs]; omega)
  | body headers line got need =>
    have hn : 0 < need := ht
    have hr := read_spec need hn s
    have hu : ∀ w, resume sv w s (.body headers line got need) = (readExact need s).bind fun
      | none => .panic
      | some (temp, _) => afterRead sv w headers line (got ++ temp) := fun _ => rfl
    rw [readExact, readExactLoop.eq_def] at hu
    unfold Server.poll
    simp only [Nat.ne_of_gt hn, if_false] at hu ⊢
    cases hrd : s.read need with
    | error =>
      simp only [hrd] at hu ⊢
      exact .inr (.inl ⟨rfl, rfl, hu w⟩)
    | pending =>
      simp only [hrd] at hu ⊢
      exact .inr (.inr ⟨ht, rfl, fun _ => rfl, .inr ⟨rfl, rfl, hu w⟩⟩)
    | data b s' =>
      rw [hrd] at hr
      simp only [hrd] at hu hr ⊢
      by_cases hb : b = []
      · simp only [hb, if_true] at hu ⊢
        exact .inr (.inl ⟨rfl, rfl, hu w⟩)
      · obtain ⟨hbytes, -, hcap⟩ := hr.2 hb
        have hpos := List.length_pos_iff.2 hb
        have hl : s.bytes.length = b.length + s'.bytes.length := by rw [hbytes]; simp
        simp only [hb, if_false] at hu ⊢
        by_cases hle : need ≤ b.length
        · have h0 : need - b.length = 0 := by omega
          rw [h0] at hu
          rw [if_pos hle, hu w, readExactLoop.eq_def]
          simp only [if_true, Io.bind_ok, List.append_nil, afterRead]
          split
          · exact .inr (.inl ⟨rfl, rfl, rfl⟩)
          · split
            · rfl
            · exact withBody_spec ..
        · rw [if_neg hle]
          refine .inr (.inr ⟨Nat.sub_pos_of_lt (by omega), rfl, fun w => ?_, .inl (by omega)⟩)
          rw [hu w]
          simp only [resume]
          rw [readExact, readExactLoop_fuel _ (s.bytes.length + 1) _ s' (Nat.lt_add_of_pos_right (by omega))
            (by omega)]
          rcases readExactLoop (s.bytes.length + 1) (need - b.length) s' with (_ | _) | _ | _ | _ <;>
            simp [List.append_assoc]
  | _ => exact absurd ht (by simp [Task.reading])

/-! ### sequential executions -/

theorem sequential_append (w : W) (l l' : List (SeqStep W)) :
    sequential sv w (l ++ l') =
      ((sequential sv (sequential sv w l).1 l').1,
        (sequential sv w l).2 ++ (sequential sv (sequential sv w l).1 l').2) := by
  induction l generalizing w with
  | nil => rfl
  | cons x l ih =>
    cases x with
    | env f => simp only [List.cons_append, sequential, ih]
    | serve i s => simp only [List.cons_append, sequential, ih]

theorem sequential_conns (w : W) (l : List (SeqStep W)) :
    (sequential sv w l).2.map Prod.fst = l.filterMap SeqStep.conn? := by
  induction l generalizing w with
  | nil => rfl
  | cons x l ih =>
    cases x with
    | env f => simpa [sequential, List.filterMap_cons, SeqStep.conn?] using ih _
    | serve i s => simpa [sequential, SeqStep.conn?] using ih _

theorem sequential_mem (w : W) (l : List (SeqStep W)) (i : Nat) (o : Io Bytes)
    (h : (i, o) ∈ (sequential sv w l).2) :
    ∃ w' s, SeqStep.serve i s ∈ l ∧ o = visible (sv.serve w' s) := by
  induction l generalizing w with
  | nil => simp [sequential] at h
  | cons x l ih =>
    cases x with
    | env f =>
      obtain ⟨w', s, h1, h2⟩ := ih _ h
      exact ⟨w', s, List.mem_cons_of_mem _ h1, h2⟩
    | serve j s =>
      simp only [sequential, List.mem_cons, Prod.mk.injEq] at h
      rcases h with ⟨rfl, rfl⟩ | h
      · exact ⟨w, s, List.mem_cons_self .., rfl⟩
      · obtain ⟨w', s, h1, h2⟩ := ih _ h
        exact ⟨w', s, List.mem_cons_of_mem _ h1, h2⟩

theorem agrees_append {outs : List (Nat × Io Bytes)} {i j : Nat} (o : Io Bytes) (t : Task)
    (hne : j ≠ i) (h : Agrees outs j t) : Agrees (outs ++ [(i, o)]) j t := by
  cases t with
  | writing a b => exact List.mem_append_left _ h
  | finished a => exact List.mem_append_left _ h
  | broken a => obtain ⟨r, h⟩ := h; exact ⟨r, List.mem_append_left _ h⟩
  | panicked => exact List.mem_append_left _ h
  | _ =>
    intro o' hm
    rcases List.mem_append.1 hm with hm | hm
    · exact h o' hm
    · simp only [List.mem_singleton, Prod.mk.injEq] at hm
      exact hne hm.1

/-! ### the invariant of concurrent executions -/

/-- where a connection that was given the stream `s` stands -/
def Standing (c : Conn) (s : Sock) : Prop :=
  match c.task with
  | .handshake => c.sock = s
  | .head _ | .body _ _ _ _ => c.task.reading ∧ ∀ w, resume sv w c.sock c.task = sv.serve w s
  | _ => True

structure Inv (w0 : W) (S : List (Bool × Sock)) (L : List (SeqStep W)) (y : Sys W) : Prop where
  world : (sequential sv w0 L).1 = y.world
  nodup : (L.filterMap SeqStep.conn?).Nodup
  src : ∀ i s, SeqStep.serve i s ∈ L → ∃ tls, S[i]? = some (tls, s)
  len : y.conns.length = S.length
  conns : ∀ i c, y.conns[i]? = some c → ∃ s, S[i]? = some (c.tls, s) ∧
    Agrees (sequential sv w0 L).2 i c.task ∧ Standing sv c s

/-- what an event adds to the accepted connections -/
def accepts (y : Sys W) : Event W → List (Bool × Sock)
  | .connect tls s => if y.listener tls = .listening then [(tls, s)] else []
  | _ => []

variable {sv}

theorem Inv.set {w0 : W} {S : List (Bool × Sock)} {L : List (SeqStep W)} {y : Sys W}
    (h : Inv sv w0 S L y) (i : Nat) (c c' : Conn) (hc : y.conns[i]? = some c) (htls : c'.tls = c.tls)
    (hok : ∀ s, Agrees (sequential sv w0 L).2 i c.task → Standing sv c s →
      Agrees (sequential sv w0 L).2 i c'.task ∧ Standing sv c' s) :
    Inv sv w0 S L (y.setTask i c') := by
  refine ⟨h.world, h.nodup, h.src, ?_, ?_⟩
  · simp [Sys.setTask, h.len]
  · intro j d hd
    simp only [Sys.setTask, List.getElem?_set] at hd
    by_cases hij : i = j
    · subst hij
      have hlt : i < y.conns.length := (List.getElem?_eq_some_iff.1 hc).1
      simp only [if_true, hlt] at hd
      injection hd with hd
      subst hd
      obtain ⟨s, h1, h2, h3⟩ := h.conns i c hc
      exact ⟨s, htls ▸ h1, hok s h2 h3⟩
    · simp only [hij, if_false] at hd
      exact h.conns j d hd

theorem Inv.step {w0 : W} {S : List (Bool × Sock)} {L : List (SeqStep W)} {y : Sys W}
    (h : Inv sv w0 S L y) (hd : y.dead = false) (e : Event W) (hd' : (y.step sv e).dead = false) :
    ∃ l, Inv sv w0 (S ++ accepts y e) (L ++ l) (y.step sv e) ∧
      (l.map SeqStep.key).Sublist (Event.key e).toList ∧
      l.filterMap SeqStep.env? = (Event.env? e).toList := by
  unfold Sys.step at hd' ⊢
  have hdn : ¬ y.dead = true := by simp [hd]
  rw [if_neg hdn] at hd' ⊢
  cases e with
  | connect tls s =>
    refine ⟨[], ?_, List.nil_sublist _, rfl⟩
    rw [List.append_nil]
    simp only [accepts]
    by_cases hl : y.listener tls = .listening
    · rw [if_pos hl, if_pos hl]
      refine ⟨h.world, h.nodup, ?_, ?_, ?_⟩
      · intro i s' hm
        obtain ⟨t, ht⟩ := h.src i s' hm
        exact ⟨t, List.getElem?_append_left (List.getElem?_eq_some_iff.1 ht).1 ▸ ht⟩
      · simp [h.len]
      · intro i c hc
        rw [List.getElem?_append] at hc ⊢
        split at hc
        · rename_i hlt
          obtain ⟨s', h1, h2⟩ := h.conns i c hc
          rw [← h.len, if_pos hlt]
          exact ⟨s', h1, h2⟩
        · rename_i hge
          obtain ⟨hi, hc⟩ := List.getElem?_eq_some_iff.1 hc
          simp only [List.length_singleton] at hi
          have hi0 : i = y.conns.length := by omega
          simp only [List.getElem_singleton] at hc
          subst hc
          refine ⟨s, ?_, ?_, ?_⟩
          · rw [← h.len, hi0]; simp
          · have hno : ∀ o, (i, o) ∉ (sequential sv w0 L).2 := by
              intro o hm
              obtain ⟨_, s', h1, -⟩ := sequential_mem sv w0 L i o hm
              obtain ⟨_, h2⟩ := h.src i s' h1
              have := (List.getElem?_eq_some_iff.1 h2).1
              rw [← h.len] at this
              omega
            cases tls <;> exact hno
          · cases tls with
            | true => rfl
            | false => exact ⟨trivial, fun w => serve_resume sv w s⟩
    · rw [if_neg hl, if_neg hl, List.append_nil]
      exact h
  | acceptErr tls =>
    refine ⟨[], ?_, List.nil_sublist _, rfl⟩
    simp only [accepts, List.append_nil]
    split
    · split <;> exact ⟨h.world, h.nodup, h.src, h.len, h.conns⟩
    · exact h
  | handshake i ok =>
    refine ⟨[], ?_, List.nil_sublist _, rfl⟩
    simp only [accepts, List.append_nil]
    cases hc : y.conns[i]? with
    | none => exact h
    | some c =>
      refine h.set i c _ hc rfl fun s ha hs => ?_
      obtain ⟨tls, t, sock⟩ := c
      cases t with
      | handshake =>
        have hs : sock = s := hs
        subst hs
        cases ok with
        | true => exact ⟨ha, trivial, fun w => serve_resume sv w sock⟩
        | false => exact ⟨ha, trivial⟩
      | _ => exact ⟨ha, hs⟩
  | write i n =>
    refine ⟨[], ?_, List.nil_sublist _, rfl⟩
    simp only [accepts, List.append_nil]
    cases hc : y.conns[i]? with
    | none => exact h
    | some c =>
      refine h.set i c _ hc rfl fun s ha hs => ?_
      obtain ⟨tls, t, sock⟩ := c
      cases t with
      | writing sent rest =>
        simp only [Sys.writeStep]
        split
        · exact ⟨ha, trivial⟩
        · refine ⟨?_, trivial⟩
          simpa [Agrees, List.append_assoc] using ha
      | _ => exact ⟨ha, hs⟩
  | writeErr i =>
    refine ⟨[], ?_, List.nil_sublist _, rfl⟩
    simp only [accepts, List.append_nil]
    cases hc : y.conns[i]? with
    | none => exact h
    | some c =>
      refine h.set i c _ hc rfl fun s ha hs => ?_
      obtain ⟨tls, t, sock⟩ := c
      cases t with
      | writing sent rest => exact ⟨⟨rest, ha⟩, trivial⟩
      | _ => exact ⟨ha, hs⟩
  | env f =>
    refine ⟨[.env f], ?_, List.Sublist.refl _, rfl⟩
    have e1 : sequential sv w0 (L ++ [.env f]) = (f y.world, (sequential sv w0 L).2) := by
      rw [sequential_append, ← h.world]; simp [sequential]
    simp only [accepts, List.append_nil]
    refine ⟨?_, ?_, ?_, h.len, ?_⟩
    · rw [e1]
    · simpa [List.filterMap_cons, SeqStep.conn?] using h.nodup
    · intro i s hm
      rcases List.mem_append.1 hm with hm | hm
      · exact h.src i s hm
      · simp at hm
    · intro i c hc
      rw [e1]
      exact h.conns i c hc
  | exit =>
    refine ⟨[], ?_, List.nil_sublist _, rfl⟩
    simp only [accepts, List.append_nil]
    split
    · exact ⟨h.world, h.nodup, h.src, h.len, h.conns⟩
    · exact h
  | poll i =>
    simp only [accepts, List.append_nil] at hd' ⊢
    cases hc : y.conns[i]? with
    | none => exact ⟨[], by simpa using h, List.nil_sublist _, rfl⟩
    | some c =>
      simp only [hc] at hd' ⊢
      obtain ⟨s, hS, ha, hst⟩ := h.conns i c hc
      have hlt : i < y.conns.length := (List.getElem?_eq_some_iff.1 hc).1
      by_cases hr : c.task.reading
      · have hres : ∀ w, resume sv w c.sock c.task = sv.serve w s := by
          obtain ⟨tls, t, sock⟩ := c
          cases t with
          | head _ => exact hst.2
          | body _ _ _ _ => exact hst.2
          | _ => exact absurd hr (by simp [Task.reading])
        have hno : ∀ o, (i, o) ∉ (sequential sv w0 L).2 := by
          obtain ⟨tls, t, sock⟩ := c
          cases t with
          | head _ => exact ha
          | body _ _ _ _ => exact ha
          | _ => exact absurd hr (by simp [Task.reading])
        have hp := poll_spec sv y.world c.task c.sock hr
        rw [hres] at hp
        cases hpo : sv.poll y.world c.task c.sock with
        | none => rw [hpo] at hd'; simp at hd'
        | some r =>
          obtain ⟨w', t', s'⟩ := r
          rw [hpo] at hp
          simp only [StepSpec] at hp ⊢
          -- the connection has its outcome: one more sequential step
          have fin : ∀ o, visible (sv.serve y.world s) = o →
              (match sv.serve y.world s with | .ok (w', _) => w' | _ => y.world) = w' →
              (Agrees [(i, o)] i t' ∧ Standing sv ⟨c.tls, t', s'⟩ s) →
              (∀ outs, Agrees [(i, o)] i t' → Agrees (outs ++ [(i, o)]) i t') →
              Inv sv w0 S (L ++ [.serve i s]) { y with world := w', conns := y.conns.set i ⟨c.tls, t', s'⟩ } := by
            intro o ho hw ⟨hag, hsta⟩ hmono
            have e1 : sequential sv w0 (L ++ [.serve i s]) = (w', (sequential sv w0 L).2 ++ [(i, o)]) := by
              rw [sequential_append, h.world, ← hw, ← ho]; rfl
            refine ⟨?_, ?_, ?_, ?_, ?_⟩
            · rw [e1]
            · rw [List.filterMap_append, ← sequential_conns sv w0 L]
              rw [List.nodup_append]
              refine ⟨sequential_conns sv w0 L ▸ h.nodup, by simp [SeqStep.conn?], ?_⟩
              intro a hma b hb hab
              simp only [SeqStep.conn?, List.filterMap_cons, List.filterMap_nil,
                List.mem_singleton] at hb
              subst hb hab
              obtain ⟨⟨_, o⟩, hm, rfl⟩ := List.mem_map.1 hma
              exact hno o hm
            · intro j x hm
              rcases List.mem_append.1 hm with hm | hm
              · exact h.src j x hm
              · simp only [List.mem_singleton, SeqStep.serve.injEq] at hm
                exact ⟨c.tls, hm.1 ▸ hm.2 ▸ hS⟩
            · simp [h.len]
            · intro j d hdj
              rw [e1]
              simp only [List.getElem?_set] at hdj
              by_cases hij : i = j
              · subst hij
                simp only [if_true, hlt] at hdj
                injection hdj with hdj
                subst hdj
                exact ⟨s, hS, hmono _ hag, hsta⟩
              · simp only [hij, if_false] at hdj
                obtain ⟨x, h1, h2, h3⟩ := h.conns j d hdj
                exact ⟨x, h1, agrees_append o _ (Ne.symm hij) h2, h3⟩
          rcases hp with ⟨bs, rfl, hk⟩ | ⟨rfl, rfl, hk⟩ | ⟨hr', rfl, hres', -⟩
          · refine ⟨[.serve i s], fin (.ok bs) (by rw [hk]; rfl) (by rw [hk]) ⟨?_, trivial⟩ ?_,
              List.Sublist.refl _, rfl⟩
            · simp [Agrees]
            · intro outs hm; exact List.mem_append_right _ hm
          · refine ⟨[.serve i s], fin .panic (by rw [hk]; rfl) (by rw [hk]) ⟨?_, trivial⟩ ?_,
              List.Sublist.refl _, rfl⟩
            · simp [Agrees]
            · intro outs hm; exact List.mem_append_right _ hm
          · refine ⟨[], ?_, List.nil_sublist _, rfl⟩
            rw [List.append_nil]
            have := h.set i c ⟨c.tls, t', s'⟩ hc rfl fun s0 ha0 hs0 => ?_
            · exact this
            · have hres0 : ∀ w, resume sv w c.sock c.task = sv.serve w s0 := by
                obtain ⟨tls, t, sock⟩ := c
                cases t with
                | head _ => exact hs0.2
                | body _ _ _ _ => exact hs0.2
                | _ => exact absurd hr (by simp [Task.reading])
              have hst0 : ∀ w, resume sv w s' t' = sv.serve w s0 := fun w => (hres' w).trans (hres0 w)
              cases t' with
              | head _ => exact ⟨hno, hr', hst0⟩
              | body _ _ _ _ => exact ⟨hno, hr', hst0⟩
              | _ => exact absurd hr' (by simp [Task.reading])
      · -- not waiting for a read: nothing happens
        have hpo : sv.poll y.world c.task c.sock = some (y.world, c.task, c.sock) := by
          obtain ⟨tls, t, sock⟩ := c
          cases t with
          | head _ => exact absurd trivial hr
          | body _ _ _ _ => exact absurd hst.1 hr
          | _ => rfl
        simp only [hpo]
        refine ⟨[], ?_, List.nil_sublist _, rfl⟩
        rw [List.append_nil]
        exact h.set i c ⟨c.tls, c.task, c.sock⟩ hc rfl fun s0 ha0 hs0 => ⟨ha0, hs0⟩

/-! ### whole executions -/

theorem step_dead (y : Sys W) (h : y.dead = true) (e : Event W) : y.step sv e = y := by
  simp [Sys.step, h]

theorem run_dead (y : Sys W) (h : y.dead = true) (evs : List (Event W)) : y.run sv evs = y := by
  induction evs with
  | nil => rfl
  | cons e evs ih => simpa [Sys.run, step_dead y h e] using ih

theorem run_cons (y : Sys W) (e : Event W) (evs : List (Event W)) :
    y.run sv (e :: evs) = (y.step sv e).run sv evs := rfl

theorem run_append (y : Sys W) (a b : List (Event W)) :
    y.run sv (a ++ b) = (y.run sv a).run sv b := by simp [Sys.run]

theorem alive_of_run {y : Sys W} {evs : List (Event W)} (h : (y.run sv evs).dead = false) :
    y.dead = false := by
  cases hd : y.dead with
  | false => rfl
  | true => rw [run_dead y hd evs, hd] at h; exact h

theorem step_listeners (y : Sys W) (e : Event W) (he : ∀ tls, e ≠ .acceptErr tls) :
    (y.step sv e).plain = y.plain ∧ (y.step sv e).tls = y.tls := by
  unfold Sys.step
  split
  · exact ⟨rfl, rfl⟩
  · cases e with
    | acceptErr tls => exact absurd rfl (he tls)
    | connect tls s => simp only; split <;> exact ⟨rfl, rfl⟩
    | poll i =>
      simp only
      split
      · split <;> exact ⟨rfl, rfl⟩
      · exact ⟨rfl, rfl⟩
    | env f => exact ⟨rfl, rfl⟩
    | _ => simp only; split <;> exact ⟨rfl, rfl⟩

theorem accepted_cons (y : Sys W) (hd : y.dead = false) (e : Event W) (evs : List (Event W)) :
    accepted (y.plain = .listening) (y.tls = .listening) (e :: evs) = accepts y e ++
      accepted ((y.step sv e).plain = .listening) ((y.step sv e).tls = .listening) evs := by
  by_cases he : ∀ tls, e ≠ .acceptErr tls
  · obtain ⟨h1, h2⟩ := step_listeners (sv := sv) y e he
    simp only [h1, h2]
    cases e with
    | acceptErr tls => exact absurd rfl (he tls)
    | connect tls s =>
      cases tls with
      | true =>
        by_cases h : y.tls = .listening <;> simp [accepted, accepts, Sys.listener, h]
      | false =>
        by_cases h : y.plain = .listening <;> simp [accepted, accepts, Sys.listener, h]
    | _ => rfl
  · have : ∃ tls, e = .acceptErr tls := Classical.byContradiction fun h => he fun tls ht => h ⟨tls, ht⟩
    obtain ⟨tls, rfl⟩ := this
    cases tls with
    | true =>
      by_cases h : y.tls = .listening <;> simp [accepted, accepts, Sys.step, hd, Sys.listener, h]
    | false =>
      by_cases h : y.plain = .listening <;> simp [accepted, accepts, Sys.step, hd, Sys.listener, h]

theorem Inv.run {w0 : W} (evs : List (Event W)) : ∀ {S : List (Bool × Sock)} {L : List (SeqStep W)}
    {y : Sys W}, Inv sv w0 S L y → (y.run sv evs).dead = false →
    ∃ l, Inv sv w0 (S ++ accepted (y.plain = .listening) (y.tls = .listening) evs) (L ++ l)
        (y.run sv evs) ∧
      (l.map SeqStep.key).Sublist (evs.filterMap Event.key) ∧
      l.filterMap SeqStep.env? = evs.filterMap Event.env? := by
  induction evs with
  | nil => intro S L y h _; exact ⟨[], by simpa [accepted, Sys.run] using h, List.Sublist.refl _, rfl⟩
  | cons e evs ih =>
    intro S L y h hd
    rw [run_cons] at hd ⊢
    have hd1 := alive_of_run hd
    have hd0 : y.dead = false := by
      cases hdd : y.dead with
      | false => rfl
      | true => rw [step_dead y hdd, hdd] at hd1; exact hd1
    obtain ⟨l1, h1, h2, h3⟩ := h.step hd0 e hd1
    obtain ⟨l2, k1, k2, k3⟩ := ih h1 hd
    refine ⟨l1 ++ l2, ?_, ?_, ?_⟩
    · rw [accepted_cons (sv := sv) y hd0, ← List.append_assoc, ← List.append_assoc]
      exact k1
    · rw [List.map_append]
      have : (e :: evs).filterMap Event.key = (Event.key e).toList ++ evs.filterMap Event.key := by
        cases h : Event.key e <;> simp [h]
      rw [this]
      exact h2.append k2
    · rw [List.filterMap_append, h3, k3]
      cases h : Event.env? e <;> simp [h]

theorem Inv.start (w : W) (a b c : Bool) : Inv sv w [] [] (Sys.start w a b c) :=
  ⟨rfl, List.nodup_nil, by simp, rfl, by simp [Sys.start]⟩

/-! ### progress -/

theorem step_poll_same (y : Sys W) (i : Nat) (c : Conn) (hc : y.conns[i]? = some c)
    (h : sv.poll y.world c.task c.sock = some (y.world, c.task, c.sock)) : y.step sv (.poll i) = y := by
  unfold Sys.step
  split
  · rfl
  · simp only [hc, h]
    obtain ⟨hlt, hget⟩ := List.getElem?_eq_some_iff.1 hc
    have : y.conns.set i ⟨c.tls, c.task, c.sock⟩ = y.conns := by
      have : (⟨c.tls, c.task, c.sock⟩ : Conn) = y.conns[i] := by rw [hget]
      rw [this, List.set_getElem_self]
    rw [this]

theorem run_same (y : Sys W) (e : Event W) (h : y.step sv e = y) (n : Nat) :
    y.run sv (List.replicate n e) = y := by
  induction n with
  | zero => rfl
  | succ n ih => rw [List.replicate_succ, run_cons, h, ih]

theorem Task.reading.waiting {t : Task} (h : t.reading) : Waiting t := by
  cases t <;> first | trivial | exact absurd h (by simp [Task.reading])

theorem reads_spec (n : Nat) : ∀ (y : Sys W) (i : Nat) (c : Conn), y.dead = false →
    y.conns[i]? = some c → c.task.reading → c.sock.bytes.length < n →
    Outcome y (y.run sv (List.replicate n (.poll i))) i c.tls (resume sv y.world c.sock c.task) := by
  induction n with
  | zero => intro y i c _ _ _ h; omega
  | succ n ih =>
    intro y i c hd hc hr hn
    obtain ⟨hlt, hget⟩ := List.getElem?_eq_some_iff.1 hc
    have hp := poll_spec sv y.world c.task c.sock hr
    rw [List.replicate_succ, run_cons]
    cases hpo : sv.poll y.world c.task c.sock with
    | none =>
      rw [hpo] at hp
      have hp : resume sv y.world c.sock c.task = .abort := hp
      have hs : y.step sv (.poll i) = { y with dead := true } := by simp [Sys.step, hd, hc, hpo]
      rw [hp, hs, run_dead _ rfl]
      rfl
    | some r =>
      obtain ⟨w', t', s'⟩ := r
      rw [hpo] at hp
      have hs : y.step sv (.poll i) =
          { y with world := w', conns := y.conns.set i ⟨c.tls, t', s'⟩ } := by
        unfold Sys.step
        have hdn : ¬ y.dead = true := by simp [hd]
        rw [if_neg hdn]
        simp only [hc, hpo]
      have hc' : (y.conns.set i ⟨c.tls, t', s'⟩)[i]? = some ⟨c.tls, t', s'⟩ := by
        simp [hlt]
      have stay : sv.poll w' t' s' = some (w', t', s') →
          Sys.run sv { y with world := w', conns := y.conns.set i ⟨c.tls, t', s'⟩ }
            (List.replicate n (.poll i)) =
          { y with world := w', conns := y.conns.set i ⟨c.tls, t', s'⟩ } := fun hst =>
        run_same _ _ (step_poll_same { y with world := w', conns := y.conns.set i ⟨c.tls, t', s'⟩ } i
          ⟨c.tls, t', s'⟩ hc' hst) n
      rw [hs]
      rcases hp with ⟨bs, rfl, hk⟩ | ⟨rfl, rfl, hk⟩ | ⟨hr', rfl, hres, hm⟩
      · rw [hk, stay rfl]
        exact ⟨s', rfl⟩
      · rw [hk, stay rfl]
        exact ⟨s', rfl⟩
      · rcases hm with hm | ⟨rfl, rfl, hk⟩
        · have := ih { y with conns := y.conns.set i ⟨c.tls, t', s'⟩ } i ⟨c.tls, t', s'⟩ hd hc' hr'
            (by simp only; omega)
          simp only [hres] at this
          generalize resume sv y.world c.sock c.task = out at this ⊢
          cases out with
          | ok p =>
            obtain ⟨x, hx⟩ := this
            exact ⟨x, by rw [hx]; simp⟩
          | panic =>
            obtain ⟨x, hx⟩ := this
            exact ⟨x, by rw [hx]; simp⟩
          | pending =>
            obtain ⟨t, x, h1, hx⟩ := this
            exact ⟨t, x, h1, by rw [hx]; simp⟩
          | abort => exact this
        · rw [hk, stay hpo]
          exact ⟨c.task, c.sock, hr.waiting, rfl⟩

/-- no failed write and no failed handshake -/
def Task.sound : Task → Prop
  | .broken _ | .refused => False
  | _ => True

theorem poll_sound (w : W) (t : Task) (s : Sock) (ht : t.sound) (hr : Waiting t → t.reading)
    (r : W × Task × Sock) (h : sv.poll w t s = some r) : r.2.1.sound := by
  by_cases hw : Waiting t
  · have := poll_spec sv w t s (hr hw)
    rw [h] at this
    rcases this with ⟨_, h, -⟩ | ⟨h, -⟩ | ⟨h, -⟩
    · rw [h]; trivial
    · rw [h]; trivial
    · generalize r.2.1 = t' at h
      cases t' <;> first | trivial | exact absurd h (by simp [Task.reading])
  · cases t with
    | head _ => exact absurd trivial hw
    | body _ _ _ _ => exact absurd trivial hw
    | _ =>
      simp only [Server.poll, Option.some.injEq] at h
      subst h
      exact ht

theorem Standing.reading {c : Conn} {s : Sock} (h : Standing sv c s) (hw : Waiting c.task) :
    c.task.reading := by
  obtain ⟨tls, t, sock⟩ := c
  cases t <;> first | exact h.1 | exact absurd hw id

theorem Standing.resume {c : Conn} {s : Sock} (h : Standing sv c s) (hw : Waiting c.task) (w : W) :
    resume sv w c.sock c.task = sv.serve w s := by
  obtain ⟨tls, t, sock⟩ := c
  cases t <;> first | exact h.2 w | exact absurd hw id

theorem step_sound {w0 : W} {S : List (Bool × Sock)} {L : List (SeqStep W)} {y : Sys W}
    (h : Inv sv w0 S L y) (i : Nat) (hs : ∀ c, y.conns[i]? = some c → c.task.sound)
    (e : Event W) (he : Healthy i e) (c : Conn) (hc : (y.step sv e).conns[i]? = some c) :
    c.task.sound := by
  unfold Sys.step at hc
  split at hc
  · exact hs c hc
  have hset : ∀ (j : Nat) (d d' : Conn), y.conns[j]? = some d → (y.conns.set j d')[i]? = some c →
      (j = i → d.task.sound → d'.task.sound) → c.task.sound := by
    intro j d d' hd hcc hok
    rw [List.getElem?_set] at hcc
    by_cases hji : j = i
    · subst hji
      simp only [if_true, (List.getElem?_eq_some_iff.1 hd).1] at hcc
      injection hcc with hcc
      subst hcc
      exact hok rfl (hs d hd)
    · simp only [hji, if_false] at hcc
      exact hs c hcc
  cases e with
  | connect tls s =>
    simp only at hc
    split at hc
    · simp only [List.getElem?_append] at hc
      split at hc
      · exact hs c hc
      · obtain ⟨hi, hc⟩ := List.getElem?_eq_some_iff.1 hc
        simp only [List.getElem_singleton] at hc
        subst hc
        cases tls <;> trivial
    · exact hs c hc
  | acceptErr tls =>
    simp only at hc
    split at hc
    · split at hc <;> exact hs c hc
    · exact hs c hc
  | handshake j ok =>
    simp only at hc
    cases hd : y.conns[j]? with
    | none => rw [hd] at hc; exact hs c hc
    | some d =>
      rw [hd] at hc
      refine hset j d _ hd hc fun hji hds => ?_
      cases ok with
      | true =>
        obtain ⟨_, t, _⟩ := d
        cases t <;> exact hds
      | false => exact absurd (hji ▸ rfl) he.2
  | write j n =>
    simp only at hc
    cases hd : y.conns[j]? with
    | none => rw [hd] at hc; exact hs c hc
    | some d =>
      rw [hd] at hc
      refine hset j d _ hd hc fun hji hds => ?_
      obtain ⟨_, t, _⟩ := d
      cases t with
      | writing a b => simp only [Sys.writeStep]; split <;> trivial
      | _ => exact hds
  | writeErr j =>
    simp only at hc
    cases hd : y.conns[j]? with
    | none => rw [hd] at hc; exact hs c hc
    | some d =>
      rw [hd] at hc
      exact hset j d _ hd hc fun hji _ => absurd (hji ▸ rfl) he.1
  | env f => exact hs c hc
  | exit =>
    simp only at hc
    split at hc <;> exact hs c hc
  | poll j =>
    simp only at hc
    cases hd : y.conns[j]? with
    | none => rw [hd] at hc; exact hs c hc
    | some d =>
      rw [hd] at hc
      simp only at hc
      cases hp : sv.poll y.world d.task d.sock with
      | none => rw [hp] at hc; exact hs c hc
      | some r =>
        rw [hp] at hc
        obtain ⟨s, -, -, hst⟩ := h.conns j d hd
        exact hset j d _ hd hc fun _ hds => poll_sound _ _ _ hds (fun hw => hst.reading hw) r hp

theorem run_sound {w0 : W} (i : Nat) (evs : List (Event W)) : ∀ {S : List (Bool × Sock)}
    {L : List (SeqStep W)} {y : Sys W}, Inv sv w0 S L y → (∀ c, y.conns[i]? = some c → c.task.sound) →
    (y.run sv evs).dead = false → (∀ e ∈ evs, Healthy i e) →
    ∀ c, (y.run sv evs).conns[i]? = some c → c.task.sound := by
  induction evs with
  | nil => intro S L y _ hs _ _; exact hs
  | cons e evs ih =>
    intro S L y h hs hd he
    rw [run_cons] at hd ⊢
    have hd1 := alive_of_run hd
    have hd0 : y.dead = false := by
      cases hdd : y.dead with
      | false => rfl
      | true => rw [step_dead y hdd, hdd] at hd1; exact hd1
    obtain ⟨l, hi, -⟩ := h.step hd0 e hd1
    exact ih hi (step_sound h i hs e (he e (List.mem_cons_self ..))) hd
      fun e' h' => he e' (List.mem_cons_of_mem _ h')
end
end Octane
