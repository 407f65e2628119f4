import Verif.Model.Held
import Verif.Proof.CostRoute
import Verif.Proof.CostServe
import Verif.Proof.Wire
import Verif.Props.Cost
/-
Helper lemmas for C152.
-/
namespace Octane
open Spec
universe u
variable {W : Type u} {S : Type u}

/-! ### the path -/

theorem Path.parseLoop_size (chunks : PathBuf) (l : List Str) (q : PathBuf) (h : Path.parseLoop chunks l = some q) :
    (q.map fun c => (utf8 c).length).sum ≤ (chunks.map fun c => (utf8 c).length).sum + (l.map fun t => (utf8 t).length).sum := by
  induction l generalizing chunks with
  | nil => simp only [Path.parseLoop, Option.some.injEq] at h; subst h; simp
  | cons c l ih =>
    unfold Path.parseLoop at h
    cases hs : Path.parseStep chunks c with
    | none => rw [hs] at h; cases h
    | some x =>
      rw [hs] at h
      have h1 := ih x h
      have h2 : (x.map fun c => (utf8 c).length).sum ≤ (chunks.map fun c => (utf8 c).length).sum + (utf8 c).length := by
        unfold Path.parseStep at hs
        split at hs
        · injection hs with hs; subst hs; omega
        · split at hs
          · split at hs
            · cases hs
            · rename_i hne
              injection hs with hs; subst hs
              rcases List.eq_nil_or_concat chunks with rfl | ⟨a, b, rfl⟩
              · simp
              · simp; omega
          · injection hs with hs; subst hs; simp
      simp only [List.map_cons, List.sum_cons]
      omega

theorem Path.parse_size (p : Str) (q : PathBuf) (h : Path.parse p = some q) :
    (q.map fun c => (utf8 c).length).sum ≤ (utf8 p).length := by
  have h1 := Path.parseLoop_size [] (splitChar '/' p) q h
  have h2 := Octane.sum_splitChar (c := '/') (by decide) p
  rw [sum_succ] at h2
  have := splitChar_length_pos '/' p
  simp only [List.map_nil, List.sum_nil] at h1
  omega

theorem RequestLine.parse_size (faithful : Bool) (l : Str) (rl : RequestLine)
    (h : RequestLine.parse faithful l = .ok (some rl)) : rl.size ≤ (utf8 l).length := by
  have hsum := Octane.sum_splitChar (c := ' ') (by decide) l
  revert h
  unfold RequestLine.parse
  cases hs : splitChar ' ' l with
  | nil => exact nofun
  | cons m r =>
    cases r with
    | nil => exact nofun
    | cons p r =>
      rw [hs] at hsum
      simp only [List.map_cons, List.sum_cons] at hsum
      simp only
      cases hp : Path.parse p with
      | none => exact nofun
      | some q =>
        have := Path.parse_size p q hp
        cases r with
        | nil => exact nofun
        | cons v r =>
          simp only
          cases splitAtByte 5 v with
          | panic => exact nofun
          | ok x =>
            simp only [Res.bind_ok']
            split
            · exact nofun
            · intro h
              simp only [Res.ok.injEq, Option.some.injEq] at h
              rw [← h]
              simp only [RequestLine.size]
              omega

/-! ### the head -/

theorem readHeadLoopC_taken (fuel : Nat) (data : Bytes) (s : Sock) (hdrs line : Str) (rem : Bytes) (reader : Sock)
    (h : (readHeadLoopC fuel data s).1 = .ok (.head hdrs line rem reader)) :
    (readHeadLoopC fuel data s).2.held + reader.bytes.length = data.length + s.bytes.length := by
  induction fuel generalizing data s with
  | zero => simp [readHeadLoopC] at h
  | succ fuel ih =>
    unfold readHeadLoopC at h ⊢
    cases hrd : s.read 512 with
    | error => rw [hrd] at h; simp at h
    | pending => rw [hrd] at h; simp at h
    | data b s' =>
      rw [hrd] at h
      simp only at h ⊢
      by_cases hb : b = []
      · rw [if_pos hb] at h; simp at h
      · rw [if_neg hb] at h ⊢
        have hr := read_spec 512 (by omega) s
        rw [hrd] at hr
        have hbytes := (hr.2 hb).1
        have hl : s.bytes.length = b.length + s'.bytes.length := by rw [hbytes, List.length_append]
        cases hc : headCheck (data ++ b) s' with
        | panic => rw [hc] at h; simp at h
        | ok o =>
          rw [hc] at h
          cases o with
          | none =>
            simp only at h ⊢
            have := ih _ _ h
            rw [List.length_append] at this
            omega
          | some out =>
            simp only [Io.ok.injEq] at h
            subst h
            simp only [List.length_append]
            have : reader = s' := by
              unfold headCheck at hc
              cases hf : findInSlice (data ++ b) [13, 10, 13, 10] with
              | panic => rw [hf] at hc; simp [Res.bind] at hc
              | ok o =>
                rw [hf, Res.bind_ok'] at hc
                cases o with
                | none => simp at hc
                | some i =>
                  simp only at hc
                  split at hc
                  · split at hc
                    · simp at hc
                    · rename_i t _
                      cases hp : parseWithoutBody t with
                      | panic => rw [hp] at hc; simp [Res.bind] at hc
                      | ok o =>
                        rw [hp, Res.bind_ok'] at hc
                        cases o with
                        | none => simp at hc
                        | some x =>
                          simp only [Res.ok.injEq, Option.some.injEq, HeadOut.head.injEq] at hc
                          exact hc.2.2.2.symm
                  · simp at hc
            subst this
            omega

theorem readHeadC_taken (s : Sock) (hdrs line : Str) (rem : Bytes) (reader : Sock)
    (h : readHead s = .ok (.head hdrs line rem reader)) :
    (readHeadC s).2.held + reader.bytes.length = s.bytes.length := by
  rw [← C93_same] at h
  have := readHeadLoopC_taken _ _ _ _ _ _ _ h
  simpa [readHeadC] using this

/-! ### the body -/

theorem fromRaw_some_length {feat : Features} {allocOk : Nat → Bool} {H : Headers} {rl : RequestLine}
    {rem : Bytes} {reader : Sock} {req : Request} (h : Request.fromRaw feat allocOk H rl rem reader = .ok (some req)) :
    contentLength H ≤ rem.length + reader.bytes.length := by
  unfold Request.fromRaw at h
  simp only at h
  split at h
  · split at h
    · split at h
      · simp at h
      · split at h
        · simp at h
        · have hs := readExact_spec (contentLength H - rem.length) reader
          rcases Nat.lt_or_ge reader.bytes.length (contentLength H - rem.length) with hlt | hge
          · have := hs.2 hlt
            cases hf : reader.fin <;> (rw [this, hf] at h; simp at h)
          · omega
    · omega
  · omega

theorem fromRaw_body_le {feat : Features} {allocOk : Nat → Bool} {H : Headers} {rl : RequestLine}
    {rem : Bytes} {reader : Sock} {req : Request} (h : Request.fromRaw feat allocOk H rl rem reader = .ok (some req)) :
    req.body.length ≤ rem.length + Request.bodyCopy H rem := by
  have key : ∀ b : Io Bytes, (b.bind fun body => Io.ofRes (Request.parse feat rl H body)) = .ok (some req) →
      ∃ body, b = .ok body ∧ req.body = body := by
    intro b hb
    cases b with
    | ok body =>
      refine ⟨body, rfl, ?_⟩
      simp only [Io.bind_ok] at hb
      rcases Classical.em (feat.cookies = true → ∀ v, H.get c!"cookie" = some v → CookieText v) with hc | hc
      · obtain ⟨cs, e⟩ := (Request.parse_spec feat rl H body).1 hc
        rw [e] at hb
        simp only [Io.ofRes_ok, Io.ok.injEq, Option.some.injEq] at hb
        subst hb; rfl
      · rw [(Request.parse_spec feat rl H body).2 hc] at hb
        simp at hb
    | panic => simp at hb
    | pending => simp at hb
    | abort => simp at hb
  obtain ⟨body, hb, e⟩ := key _ h
  rw [e]
  unfold Request.bodyCopy
  split at hb
  · split at hb
    · rename_i hlt
      rw [if_pos hlt]
      dsimp only at hb
      split at hb
      · cases hb
      · split at hb
        · cases hb
        · have hs := readExact_spec (contentLength H - rem.length) reader
          rcases Nat.lt_or_ge reader.bytes.length (contentLength H - rem.length) with hl | hl
          · have := hs.2 hl
            cases hf : reader.fin <;> (rw [this, hf] at hb; simp at hb)
          · obtain ⟨s', e1, -⟩ := hs.1 hl
            rw [e1] at hb
            simp only [Io.bind_ok] at hb
            split at hb
            · cases hb
            · split at hb
              · cases hb
              · injection hb with hb
                rw [← hb, List.length_append, List.length_take]
                omega
    · injection hb with hb
      rw [hb]
      omega
  · injection hb with hb
    rw [← hb]
    simp

/-! ### the variables -/

theorem HMap.insert_length_le {K V : Type _} [DecidableEq K] (m : HMap K V) (k : K) (v : V) :
    (m.insert k v).length ≤ m.length + 1 := by
  induction m with
  | nil => simp [HMap.insert]
  | cons e m ih =>
    unfold HMap.insert
    split
    · simp
    · simp only [List.length_cons]; omega

theorem bindings_length (p q : List Str) : (bindings p q).length ≤ q.length := by
  have key : ∀ (l : List (Str × Str)) (m : HMap Str Str),
      (l.foldl (fun m e => bindStep m e.1 e.2) m).length ≤ m.length + l.length := by
    intro l
    induction l with
    | nil => intro m; exact Nat.le_refl _
    | cons e l ih =>
      intro m
      rw [List.foldl_cons]
      have h1 := ih (bindStep m e.1 e.2)
      have h2 : (bindStep m e.1 e.2).length ≤ m.length + 1 := by
        unfold bindStep
        split
        · exact HMap.insert_length_le _ _ _
        · omega
      simp only [List.length_cons]
      omega
  have := key (p.zip q) []
  rw [List.length_zip] at this
  unfold bindings
  simp only [List.length_nil] at this
  omega

theorem Spec.Target.vars_length (uv : Bool) (t : Target) (q : PathBuf) : (t.vars uv q).length ≤ q.length := by
  have := fun p => bindings_length p q
  cases t <;> cases uv <;> simp [Target.vars, this]

namespace Router

theorem mergedFrom_pairs (uv : Bool) (method : RequestMethod) (q : PathBuf) (i : Nat) (L : List (Reg S)) :
    ((mergedFrom uv method q i L).map fun m => m.vars.length).sum =
      ((L.filter fun e => e.target.applies uv method q).map fun e => (e.target.vars uv q).length).sum := by
  induction L generalizing i with
  | nil => rfl
  | cons e L ih =>
    unfold mergedFrom
    rw [List.map_append, List.sum_append, ih, List.filter_cons]
    split <;> simp

theorem pairs_eq {r : Router S} {L : List (Reg S)} (h : Inv r L) (uv : Bool) (rl : RequestLine) (hm : rl.method ≠ .all) :
    pairs uv r rl =
      ((L.filter fun e => e.target.applies uv rl.method rl.path).map fun e => (e.target.vars uv rl.path).length).sum := by
  obtain ⟨m1, h1, h1'⟩ := methodMatches_eq h uv rl.method rl.path
  obtain ⟨m2, h2, h2'⟩ := methodMatches_eq h uv .all rl.path
  have hflat : (mergedFrom uv rl.method rl.path 0 L).Perm
      (m1 ++ m2 ++ [r.middlewares.map fun c => (⟨[], c⟩ : MatchedPath (Closures S))]).flatten := by
    refine (merged_perm uv rl.method hm rl.path 0 L h.targets).trans ?_
    simp only [h.mids]
    rcases h1' with rfl | ⟨rfl, e1⟩ <;> rcases h2' with rfl | ⟨rfl, e2⟩ <;> simp_all
  rw [← mergedFrom_pairs uv rl.method rl.path 0 L]
  unfold pairs
  simp only [collectMatches, h1, h2, Res.bind_ok']
  exact ((hflat.map _).sum_nat).symm

end Router
end Octane
