import Verif.Spec.Effect
import Verif.Proof.ResOps
import Verif.Proof.Show
/-
What a sequence of operations makes of a response, as a function of the response.
-/
namespace Octane
open Spec

/-- what becomes of a header -/
inductive Fate where
  | keep
  | gone
  | val (v : Str)

def Fate.of : Fate → Option Str → Option Str
  | .keep, x => x
  | .gone, _ => none
  | .val v, _ => some v

/-- the type that is set by default -/
def typeText (U : Unicode) (cs : Option Str) : Str := c!"text/html" ++ match cs with
  | some cs => c!" ;charset=" ++ U.debug cs
  | none => []

/-- what becomes of the type -/
inductive TypeFate where
  | keep
  | gone
  | val (v : Str)
  | keepOr (c : Option Str)
  | keepOrCharset
  | byCharset

def TypeFate.of (U : Unicode) : TypeFate → Option Str → Option Str → Option Str
  | .keep, x, _ => x
  | .gone, _, _ => none
  | .val v, _, _ => some v
  | .keepOr c, x, _ => some (x.getD (typeText U c))
  | .keepOrCharset, x, cs => some (x.getD (typeText U cs))
  | .byCharset, _, cs => some (typeText U cs)

structure Effect where
  body : Option ResBody
  status : Option StatusCode
  len : Option (Option Nat)
  version : Option Str
  charset : Option (Option Str)
  fresh : Bool
  added : List Cookie
  header : Str → Fate
  cl : Fate
  ifLen : Bool
  ct : TypeFate

/-- the response `a` is what the effect makes of `r` -/
structure Effect.Says (U : Unicode) (e : Effect) (r a : Response) : Prop where
  body : a.body = e.body.getD r.body
  status : a.statusCode = e.status.getD r.statusCode
  len : a.contentLen = e.len.getD r.contentLen
  version : a.httpVersion = e.version.getD r.httpVersion
  charset : a.charset = e.charset.getD r.charset
  cookies : a.cookies = (if e.fresh then [] else r.cookies) ++ e.added
  header : ∀ k, k ≠ c!"Content-Type" → k ≠ c!"Content-Length" → a.get k = (e.header k).of (r.get k)
  cl : a.get c!"Content-Length" = match e.ifLen, r.contentLen with
    | true, some n => some (showNat n)
    | _, _ => e.cl.of (r.get c!"Content-Length")
  ct : a.get c!"Content-Type" = e.ct.of U (r.get c!"Content-Type") r.charset

def Effect.nothing : Effect :=
  ⟨none, none, none, none, none, false, [], fun _ => .keep, .keep, false, .keep⟩

theorem Effect.nothing_says (U : Unicode) (r : Response) : Effect.nothing.Says U r r := by
  constructor <;> simp [Effect.nothing, Fate.of, TypeFate.of]

def Effect.put (e : Effect) (k v : Str) : Effect :=
  if k = c!"Content-Type" then { e with ct := .val v }
  else if k = c!"Content-Length" then { e with cl := .val v, ifLen := false }
  else { e with header := fun j => if k = j then .val v else e.header j }

def Effect.del (e : Effect) (k : Str) : Effect :=
  if k = c!"Content-Type" then { e with ct := .gone }
  else if k = c!"Content-Length" then { e with cl := .gone, ifLen := false }
  else { e with header := fun j => if k = j then .gone else e.header j }

theorem Effect.Says.put {U : Unicode} {e : Effect} {r a : Response} (h : e.Says U r a) (k v : Str) :
    (e.put k v).Says U r (a.set k v) := by
  have g : ∀ j, (a.set k v).get j = if k = j then some v else a.get j := fun j => HMap.get_insert _ _ _ _
  unfold Effect.put
  split
  · subst k
    exact ⟨h.body, h.status, h.len, h.version, h.charset, h.cookies,
      fun j h1 h2 => by rw [g, if_neg (fun e => h1 e.symm)]; exact h.header j h1 h2,
      by rw [g, if_neg (by decide)]; exact h.cl, by rw [g, if_pos rfl]; rfl⟩
  · split
    · subst k
      exact ⟨h.body, h.status, h.len, h.version, h.charset, h.cookies,
        fun j h1 h2 => by rw [g, if_neg (fun e => h2 e.symm)]; exact h.header j h1 h2,
        by rw [g, if_pos rfl]; rfl, by rw [g, if_neg (by decide)]; exact h.ct⟩
    · rename_i n1 n2
      refine ⟨h.body, h.status, h.len, h.version, h.charset, h.cookies, fun j h1 h2 => ?_, ?_, ?_⟩
      · rw [g]
        dsimp only
        split
        · rfl
        · exact h.header j h1 h2
      · rw [g, if_neg n2]; exact h.cl
      · rw [g, if_neg n1]; exact h.ct

theorem Effect.Says.del {U : Unicode} {e : Effect} {r a : Response} (h : e.Says U r a)
    (hu : HMap.Uniq a.headers) (k : Str) :
    (e.del k).Says U r { a with headers := a.headers.remove k } := by
  have g : ∀ j, Response.get { a with headers := a.headers.remove k } j = if k = j then none else a.get j :=
    fun j => HMap.get_remove hu k j
  unfold Effect.del
  split
  · subst k
    exact ⟨h.body, h.status, h.len, h.version, h.charset, h.cookies,
      fun j h1 h2 => by rw [g, if_neg (fun e => h1 e.symm)]; exact h.header j h1 h2,
      by rw [g, if_neg (by decide)]; exact h.cl, by rw [g, if_pos rfl]; rfl⟩
  · split
    · subst k
      exact ⟨h.body, h.status, h.len, h.version, h.charset, h.cookies,
        fun j h1 h2 => by rw [g, if_neg (fun e => h2 e.symm)]; exact h.header j h1 h2,
        by rw [g, if_pos rfl]; rfl, by rw [g, if_neg (by decide)]; exact h.ct⟩
    · rename_i n1 n2
      refine ⟨h.body, h.status, h.len, h.version, h.charset, h.cookies, fun j h1 h2 => ?_, ?_, ?_⟩
      · rw [g]
        dsimp only
        split
        · rfl
        · exact h.header j h1 h2
      · rw [g, if_neg n2]; exact h.cl
      · rw [g, if_neg n1]; exact h.ct

/-- what `default_headers` adds to an effect -/
def Effect.default (U : Unicode) (e : Effect) (date : Option Str) : Effect :=
  { e with
    cl := match e.len with
      | some (some n) => .val (showNat n)
      | _ => e.cl
    ifLen := match e.len with
      | some (some _) => false
      | some none => e.ifLen
      | none => true
    ct := match e.ct with
      | .keep => match e.charset with
        | some c => .keepOr c
        | none => .keepOrCharset
      | .gone => match e.charset with
        | some c => .val (typeText U c)
        | none => .byCharset
      | t => t
    header := fun k => match date with
      | some d => if k = c!"Date" then .val d else e.header k
      | none => e.header k }

theorem Effect.Says.default {U : Unicode} {e : Effect} {r a b : Response} {clock : Int} {date : Option Str}
    (h : e.Says U r a) (hd : dateHeader clock = .ok date) (hb : a.defaultHeaders U clock = .ok b) :
    (e.default U date).Says U r b := by
  obtain ⟨-, h2, h3, h4, h5, h6, h7, -, h9, h10, ⟨d, hd', h11⟩, h12⟩ := defaultHeaders_spec hb
  rw [hd] at hd'
  injection hd' with hd'
  subst hd'
  refine ⟨h2.trans h.body, h3.trans h.status, h4.trans h.len, h5.trans h.version, h6.trans h.charset,
    h7.trans h.cookies, fun k k1 k2 => ?_, ?_, ?_⟩
  · by_cases hk : k = c!"Date"
    · subst hk
      rw [h11]
      cases date with
      | none => exact h.header _ k1 k2
      | some t => simp [Effect.default, Fate.of]
    · rw [h12 k k2 k1 hk, h.header k k1 k2]
      cases date <;> simp [Effect.default, hk]
  · rw [h9, h.len, h.cl]
    simp only [Effect.default]
    cases e.len with
    | none => cases r.contentLen <;> cases e.ifLen <;> rfl
    | some l => cases l <;> cases r.contentLen <;> cases e.ifLen <;> rfl
  · rw [h10, h.ct, h.charset]
    simp only [Effect.default]
    cases e.ct <;> cases e.charset <;> cases r.get c!"Content-Type" <;> rfl

/-- one operation changes the effect, in a way that does not depend on the response -/
theorem Effect.exec (U : Unicode) (e : Effect) (op : ResOp) : ∃ e' : Effect, ∀ r a b : Response,
    HMap.Uniq a.headers → e.Says U r a → op.exec U a = .ok b → e'.Says U r b := by
  have dflt : ∀ (clock : Int) (e : Effect), ∃ e' : Effect, ∀ r a b : Response,
      e.Says U r a → a.defaultHeaders U clock = .ok b → e'.Says U r b := by
    intro clock e
    rcases Int.lt_or_le clock 0 with hc | hc
    · refine ⟨e, fun r a b _ hb => ?_⟩
      have := (defaultHeaders_spec hb).1
      omega
    · obtain ⟨d, hd⟩ := dateHeader_ok hc
      exact ⟨e.default U d, fun r a b h hb => h.default hd hb⟩
  cases op with
  | set k v =>
    exact ⟨e.put k v, fun r a b _ h hb => by simp only [ResOp.exec] at hb; injection hb with hb; subst hb; exact h.put k v⟩
  | send clock body =>
    obtain ⟨e', he'⟩ := dflt clock
      { e with body := some (.sized body.length (.cursor body)), len := some (some body.length) }
    refine ⟨e', fun r a b _ h hb => he' r
      { a with body := .sized body.length (.cursor body), contentLen := some body.length } b ?_ hb⟩
    exact ⟨rfl, h.status, rfl, h.version, h.charset, h.cookies, h.header, h.cl, h.ct⟩
  | defaultHeaders clock =>
    obtain ⟨e', he'⟩ := dflt clock e
    exact ⟨e', fun r a b _ h hb => he' r a b h hb⟩
  | withType t =>
    exact ⟨e.put _ t, fun r a b _ h hb => by simp only [ResOp.exec] at hb; injection hb with hb; subst hb; exact h.put _ t⟩
  | sendFile fs path =>
    simp only [ResOp.exec, Response.sendFile]
    cases hf : handleFile fs path with
    | panic => exact ⟨e, fun r a b _ _ hb => by simp at hb⟩
    | ok o =>
      cases o with
      | none =>
        refine ⟨e, fun r a b _ h hb => ?_⟩
        simp only [Res.bind_ok'] at hb
        injection hb with hb
        subst hb
        exact h
      | some fh =>
        refine ⟨{ e.put c!"Content-Type" (mimeType U fh.extension) with
                  body := some (.sized fh.len (.file (some fh.contents))), len := some (some fh.len) },
          fun r a b _ h hb => ?_⟩
        simp only [Res.bind_ok'] at hb
        injection hb with hb
        subst hb
        have h' := h.put c!"Content-Type" (mimeType U fh.extension)
        exact ⟨rfl, h'.status, rfl, h'.version, h'.charset, h'.cookies, h'.header, h'.cl, h'.ct⟩
  | status c =>
    refine ⟨{ e with status := some c }, fun r a b _ h hb => ?_⟩
    simp only [ResOp.exec] at hb; injection hb with hb; subst hb
    exact ⟨h.body, rfl, h.len, h.version, h.charset, h.cookies, h.header, h.cl, h.ct⟩
  | httpVersion v =>
    refine ⟨{ e with version := some v.toStr }, fun r a b _ h hb => ?_⟩
    simp only [ResOp.exec] at hb; injection hb with hb; subst hb
    exact ⟨h.body, h.status, h.len, rfl, h.charset, h.cookies, h.header, h.cl, h.ct⟩
  | attachment =>
    exact ⟨e.put _ _, fun r a b _ h hb => by simp only [ResOp.exec] at hb; injection hb with hb; subst hb; exact h.put _ _⟩
  | attachmentNamed n =>
    exact ⟨(e.put _ _).put _ _, fun r a b _ h hb => by
      simp only [ResOp.exec] at hb; injection hb with hb; subst hb; exact (h.put _ _).put _ _⟩
  | redirect l =>
    refine ⟨{ e with status := some .found }.put c!"Location" l, fun r a b _ h hb => ?_⟩
    simp only [ResOp.exec] at hb; injection hb with hb; subst hb
    refine Effect.Says.put (a := a.status .found) ?_ _ l
    exact ⟨h.body, rfl, h.len, h.version, h.charset, h.cookies, h.header, h.cl, h.ct⟩
  | cookie c =>
    refine ⟨{ e with added := e.added ++ [c] }, fun r a b _ h hb => ?_⟩
    simp only [ResOp.exec] at hb; injection hb with hb; subst hb
    exact ⟨h.body, h.status, h.len, h.version, h.charset, by simp [Response.cookie, h.cookies], h.header, h.cl, h.ct⟩
  | charset c =>
    refine ⟨{ e with charset := some (some c) }, fun r a b _ h hb => ?_⟩
    simp only [ResOp.exec] at hb; injection hb with hb; subst hb
    exact ⟨h.body, h.status, h.len, h.version, rfl, h.cookies, h.header, h.cl, h.ct⟩
  | removeHeader k =>
    exact ⟨e.del k, fun r a b hu h hb => by simp only [ResOp.exec] at hb; injection hb with hb; subst hb; exact h.del hu k⟩
  | writeContentLen n =>
    refine ⟨{ e with len := some n }, fun r a b _ h hb => ?_⟩
    simp only [ResOp.exec] at hb; injection hb with hb; subst hb
    exact ⟨h.body, h.status, rfl, h.version, h.charset, h.cookies, h.header, h.cl, h.ct⟩
  | writeVersion v =>
    refine ⟨{ e with version := some v }, fun r a b _ h hb => ?_⟩
    simp only [ResOp.exec] at hb; injection hb with hb; subst hb
    exact ⟨h.body, h.status, h.len, rfl, h.charset, h.cookies, h.header, h.cl, h.ct⟩
  | writeCharset c =>
    refine ⟨{ e with charset := some c }, fun r a b _ h hb => ?_⟩
    simp only [ResOp.exec] at hb; injection hb with hb; subst hb
    exact ⟨h.body, h.status, h.len, h.version, rfl, h.cookies, h.header, h.cl, h.ct⟩
  | writeCookies cs =>
    refine ⟨{ e with fresh := true, added := cs }, fun r a b _ h hb => ?_⟩
    simp only [ResOp.exec] at hb; injection hb with hb; subst hb
    exact ⟨h.body, h.status, h.len, h.version, h.charset, by simp, h.header, h.cl, h.ct⟩

theorem Effect.execOps (U : Unicode) (ops : List ResOp) (e : Effect) : ∃ e' : Effect, ∀ r a b : Response,
    HMap.Uniq a.headers → e.Says U r a → execOps U a ops = .ok b → e'.Says U r b := by
  induction ops generalizing e with
  | nil => exact ⟨e, fun r a b _ h hb => by simp only [Spec.execOps] at hb; injection hb with hb; subst hb; exact h⟩
  | cons op ops ih =>
    obtain ⟨e1, h1⟩ := Effect.exec U e op
    obtain ⟨e2, h2⟩ := ih e1
    refine ⟨e2, fun r a b hu h hb => ?_⟩
    obtain ⟨a1, ha1, hb1⟩ := execOps_cons_ok hb
    exact h2 r a1 b (exec_uniq ha1 hu) (h1 r a a1 hu h ha1) hb1

/-- every sequence of operations has an effect -/
theorem effect_of (U : Unicode) (ops : List ResOp) : ∃ e : Effect, ∀ r b : Response,
    HMap.Uniq r.headers → Spec.execOps U r ops = .ok b → e.Says U r b := by
  obtain ⟨e, he⟩ := Effect.execOps U ops Effect.nothing
  exact ⟨e, fun r b hu hb => he r r b hu (Effect.nothing_says U r) hb⟩

/-! ### the pieces, from the tests -/

theorem two_tests {α : Type} {x y : Option α} {a b : α} (hab : a ≠ b) (h1 : x.getD a = y.getD a)
    (h2 : x.getD b = y.getD b) (c : α) : x.getD c = y.getD c := by
  cases x <;> cases y <;> simp_all

theorem Fate.two_tests {x y : Fate} {v : Str} (h1 : x.of (some v) = y.of (some v)) (h2 : x.of none = y.of none)
    (c : Option Str) : x.of c = y.of c := by
  cases x <;> cases y <;> simp_all [Fate.of]

/-- what becomes of the length header -/
def clOf (ifLen : Bool) (f : Fate) (h : Option Str) (len : Option Nat) : Option Str :=
  match ifLen, len with
  | true, some n => some (showNat n)
  | _, _ => f.of h

theorem cl_tests {i j : Bool} {x y : Fate} {v : Str} (h1 : clOf i x (some v) none = clOf j y (some v) none)
    (h1' : clOf i x none none = clOf j y none none)
    (h2 : clOf i x none (some 0) = clOf j y none (some 0)) (h3 : clOf i x none (some 1) = clOf j y none (some 1))
    (c : Option Str) (n : Option Nat) : clOf i x c n = clOf j y c n := by
  have ne : showNat 0 ≠ showNat 1 := fun h => by have := showNat_inj h; omega
  cases i <;> cases j <;> cases x <;> cases y <;> cases n <;> simp_all [clOf, Fate.of]

theorem ct_tests {U : Unicode} {x y : TypeFate} (h1 : x.of U (some c!"x") none = y.of U (some c!"x") none)
    (h2 : x.of U none none = y.of U none none) (h3 : x.of U none (some c!"c") = y.of U none (some c!"c"))
    (h cs : Option Str) : x.of U h cs = y.of U h cs := by
  have ne : typeText U none ≠ typeText U (some c!"c") := by simp [typeText]
  have nx : ∀ c, c!"x" ≠ typeText U c := by intro c; simp [typeText]
  cases x <;> cases y <;> cases h <;> simp_all [TypeFate.of] <;> grind

theorem cookies_tests {f g : Bool} {a b : List Cookie} {c : Cookie}
    (h1 : (if f then [] else []) ++ a = (if g then [] else []) ++ b)
    (h2 : (if f then [] else [c]) ++ a = (if g then [] else [c]) ++ b) (cs : List Cookie) :
    (if f then [] else cs) ++ a = (if g then [] else cs) ++ b := by
  have hab : a = b := by cases f <;> cases g <;> simpa using h1
  subst hab
  cases f <;> cases g <;> simp_all

theorem everyX_uniq (names : List Str) : HMap.Uniq (everyX names) := by
  have : ∀ (m : HMap Str Str), HMap.Uniq m → HMap.Uniq (names.foldl (fun m k => HMap.insert m k c!"x") m) := by
    induction names with
    | nil => exact fun m h => h
    | cons k names ih => exact fun m h => ih _ (h.insert _ _)
  exact this [] HMap.Uniq.nil

theorem everyX_get {names : List Str} {k : Str} (hk : k ∈ names) : HMap.get (everyX names) k = some c!"x" := by
  have : ∀ (m : HMap Str Str), k ∈ names ∨ HMap.get m k = some c!"x" →
      HMap.get (names.foldl (fun m k => HMap.insert m k c!"x") m) k = some c!"x" := by
    clear hk
    induction names with
    | nil => exact fun m h => h.resolve_left (by simp)
    | cons j names ih =>
      intro m h
      refine ih _ ?_
      rw [HMap.get_insert]
      by_cases hj : j = k
      · right; rw [if_pos hj]
      · rw [if_neg hj]
        rcases h with h | h
        · rcases List.mem_cons.1 h with h | h
          · exact absurd h.symm hj
          · exact .inl h
        · exact .inr h
  exact this [] (.inl hk)

end Octane
