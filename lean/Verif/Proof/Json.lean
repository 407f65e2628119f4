import Verif.Proof.Basic
import Verif.Spec.Json
/-
Lemmas about the derive macros.
-/
namespace Octane
open Spec

/-- the first identifier among the tokens -/
def firstIdent : List Tok → Option Str
  | [] => none
  | .ident s :: _ => some s
  | _ :: ts => firstIdent ts

theorem scanFields_false (c : List Tok) (hc : Tok.punct ',' ∉ c) (rest : List Tok) :
    scanFields false (c ++ .punct ',' :: rest) = scanFields true rest ∧ scanFields false c = [] := by
  induction c with
  | nil => exact ⟨rfl, rfl⟩
  | cons t c ih =>
    obtain ⟨h1, h2⟩ := ih fun h => hc (List.mem_cons_of_mem _ h)
    cases t with
    | ident s => simp [scanFields, h1, h2]
    | punct p =>
      have : p ≠ ',' := by rintro rfl; exact hc (List.mem_cons_self ..)
      simp [scanFields, h1, h2, this]
    | lit s => simp [scanFields, h1, h2]
    | group d s => simp [scanFields, h1, h2]

theorem scanFields_chunk (c : List Tok) (hc : Tok.punct ',' ∉ c) (rest : List Tok) :
    scanFields true (c ++ .punct ',' :: rest) = (firstIdent c).toList ++ scanFields true rest ∧
    scanFields true c = (firstIdent c).toList := by
  induction c with
  | nil => exact ⟨rfl, rfl⟩
  | cons t c ih =>
    have hc' : Tok.punct ',' ∉ c := fun h => hc (List.mem_cons_of_mem _ h)
    obtain ⟨h1, h2⟩ := ih hc'
    cases t with
    | ident s =>
      obtain ⟨h3, h4⟩ := scanFields_false c hc' rest
      simp [scanFields, firstIdent, h3, h4]
    | punct p =>
      have : p ≠ ',' := by rintro rfl; exact hc (List.mem_cons_self ..)
      simp [scanFields, firstIdent, h1, h2, this]
    | lit s => simp [scanFields, firstIdent, h1, h2]
    | group d s => simp [scanFields, firstIdent, h1, h2]

/-- the scanner takes the first identifier of every piece between commas -/
theorem scanFields_commaSep (tr : Bool) (cs : List (List Tok)) (hc : ∀ c ∈ cs, Tok.punct ',' ∉ c) :
    scanFields true (commaSep tr cs) = cs.filterMap firstIdent := by
  induction cs with
  | nil => rfl
  | cons c cs ih =>
    have h := ih fun c hm => hc c (List.mem_cons_of_mem _ hm)
    have hc' := hc c (List.mem_cons_self ..)
    cases cs with
    | nil =>
      cases tr with
      | false =>
        simp only [commaSep, Bool.false_eq_true, if_false, List.append_nil]
        rw [(scanFields_chunk c hc' []).2]
        cases hf : firstIdent c <;> simp [hf]
      | true =>
        simp only [commaSep, if_true]
        rw [(scanFields_chunk c hc' []).1]
        cases hf : firstIdent c <;> simp [scanFields, hf]
    | cons d cs =>
      simp only [commaSep] at h ⊢
      rw [(scanFields_chunk c hc' _).1, h]
      cases hf : firstIdent c <;> simp [List.filterMap_cons, hf]

theorem countFields_scan (b : Bool) (c : List Tok) : countFields b c = (scanFields b c).length := by
  induction c generalizing b with
  | nil => rfl
  | cons t c ih =>
    cases t with
    | ident s => cases b <;> simp [countFields, scanFields, ih]
    | punct p => by_cases hp : p = ',' <;> simp [countFields, scanFields, ih, hp]
    | lit s => simp [countFields, scanFields, ih]
    | group d s => simp [countFields, scanFields, ih]

theorem firstIdent_attr (attrs : List (List Tok)) (ts : List Tok) :
    firstIdent (attrToks attrs ++ ts) = firstIdent ts := by
  induction attrs with
  | nil => rfl
  | cons a attrs ih =>
    simp only [attrToks, List.flatMap_cons, List.cons_append, List.nil_append] at ih ⊢
    simpa [firstIdent] using ih

theorem attr_no_comma (attrs : List (List Tok)) : Tok.punct ',' ∉ attrToks attrs := by
  induction attrs with
  | nil => simp [attrToks]
  | cons a attrs ih =>
    simp only [attrToks, List.flatMap_cons] at ih ⊢
    simp only [List.mem_append, not_or]
    exact ⟨by simp, ih⟩

/-! ### the generated code -/

section
variable {V : Type u}

theorem putFields_spec (enc : Str → V → Option Value) (self : Str → V) (fs : List Str)
    (obj res : HMap Str Value) (hn : fs.Nodup) (hu : HMap.Uniq obj)
    (h : putFields enc self fs obj = some res) :
    HMap.Uniq res ∧ ∀ f, HMap.get res f = if f ∈ fs then enc f (self f) else HMap.get obj f := by
  induction fs generalizing obj with
  | nil =>
    simp only [putFields, Option.some.injEq] at h
    subst h
    exact ⟨hu, fun f => by simp⟩
  | cons g fs ih =>
    rw [List.nodup_cons] at hn
    unfold putFields at h
    cases he : enc g (self g) with
    | none => rw [he] at h; simp at h
    | some j =>
      rw [he] at h
      obtain ⟨h1, h2⟩ := ih _ hn.2 (hu.insert g j) h
      refine ⟨h1, fun f => ?_⟩
      rw [h2]
      by_cases hfg : f = g
      · subst hfg
        simp [hn.1, HMap.get_insert_self, he]
      · have : HMap.get (HMap.insert obj g j) f = HMap.get obj f :=
          HMap.get_insert_ne obj j (Ne.symm hfg)
        simp [this, hfg]

theorem putFields_total (enc : Str → V → Option Value) (self : Str → V) (fs : List Str)
    (obj : HMap Str Value) (h : ∀ f ∈ fs, (enc f (self f)).isSome) :
    (putFields enc self fs obj).isSome := by
  induction fs generalizing obj with
  | nil => rfl
  | cons g fs ih =>
    unfold putFields
    have hg := h g (List.mem_cons_self ..)
    cases he : enc g (self g) with
    | none => rw [he] at hg; simp at hg
    | some j => exact ih _ fun f hf => h f (List.mem_cons_of_mem _ hf)

theorem takeFields_of_get (dec : Str → Value → Option V) (self : Str → V) (fs : List Str)
    (obj : HMap Str Value) (hn : fs.Nodup) (hu : HMap.Uniq obj)
    (hk : ∀ f, (HMap.get obj f).isSome ↔ f ∈ fs)
    (hd : ∀ f ∈ fs, ∀ j, HMap.get obj f = some j → dec f j = some (self f)) :
    takeFields dec fs obj = some (fs.map fun f => (f, self f), []) := by
  induction fs generalizing obj with
  | nil =>
    cases obj with
    | nil => rfl
    | cons p obj =>
      have := hk p.1
      simp [HMap.get] at this
  | cons g fs ih =>
    rw [List.nodup_cons] at hn
    have hg := (hk g).2 (List.mem_cons_self ..)
    obtain ⟨j, hj⟩ := Option.isSome_iff_exists.1 hg
    simp only [takeFields, hj, hd g (List.mem_cons_self ..) j hj]
    rw [ih _ hn.2 (hu.remove g)]
    · simp
    · intro f
      rw [HMap.get_remove hu]
      by_cases hfg : g = f
      · subst hfg; simp [hn.1]
      · simp [hfg, hk, Ne.symm hfg]
    · intro f hf j hj
      rw [HMap.get_remove hu] at hj
      by_cases hfg : g = f
      · subst hfg; exact absurd hf hn.1
      · simp [hfg] at hj
        exact hd f (List.mem_cons_of_mem _ hf) j hj

theorem takeFields_keys (dec : Str → Value → Option V) (fs : List Str) (obj rest : HMap Str Value)
    (ret : List (Str × V)) (hu : HMap.Uniq obj) (h : takeFields dec fs obj = some (ret, rest)) :
    ∀ f, (HMap.get obj f).isSome ↔ f ∈ fs ∨ (HMap.get rest f).isSome := by
  induction fs generalizing obj ret with
  | nil =>
    simp only [takeFields, Option.some.injEq, Prod.mk.injEq] at h
    obtain ⟨-, rfl⟩ := h
    simp
  | cons g fs ih =>
    unfold takeFields at h
    cases hg : HMap.get obj g with
    | none => rw [hg] at h; simp at h
    | some j =>
      rw [hg] at h
      cases hd : dec g j with
      | none => simp [hd] at h
      | some x =>
        simp only [hd, Option.map_eq_some_iff, Prod.exists, Prod.mk.injEq] at h
        obtain ⟨r1, r2, h1, -, rfl⟩ := h
        have := ih _ _ (hu.remove g) h1
        intro f
        have hf := this f
        rw [HMap.get_remove hu] at hf
        by_cases hfg : g = f
        · subst hfg; simp [hg]
        · simp [hfg] at hf
          rw [hf, List.mem_cons]
          simp [Ne.symm hfg]

theorem putElems_spec (enc : Nat → V → Option Value) (self : Nat → V) (n i : Nat) (arr res : List Value)
    (h : putElems enc self n i arr = some res) :
    ∃ js, res = arr ++ js ∧ js.length = n ∧ ∀ k j, js[k]? = some j → enc (i + k) (self (i + k)) = some j := by
  induction n generalizing i arr with
  | zero =>
    simp only [putElems, Option.some.injEq] at h
    exact ⟨[], by simp [h], rfl, by simp⟩
  | succ n ih =>
    unfold putElems at h
    cases he : enc i (self i) with
    | none => rw [he] at h; simp at h
    | some j =>
      rw [he] at h
      obtain ⟨js, h1, h2, h3⟩ := ih _ _ h
      refine ⟨j :: js, by simp [h1], by simp [h2], ?_⟩
      intro k j' hk
      cases k with
      | zero => simp at hk; subst hk; exact he
      | succ k =>
        have := h3 k j' (by simpa using hk)
        rw [← this]
        congr 1
        · omega
        · congr 1; omega

theorem putElems_total (enc : Nat → V → Option Value) (self : Nat → V) (n i : Nat) (arr : List Value)
    (h : ∀ k, i ≤ k → k < i + n → (enc k (self k)).isSome) : (putElems enc self n i arr).isSome := by
  induction n generalizing i arr with
  | zero => rfl
  | succ n ih =>
    unfold putElems
    have hi := h i (Nat.le_refl _) (by omega)
    cases he : enc i (self i) with
    | none => rw [he] at hi; simp at hi
    | some j => exact ih _ _ fun k h1 h2 => h k (by omega) (by omega)

theorem takeElems_of (dec : Nat → Value → Option V) (self : Nat → V) (n i : Nat) (js : List Value)
    (hl : js.length = n) (hd : ∀ k j, js[k]? = some j → dec (i + k) j = some (self (i + k))) :
    takeElems dec n i js = some ((List.range' i n).map self, []) := by
  induction n generalizing i js with
  | zero =>
    obtain rfl := List.eq_nil_of_length_eq_zero hl
    rfl
  | succ n ih =>
    cases js with
    | nil => simp at hl
    | cons j js =>
      have h0 := hd 0 j rfl
      simp only [takeElems, Nat.add_zero] at h0 ⊢
      rw [h0]
      simp only
      rw [ih (i + 1) js (by simpa using hl)]
      · simp [List.range'_succ]
      · intro k j' hk
        have := hd (k + 1) j' (by simpa using hk)
        rw [show i + 1 + k = i + (k + 1) by omega]
        exact this

theorem takeElems_length (dec : Nat → Value → Option V) (n i : Nat) (arr rest : List Value) (ret : List V)
    (h : takeElems dec n i arr = some (ret, rest)) : arr.length = n + rest.length := by
  induction n generalizing i arr ret with
  | zero =>
    simp only [takeElems, Option.some.injEq, Prod.mk.injEq] at h
    simp [h.2]
  | succ n ih =>
    cases arr with
    | nil => simp [takeElems] at h
    | cons j arr =>
      unfold takeElems at h
      simp only at h
      cases hd : dec i j with
      | none => simp [hd] at h
      | some x =>
        simp only [hd, Option.map_eq_some_iff, Prod.exists, Prod.mk.injEq] at h
        obtain ⟨r1, r2, h1, -, rfl⟩ := h
        have := ih _ _ _ h1
        simp only [List.length_cons]
        omega

end
end Octane
