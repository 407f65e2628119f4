import Verif.Props.Json
/-
C141: the keys of derived JSON objects.
-/
namespace Octane
open Spec

/-- The name a Rust identifier stands for: `r#type` is the identifier `type` (Rust reference, raw identifiers). -/
def Spec.fieldName : Str → Str
  | 'r' :: '#' :: name => name
  | name => name

/-- what macros print for the names of fields: names without `#`, with or without `r#` before them, no name twice -/
def Spec.RustNames (idents : List Str) : Prop :=
  (∀ i ∈ idents, '#' ∉ fieldName i) ∧ (idents.map fieldName).Nodup

/-- the keys of the object a value is converted to -/
def Spec.KeysAre (keys : List Str) : Value → Prop
  | .object obj => (obj.map (·.1)).Perm keys
  | _ => False

/-- a struct of private fields whose types have no comma outside brackets (see C59 for the others) -/
def Spec.PlainFields (fields : List FieldDecl) : Prop := ∀ f ∈ fields, f.vis = [] ∧ Tok.punct ',' ∉ f.ty

/-- The full claim of C141: the derived conversions write objects with the names of the fields as keys, and read every
such object whose values they can read. -/
def C141_statement : Prop :=
  ∀ (fields : List FieldDecl) (tr : Bool), PlainFields fields → RustNames (fields.map (·.name)) →
    (∀ (enc : Str → Value → Option Value) (self : Str → Value) v,
      toJsonBraces (scanFields true (commaSep tr (fields.map (·.toks)))) enc self = some v →
      KeysAre (fields.map (fieldName ·.name)) v) ∧
    (∀ (dec : Str → Value → Option Value) obj, (obj.map (·.1)).Perm (fields.map (fieldName ·.name)) →
      (∀ f j, (dec f j).isSome) →
      (fromJsonBraces (scanFields true (commaSep tr (fields.map (·.toks)))) dec (.object obj)).isSome)

/-! ### helpers -/

theorem scanned_plain (fields : List FieldDecl) (tr : Bool) (hv : PlainFields fields) :
    scanFields true (commaSep tr (fields.map (·.toks))) = fields.map (·.name) := by
  rw [scanFields_commaSep]
  · induction fields with
    | nil => rfl
    | cons f fields ih =>
      have hf := (hv f (List.mem_cons_self ..)).1
      have : firstIdent f.toks = some f.name := by
        unfold FieldDecl.toks
        rw [hf, List.append_nil, List.append_assoc, firstIdent_attr]
        rfl
      simp only [List.map_cons, List.filterMap_cons, this]
      rw [ih fun g hg => hv g (List.mem_cons_of_mem _ hg)]
  · intro c hc
    obtain ⟨f, hf, rfl⟩ := List.mem_map.1 hc
    obtain ⟨h1, h2⟩ := hv f hf
    unfold FieldDecl.toks
    rw [h1]
    simp only [List.append_nil, List.mem_append, not_or]
    exact ⟨⟨attr_no_comma _, by simp⟩, h2⟩

theorem raw_mem {idents : List Str} (h : ∀ i ∈ idents, '#' ∉ fieldName i) {i : Str} (hi : i ∈ idents.map fieldName)
    (h' : i ∈ idents) : fieldName i = i := by
  obtain ⟨k, hk, rfl⟩ := List.mem_map.1 hi
  have hno := h k hk
  generalize fieldName k = n at *
  unfold fieldName
  split
  · exact absurd (by simp) hno
  · rfl

theorem Spec.RustNames.nodup {idents : List Str} (h : RustNames idents) : idents.Nodup := by
  have := h.2
  rw [List.Nodup, List.pairwise_map] at this
  exact this.imp fun h e => h (by rw [e])

theorem takeFields_none {V : Type u} (dec : Str → Value → Option V) (fs : List Str) (obj : HMap Str Value)
    (hu : HMap.Uniq obj) (f : Str) (hf : f ∈ fs) (hg : HMap.get obj f = none) : takeFields dec fs obj = none := by
  cases h : takeFields dec fs obj with
  | none => rfl
  | some r =>
    have := (takeFields_keys dec fs obj r.2 r.1 hu h f).2 (.inl hf)
    rw [hg] at this
    cases this

theorem get_isSome_iff (m : HMap Str Value) (f : Str) : (HMap.get m f).isSome ↔ f ∈ m.map (·.1) := by
  induction m with
  | nil => simp [HMap.get]
  | cons kv m ih =>
    obtain ⟨k, v⟩ := kv
    simp only [HMap.get]
    split
    · rename_i h; simp [h]
    · rename_i h; rw [ih]; simp [Ne.symm h]

theorem putFields_some {V : Type u} (enc : Str → V → Option Value) (self : Str → V) (fs : List Str)
    (obj res : HMap Str Value) (h : putFields enc self fs obj = some res) : ∀ f ∈ fs, (enc f (self f)).isSome := by
  induction fs generalizing obj with
  | nil => simp
  | cons g fs ih =>
    unfold putFields at h
    cases he : enc g (self g) with
    | none => rw [he] at h; cases h
    | some j =>
      rw [he] at h
      intro f hf
      rcases List.mem_cons.1 hf with rfl | hf
      · rw [he]; rfl
      · exact ih _ h f hf

theorem takeFields_ret {V : Type u} (dec : Str → Value → Option V) (fs : List Str) (obj rest : HMap Str Value)
    (ret : List (Str × V)) (hn : fs.Nodup) (hu : HMap.Uniq obj) (h : takeFields dec fs obj = some (ret, rest)) :
    ret.map (·.1) = fs ∧ ∀ f x, (f, x) ∈ ret → ∃ j, HMap.get obj f = some j ∧ dec f j = some x := by
  induction fs generalizing obj ret with
  | nil =>
    simp only [takeFields, Option.some.injEq, Prod.mk.injEq] at h
    obtain ⟨rfl, rfl⟩ := h
    simp
  | cons g fs ih =>
    rw [List.nodup_cons] at hn
    unfold takeFields at h
    cases hg : HMap.get obj g with
    | none => rw [hg] at h; cases h
    | some j =>
      rw [hg] at h
      cases hd : dec g j with
      | none => simp [hd] at h
      | some x =>
        simp only [hd, Option.map_eq_some_iff, Prod.exists, Prod.mk.injEq] at h
        obtain ⟨r1, r2, h1, rfl, rfl⟩ := h
        obtain ⟨k1, k2⟩ := ih _ _ hn.2 (hu.remove g) h1
        refine ⟨by simp [k1], fun f y hf => ?_⟩
        rcases List.mem_cons.1 hf with hf | hf
        · simp only [Prod.mk.injEq] at hf
          obtain ⟨rfl, rfl⟩ := hf
          exact ⟨j, hg, hd⟩
        · obtain ⟨j', k3, k4⟩ := k2 f y hf
          rw [HMap.get_remove hu] at k3
          split at k3
          · cases k3
          · exact ⟨j', k3, k4⟩

theorem takeFields_back {V : Type u} (dec : Str → Value → Option V) (back : List (Str × V)) (obj : HMap Str Value)
    (hn : (back.map (·.1)).Nodup) (hu : HMap.Uniq obj) (hk : ∀ f, (HMap.get obj f).isSome ↔ f ∈ back.map (·.1))
    (hd : ∀ f x, (f, x) ∈ back → ∃ j, HMap.get obj f = some j ∧ dec f j = some x) :
    takeFields dec (back.map (·.1)) obj = some (back, []) := by
  induction back generalizing obj with
  | nil =>
    cases obj with
    | nil => rfl
    | cons p obj =>
      have := hk p.1
      simp [HMap.get] at this
  | cons gx back ih =>
    obtain ⟨g, x⟩ := gx
    rw [List.map_cons, List.nodup_cons] at hn
    obtain ⟨j, hj, hx⟩ := hd g x (by simp)
    simp only [List.map_cons, takeFields, hj, hx]
    rw [ih _ hn.2 (hu.remove g)]
    · simp
    · intro f
      rw [HMap.get_remove hu]
      by_cases hfg : g = f
      · subst hfg; simp only [if_true, Option.isSome_none, Bool.false_eq_true, false_iff]; exact hn.1
      · rw [if_neg hfg, hk]; simp [Ne.symm hfg]
    · intro f y hf
      obtain ⟨j', k1, k2⟩ := hd f y (List.mem_cons_of_mem _ hf)
      have hfg : g ≠ f := by
        rintro rfl
        exact hn.1 (List.mem_map_of_mem (f := (·.1)) hf)
      exact ⟨j', by rw [HMap.get_remove hu, if_neg hfg]; exact k1, k2⟩

/-! ### C141 -/

/-- What is written, exactly: an object whose keys are the identifiers as they stand in the declaration. -/
theorem C141_written {V : Type u} (idents : List Str) (hn : idents.Nodup) (enc : Str → V → Option Value)
    (self : Str → V) (v : Value) (h : toJsonBraces idents enc self = some v) : KeysAre idents v := by
  unfold toJsonBraces at h
  obtain ⟨obj, h1, rfl⟩ := Option.map_eq_some_iff.1 h
  obtain ⟨h2, h3⟩ := putFields_spec enc self idents [] obj hn HMap.Uniq.nil h1
  show (obj.map (·.1)).Perm idents
  refine (List.perm_ext_iff_of_nodup h2 hn).2 fun f => ?_
  rw [← get_isSome_iff, h3]
  by_cases hf : f ∈ idents
  · simp [hf, putFields_some enc self idents [] obj h1 f hf]
  · simp [hf, HMap.get]

/-- What is read, exactly: the objects whose keys are the identifiers as they stand in the declaration, in any order,
and whose values can be read; each field gets the value under its key. -/
theorem C141_read {V : Type u} (idents : List Str) (hn : idents.Nodup) (dec : Str → Value → Option V)
    (obj : List (Str × Value)) (hu : (obj.map (·.1)).Nodup) (back : List (Str × V)) :
    fromJsonBraces idents dec (.object obj) = some back ↔
      (obj.map (·.1)).Perm idents ∧ back.map (·.1) = idents ∧ ∀ f x, (f, x) ∈ back → ∃ j, (f, j) ∈ obj ∧ dec f j = some x := by
  simp only [← HMap.get_eq_some_iff hu]
  constructor
  · intro h
    unfold fromJsonBraces at h
    simp only at h
    cases ht : takeFields dec idents obj with
    | none => rw [ht] at h; cases h
    | some r =>
      obtain ⟨ret, rest⟩ := r
      rw [ht] at h
      simp only at h
      split at h
      · rename_i he
        rw [List.isEmpty_iff] at he
        subst he
        simp only [Option.some.injEq] at h
        subst h
        refine ⟨(List.perm_ext_iff_of_nodup hu hn).2 fun f => ?_, takeFields_ret dec idents obj [] ret hn hu ht⟩
        rw [← get_isSome_iff, takeFields_keys dec idents obj [] ret hu ht f]
        simp [HMap.get]
      · cases h
  · rintro ⟨h1, rfl, h3⟩
    have := takeFields_back dec back obj hn hu (fun f => by rw [get_isSome_iff, h1.mem_iff]) h3
    simp [fromJsonBraces, this]

/-- The order of the members of an object does not matter. -/
theorem C141_order {V : Type u} (idents : List Str) (hn : idents.Nodup) (dec : Str → Value → Option V)
    (obj obj' : List (Str × Value)) (hu : (obj.map (·.1)).Nodup) (hp : obj'.Perm obj) :
    fromJsonBraces idents dec (.object obj') = fromJsonBraces idents dec (.object obj) := by
  have hm := hp.map (·.1)
  have hu' : (obj'.map (·.1)).Nodup := hm.nodup_iff.2 hu
  apply Option.ext
  intro back
  rw [C141_read idents hn dec obj' hu', C141_read idents hn dec obj hu]
  simp only [hp.mem_iff]
  exact and_congr_left fun _ => ⟨fun h => hm.symm.trans h, fun h => hm.trans h⟩

/-- The claim holds of exactly the structs without raw identifiers. Written objects have the right keys just if there
are none, -/
theorem C141_iff (fields : List FieldDecl) (tr : Bool) (hv : PlainFields fields) (hr : RustNames (fields.map (·.name)))
    {V : Type u} (enc : Str → V → Option Value) (self : Str → V) (v : Value)
    (h : toJsonBraces (scanFields true (commaSep tr (fields.map (·.toks)))) enc self = some v) :
    KeysAre (fields.map (fieldName ·.name)) v ↔ ∀ f ∈ fields, fieldName f.name = f.name := by
  rw [scanned_plain fields tr hv] at h
  have hk := C141_written _ hr.nodup enc self v h
  have hmap : fields.map (fieldName ·.name) = (fields.map (·.name)).map fieldName := by rw [List.map_map]; rfl
  cases v with
  | array a => cases hk
  | other a => cases hk
  | object obj =>
    constructor
    · intro h2 f hf
      have hf' : f.name ∈ fields.map (·.name) := List.mem_map_of_mem (f := (·.name)) hf
      refine raw_mem hr.1 ?_ hf'
      rw [← hmap]
      exact (List.Perm.mem_iff h2).1 ((List.Perm.mem_iff hk).2 hf')
    · intro h2
      have : fields.map (fieldName ·.name) = fields.map (·.name) := List.map_congr_left h2
      rw [this]
      exact hk

/-- and an object with the names as keys is refused if there is one, whatever its values are. -/
theorem C141_refused (fields : List FieldDecl) (tr : Bool) (hv : PlainFields fields) (hr : RustNames (fields.map (·.name)))
    (f : FieldDecl) (hf : f ∈ fields) (hraw : fieldName f.name ≠ f.name) {V : Type u} (dec : Str → Value → Option V)
    (obj : List (Str × Value)) (hobj : (obj.map (·.1)).Perm (fields.map (fieldName ·.name))) :
    fromJsonBraces (scanFields true (commaSep tr (fields.map (·.toks)))) dec (.object obj) = none := by
  have hmap : fields.map (fieldName ·.name) = (fields.map (·.name)).map fieldName := by rw [List.map_map]; rfl
  have hu : (obj.map (·.1)).Nodup := hobj.nodup_iff.2 (by rw [hmap]; exact hr.2)
  rw [scanned_plain fields tr hv]
  cases h : fromJsonBraces (fields.map (·.name)) dec (.object obj) with
  | none => rfl
  | some back =>
    exfalso
    obtain ⟨h1, -⟩ := (C141_read _ hr.nodup dec obj hu back).1 h
    have hf' : f.name ∈ fields.map (·.name) := List.mem_map_of_mem (f := (·.name)) hf
    exact hraw (raw_mem hr.1 (by rw [← hmap]; exact hobj.mem_iff.1 (h1.mem_iff.2 hf')) hf')

/-- C141 without raw identifiers. Missing: structs with one, see `C141_counterexample`. -/
theorem C141_plain_partial (fields : List FieldDecl) (tr : Bool) (hv : PlainFields fields)
    (hr : RustNames (fields.map (·.name))) (hp : ∀ f ∈ fields, fieldName f.name = f.name) {V : Type u} :
    (∀ (enc : Str → V → Option Value) (self : Str → V) v,
      toJsonBraces (scanFields true (commaSep tr (fields.map (·.toks)))) enc self = some v →
      KeysAre (fields.map (fieldName ·.name)) v) ∧
    (∀ (dec : Str → Value → Option V) obj, (obj.map (·.1)).Perm (fields.map (fieldName ·.name)) →
      (∀ f j, (dec f j).isSome) →
      (fromJsonBraces (scanFields true (commaSep tr (fields.map (·.toks)))) dec (.object obj)).isSome) := by
  refine ⟨fun enc self v h => (C141_iff fields tr hv hr enc self v h).2 hp, fun dec obj hobj hdec => ?_⟩
  have hn : fields.map (fieldName ·.name) = fields.map (·.name) := List.map_congr_left hp
  rw [hn] at hobj
  have hu : HMap.Uniq obj := hobj.nodup_iff.2 hr.nodup
  rw [scanned_plain fields tr hv]
  have hall : ∀ f ∈ fields.map (·.name), ∃ x : V, ∃ j, (f, j) ∈ obj ∧ dec f j = some x := by
    intro f hf
    obtain ⟨⟨k, j⟩, hj, rfl⟩ := List.mem_map.1 (hobj.mem_iff.2 hf)
    obtain ⟨x, hx⟩ := Option.isSome_iff_exists.1 (hdec k j)
    exact ⟨x, j, hj, hx⟩
  have hback : ∀ l : List Str, (∀ f ∈ l, ∃ x : V, ∃ j, (f, j) ∈ obj ∧ dec f j = some x) →
      ∃ back : List (Str × V), back.map (·.1) = l ∧ ∀ f x, (f, x) ∈ back → ∃ j, (f, j) ∈ obj ∧ dec f j = some x := by
    intro l
    induction l with
    | nil => intro _; exact ⟨[], rfl, by simp⟩
    | cons g l ih =>
      intro h
      obtain ⟨x, j, h1, h2⟩ := h g (by simp)
      obtain ⟨back, h3, h4⟩ := ih fun f hf => h f (List.mem_cons_of_mem _ hf)
      refine ⟨(g, x) :: back, by simp [h3], fun f y hf => ?_⟩
      rcases List.mem_cons.1 hf with hf | hf
      · simp only [Prod.mk.injEq] at hf
        obtain ⟨rfl, rfl⟩ := hf
        exact ⟨j, h1, h2⟩
      · exact h4 f y hf
  obtain ⟨back, b1, b2⟩ := hback _ hall
  rw [(C141_read _ hr.nodup dec obj hu back).2 ⟨hobj, b1, b2⟩]
  rfl

/-- `struct S { r#type: u8 }` is written with the key `r#type`, and the object `{"type": …}` refused. -/
theorem C141_counterexample : ¬ C141_statement := by
  intro h
  have := (h [⟨[], [], c!"r#type", [.ident c!"u8"]⟩] false (by intro f hf; simp at hf; subst hf; simp)
    ⟨by decide +kernel, by decide +kernel⟩).2 (fun _ j => some j) [(c!"type", .other c!"1")] (by decide +kernel) (by simp)
  rw [C141_refused [⟨[], [], c!"r#type", [.ident c!"u8"]⟩] false (by intro f hf; simp at hf; subst hf; simp)
    ⟨by decide +kernel, by decide +kernel⟩ ⟨[], [], c!"r#type", [.ident c!"u8"]⟩ (by simp) (by decide +kernel)
    (fun _ j => some j) [(c!"type", .other c!"1")] (by decide +kernel)] at this
  cases this

namespace JsonKeysExample

/-- `id: u8, r#type: u8` -/
def mixed : List FieldDecl := [⟨[], [], c!"id", [.ident c!"u8"]⟩, ⟨[], [], c!"r#type", [.ident c!"u8"]⟩]

theorem mixed_plain : PlainFields mixed := by
  intro f hf
  simp only [mixed, List.mem_cons, List.not_mem_nil, or_false] at hf
  rcases hf with rfl | rfl <;> simp

example : RustNames (mixed.map (·.name)) := ⟨by decide +kernel, by decide +kernel⟩

example := C141_refused mixed true mixed_plain ⟨by decide +kernel, by decide +kernel⟩
  ⟨[], [], c!"r#type", [.ident c!"u8"]⟩ (by simp [mixed]) (by decide +kernel) (fun _ j => some j)
  [(c!"type", .other c!"1"), (c!"id", .other c!"2")] (by decide +kernel)

/-- what is written instead -/
example : toJsonBraces (scanFields true (commaSep true (mixed.map (·.toks)))) (fun _ (j : Str) => some (.other j)) id =
    some (.object [(c!"id", .other c!"id"), (c!"r#type", .other c!"r#type")]) := by rfl

/-- two members in either order -/
example := C141_order [c!"a", c!"b"] (by decide) (fun _ j => some j) [(c!"a", .other c!"1"), (c!"b", .other c!"2")]
  [(c!"b", .other c!"2"), (c!"a", .other c!"1")] (by decide +kernel) (.swap _ _ _)

example := (C141_plain_partial [⟨[], [], c!"id", [.ident c!"u8"]⟩] false (by intro f hf; simp at hf; subst hf; simp)
  ⟨by decide +kernel, by decide +kernel⟩ (by decide +kernel) (V := Value)).2 (fun _ j => some j)
  [(c!"id", .other c!"2")] (by decide +kernel) (by simp)

end JsonKeysExample

end Octane
