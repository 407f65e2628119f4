import Verif.Proof.Json
/-
C59: derived JSON conversion round-trips.
-/
namespace Octane
open Spec

theorem namedOk (fs : List Str) (hn : fs.Nodup) : NamedOk fs fs where
  from_compiles := ⟨hn, fun _ => .rfl⟩
  to_compiles := ⟨hn, fun _ h => h⟩
  roundtrip := by
    intro V enc dec hc self v hv
    unfold toJsonBraces at hv
    obtain ⟨obj, h1, rfl⟩ := Option.map_eq_some_iff.1 hv
    obtain ⟨h2, h3⟩ := putFields_spec enc self fs [] obj hn HMap.Uniq.nil h1
    have hsome : ∀ f ∈ fs, ∃ j, enc f (self f) = some j := by
      intro f hf
      cases he : enc f (self f) with
      | some j => exact ⟨j, rfl⟩
      | none =>
        exfalso
        have : ∀ (l : List Str) (o : HMap Str Value), f ∈ l → putFields enc self l o = none := by
          intro l
          induction l with
          | nil => intro o h; simp at h
          | cons g l ih =>
            intro o h
            unfold putFields
            cases hg : enc g (self g) with
            | none => rfl
            | some j =>
              rcases List.mem_cons.1 h with rfl | h
              · rw [he] at hg; simp at hg
              · exact ih _ h
        rw [this fs [] hf] at h1
        simp at h1
    have := takeFields_of_get dec self fs obj hn h2 (by
        intro f
        rw [h3]
        by_cases hf : f ∈ fs
        · obtain ⟨j, hj⟩ := hsome f hf; simp [hf, hj]
        · simp [hf]) (by
        intro f hf j hj
        rw [h3, if_pos hf] at hj
        exact hc f _ _ hj)
    refine ⟨fs.map fun f => (f, self f), ?_, ?_, ?_⟩
    · simp [fromJsonBraces, this]
    · rw [List.map_map, show ((fun x : Str × V => x.1) ∘ fun f => (f, self f)) = id from rfl, List.map_id]
      exact hn
    · intro f x
      simp only [List.mem_map, Prod.mk.injEq]
      constructor
      · rintro ⟨a, h1, rfl, rfl⟩; exact ⟨h1, rfl⟩
      · rintro ⟨h1, rfl⟩; exact ⟨f, h1, rfl, rfl⟩
  total := by
    intro V enc self h
    simp only [toJsonBraces, Option.isSome_map]
    exact putFields_total enc self fs [] h
  written := by
    intro V enc self v hv
    unfold toJsonBraces at hv
    obtain ⟨obj, h1, rfl⟩ := Option.map_eq_some_iff.1 hv
    obtain ⟨h2, h3⟩ := putFields_spec enc self fs [] obj hn HMap.Uniq.nil h1
    refine ⟨obj, rfl, h2, fun f j => ?_⟩
    rw [← HMap.get_eq_some_iff h2, h3]
    by_cases hf : f ∈ fs <;> simp [hf]
  refuses := by
    intro V dec v back h
    cases v with
    | array a => simp [fromJsonBraces] at h
    | other s => simp [fromJsonBraces] at h
    | object obj =>
      refine ⟨obj, rfl, fun hu f => ?_⟩
      unfold fromJsonBraces at h
      simp only at h
      cases ht : takeFields dec fs obj with
      | none => rw [ht] at h; simp at h
      | some r =>
        obtain ⟨ret, rest⟩ := r
        rw [ht] at h
        simp only at h
        by_cases he : rest.isEmpty
        · have := takeFields_keys dec fs obj rest ret hu ht f
          rw [List.isEmpty_iff] at he
          subst he
          simp only [HMap.get_nil, Option.isSome_none, Bool.false_eq_true, or_false] at this
          rw [← this]
          cases hg : HMap.get obj f with
          | none => simpa using HMap.get_eq_none_iff.1 hg
          | some j =>
            simp only [Option.isSome_some, iff_true]
            exact List.mem_map_of_mem (f := fun x : Str × Value => x.1) (HMap.mem_of_get hg)
        · simp [he] at h

theorem tupleOk (n : Nat) : TupleOk n n where
  from_compiles := rfl
  roundtrip := by
    intro V enc dec hc self v hv
    unfold toJsonParens at hv
    obtain ⟨arr, h1, rfl⟩ := Option.map_eq_some_iff.1 hv
    obtain ⟨js, rfl, h2, h3⟩ := putElems_spec enc self n 0 [] arr h1
    have := takeElems_of dec self n 0 arr h2 fun k j hk => hc _ _ _ (h3 k j hk)
    simp [fromJsonParens, this, List.range_eq_range']
  total := by
    intro V enc self h
    simp only [toJsonParens, Option.isSome_map]
    exact putElems_total enc self n 0 [] fun k _ hk => h k (by omega)
  refuses := by
    intro V dec v back h
    cases v with
    | object a => simp [fromJsonParens] at h
    | other s => simp [fromJsonParens] at h
    | array arr =>
      refine ⟨arr, rfl, ?_⟩
      unfold fromJsonParens at h
      simp only at h
      cases ht : takeElems dec n 0 arr with
      | none => rw [ht] at h; simp at h
      | some r =>
        obtain ⟨ret, rest⟩ := r
        rw [ht] at h
        simp only at h
        by_cases he : rest.isEmpty
        · have := takeElems_length dec n 0 arr rest ret ht
          rw [List.isEmpty_iff] at he
          subst he
          simpa using this
        · simp [he] at h

/-- The claim for brace structs: for every list of declared fields. -/
def C59_statement : Prop :=
  ∀ fields tr, FieldsOk fields →
    NamedOk (fields.map (·.name)) (scanFields true (commaSep tr (fields.map (·.toks))))

/-- A brace struct none of whose fields has a visibility or a comma among the tokens of its type (commas
inside parentheses and brackets are fine): the derived conversions compile, round-trip and refuse
missing and additional fields. -/
theorem C59_named_partial (fields : List FieldDecl) (tr : Bool) (h : FieldsOk fields)
    (hv : ∀ f ∈ fields, f.vis = [] ∧ Tok.punct ',' ∉ f.ty) :
    NamedOk (fields.map (·.name)) (scanFields true (commaSep tr (fields.map (·.toks)))) := by
  rw [scanFields_commaSep]
  · rw [show (fields.map (·.toks)).filterMap firstIdent = fields.map (·.name) from ?_]
    · exact namedOk _ h.1
    · clear h
      induction fields with
      | nil => rfl
      | cons f fields ih =>
        have hf := (hv f (List.mem_cons_self ..)).1
        have : firstIdent f.toks = some f.name := by
          unfold FieldDecl.toks
          rw [hf, List.append_nil, List.append_assoc, firstIdent_attr]
          rfl
        simp only [List.map_cons, List.filterMap_cons, this]
        rw [ih fun g hg => hv g (List.mem_cons_of_mem _ hg)]
  · intro c hc
    obtain ⟨f, hf, rfl⟩ := List.mem_map.1 hc
    obtain ⟨h1, h2⟩ := hv f hf
    unfold FieldDecl.toks
    rw [h1]
    simp only [List.append_nil, List.mem_append, not_or]
    exact ⟨⟨attr_no_comma _, by simp⟩, h2⟩

/-- A tuple struct each of whose fields has an identifier among its own tokens and no comma: the same. -/
theorem C59_tuple_partial (elems : List ElemDecl) (tr : Bool)
    (hv : ∀ e ∈ elems, IsVis e.vis ∧ Tok.punct ',' ∉ e.ty ∧ ∃ s, Tok.ident s ∈ e.vis ++ e.ty) :
    TupleOk elems.length (countFields true (commaSep tr (elems.map (·.toks)))) := by
  rw [countFields_scan, scanFields_commaSep]
  · have : ((elems.map (·.toks)).filterMap firstIdent).length = elems.length := by
      induction elems with
      | nil => rfl
      | cons e elems ih =>
        obtain ⟨-, -, s, hs⟩ := hv e (List.mem_cons_self ..)
        have hf : ∀ ts : List Tok, Tok.ident s ∈ ts → ∃ x, firstIdent ts = some x := by
          intro ts
          induction ts with
          | nil => intro h; simp at h
          | cons t ts ih =>
            intro h
            cases t with
            | ident x => exact ⟨x, rfl⟩
            | _ => exact ih (by simpa using h)
        obtain ⟨x, hx⟩ := hf _ hs
        have : firstIdent e.toks = some x := by
          unfold ElemDecl.toks
          rw [List.append_assoc, firstIdent_attr]
          exact hx
        simp only [List.map_cons, List.filterMap_cons, this, List.length_cons]
        rw [ih fun g hg => hv g (List.mem_cons_of_mem _ hg)]
    rw [this]
    exact tupleOk _
  · intro c hc
    obtain ⟨e, he, rfl⟩ := List.mem_map.1 hc
    obtain ⟨h1, h2, -⟩ := hv e he
    unfold ElemDecl.toks
    simp only [List.mem_append, not_or]
    refine ⟨⟨attr_no_comma _, ?_⟩, h2⟩
    generalize e.vis = vis at h1
    cases h1 <;> simp

/-- `struct S { pub x: u8 }`: the macro takes `pub` for the field, and nothing compiles. -/
theorem C59_pub_field : scanFields true (commaSep false
    [FieldDecl.toks ⟨[], [.ident c!"pub"], c!"x", [.ident c!"u8"]⟩]) = [c!"pub"] := by decide

/-- `struct S { m: Map<A, B> }`: the macro takes `B` for a field. -/
theorem C59_generic_comma : scanFields true (commaSep false
    [FieldDecl.toks ⟨[], [], c!"m", [.ident c!"Map", .punct '<', .ident c!"A", .punct ',', .ident c!"B",
      .punct '>']⟩]) = [c!"m", c!"B"] := by decide

/-- `struct S(u8, (u8, u8))`: the second field is silently left out of the JSON. -/
theorem C59_tuple_loses : countFields true (commaSep false
    [ElemDecl.toks ⟨[], [], [.ident c!"u8"]⟩,
     ElemDecl.toks ⟨[], [], [.group .paren [.ident c!"u8", .punct ',', .ident c!"u8"]]⟩]) = 1 ∧
    ∀ (enc : Nat → Nat → Option Value) (self : Nat → Nat) j, enc 0 (self 0) = some j →
      toJsonParens 1 enc self = some (.array [j]) := by
  refine ⟨by decide, fun enc self j h => ?_⟩
  simp [toJsonParens, putElems, h]

theorem C59_counterexample : ¬ C59_statement := by
  intro h
  have := (h [⟨[], [.ident c!"pub"], c!"x", [.ident c!"u8"]⟩] false
    ⟨by simp, by simp only [List.mem_singleton]; rintro f rfl; exact ⟨.pub, by decide⟩⟩).from_compiles
  simp only [List.map_cons, List.map_nil] at this
  rw [C59_pub_field] at this
  exact absurd ((this.2 c!"pub").1 (List.mem_singleton.2 rfl)) (by decide)

/-- `struct S { #[a] id: u64, t: (u8, u8), }` -/
example : NamedOk [c!"id", c!"t"] (scanFields true
    [.punct '#', .group .bracket [.ident c!"a"], .ident c!"id", .punct ':', .ident c!"u64", .punct ',',
     .ident c!"t", .punct ':', .group .paren [.ident c!"u8", .punct ',', .ident c!"u8"], .punct ',']) :=
  C59_named_partial
    [⟨[[.ident c!"a"]], [], c!"id", [.ident c!"u64"]⟩,
     ⟨[], [], c!"t", [.group .paren [.ident c!"u8", .punct ',', .ident c!"u8"]]⟩] true
    ⟨by decide, by simp only [List.mem_cons, List.not_mem_nil, or_false]
                   rintro f (rfl | rfl) <;> exact ⟨.priv, by decide⟩⟩
    (by simp only [List.mem_cons, List.not_mem_nil, or_false]
        rintro f (rfl | rfl) <;> simp)

/-- a conversion of that struct -/
example :
    let enc : Str → Nat → Option Value := fun _ n => some (.other (toString n).toList)
    ∃ v, toJsonBraces [c!"id", c!"t"] enc (fun f => f.length) = some v := ⟨_, rfl⟩

/-- `struct P(pub u8, [u8; 2])` does not qualify, `struct P(pub u8, pub [u8; 2])` does. -/
example : TupleOk 2 (countFields true
    [.ident c!"pub", .ident c!"u8", .punct ',', .ident c!"pub",
      .group .bracket [.ident c!"u8", .punct ';', .lit c!"2"]]) :=
  C59_tuple_partial [⟨[], [.ident c!"pub"], [.ident c!"u8"]⟩,
    ⟨[], [.ident c!"pub"], [.group .bracket [.ident c!"u8", .punct ';', .lit c!"2"]]⟩] false
    (by simp only [List.mem_cons, List.not_mem_nil, or_false]
        rintro f (rfl | rfl) <;> exact ⟨.pub, by simp, c!"pub", by simp⟩)

end Octane
