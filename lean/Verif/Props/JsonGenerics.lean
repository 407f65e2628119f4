import Verif.Spec.Json
/-
C60: the derived `impl` is for the declared type.
-/
namespace Octane
open Spec

theorem isText_punct {t : Tok} {c : Char} (h : t ≠ .punct c) (hi : ∀ s, t = .ident s → s ≠ [c]) :
    t.isText [c] = false := by
  cases t with
  | ident s => simpa [Tok.isText] using hi s rfl
  | punct d =>
    simp only [ne_eq, Tok.punct.injEq] at h
    simp [Tok.isText, h]
  | lit s => rfl
  | group d s => rfl

section
variable (name : Tok)

theorem step_lt (g w : List Tok) (l : Int) (gs : List Str) (b : Bool) (toks : List Tok)
    (hl : 1 ≤ l ∨ l = 0 ∧ b = true) :
    deriveLoop name ⟨g, w, false, l, gs, b⟩ (.punct '<' :: toks) =
      deriveLoop name ⟨g ++ [.punct '<'], w, false, l + 1, gs, b⟩ toks := by
  have hc : (DeriveState.mk g w false l gs b).count (.punct '<') = ⟨g, w, false, l + 1, gs, b⟩ := by
    rcases hl with hl | ⟨rfl, rfl⟩
    · have : ¬ l + 1 = 1 := by omega
      simp [DeriveState.count, Tok.isText, this]
    · simp [DeriveState.count, Tok.isText]
  rw [deriveLoop.eq_def]
  have : ¬ l + 1 = 0 := by omega
  simp [hc, this, DeriveState.extend]

theorem step_gt (g w : List Tok) (l : Int) (gs : List Str) (b : Bool) (toks : List Tok) :
    deriveLoop name ⟨g, w, false, l, gs, b⟩ (.punct '>' :: toks) =
      deriveLoop name ⟨g ++ [.punct '>'], w, false, l - 1, gs, b⟩ toks := by
  have hc : (DeriveState.mk g w false l gs b).count (.punct '>') = ⟨g, w, false, l - 1, gs, b⟩ := by
    by_cases h1 : l = 1 <;> cases b <;> simp [DeriveState.count, Tok.isText, h1]
  rw [deriveLoop.eq_def]
  by_cases h : l - 1 = 0 <;> simp [hc, h, DeriveState.extend, Tok.isText]

theorem step_tok (g w : List Tok) (l : Int) (gs : List Str) (b : Bool) (t : Tok) (toks : List Tok)
    (h1 : t.isText ['<'] = false) (h2 : t.isText ['>'] = false)
    (hl : 2 ≤ l ∨ l = 1 ∧ b = false ∧ t.isText [','] = false) :
    deriveLoop name ⟨g, w, false, l, gs, b⟩ (t :: toks) =
      deriveLoop name ⟨g ++ [t], w, false, l, gs, b⟩ toks := by
  have hc : (DeriveState.mk g w false l gs b).count t = ⟨g, w, false, l, gs, b⟩ := by
    rcases hl with hl | ⟨rfl, rfl, h3⟩
    · have : ¬ l = 1 := by omega
      simp [DeriveState.count, h1, h2, this]
    · simp [DeriveState.count, h1, h2, h3]
  rw [deriveLoop.eq_def]
  have : ¬ l = 0 := by omega
  simp [hc, this, DeriveState.extend]

theorem step_name (g w : List Tok) (gs : List Str) (n : Str) (toks : List Tok)
    (h1 : n ≠ ['<']) (h2 : n ≠ ['>']) :
    deriveLoop name ⟨g, w, false, 1, gs, true⟩ (.ident n :: toks) =
      deriveLoop name ⟨g ++ [.ident n], w, false, 1, gs ++ [n], false⟩ toks := by
  have hc : (DeriveState.mk g w false 1 gs true).count (.ident n) = ⟨g, w, false, 1, gs ++ [n], false⟩ := by
    simp [DeriveState.count, Tok.isText, h1, h2]
  rw [deriveLoop.eq_def]
  simp [hc, DeriveState.extend]

theorem step_comma (g w : List Tok) (gs : List Str) (toks : List Tok) :
    deriveLoop name ⟨g, w, false, 1, gs, false⟩ (.punct ',' :: toks) =
      deriveLoop name ⟨g ++ [.punct ','], w, false, 1, gs, true⟩ toks := by
  have hc : (DeriveState.mk g w false 1 gs false).count (.punct ',') = ⟨g, w, false, 1, gs, true⟩ := by
    simp [DeriveState.count, Tok.isText]
  rw [deriveLoop.eq_def]
  simp [hc, DeriveState.extend]

theorem loop_balanced (xs : List Tok) (hx : Balanced xs) (hi : RealIdents xs) :
    ∀ (g w : List Tok) (l : Int) (gs : List Str) (b : Bool) (tail : List Tok), 2 ≤ l →
      deriveLoop name ⟨g, w, false, l, gs, b⟩ (xs ++ tail) =
        deriveLoop name ⟨g ++ xs, w, false, l, gs, b⟩ tail := by
  induction hx with
  | nil => intros; simp
  | @tok t ts h1 h2 _ ih =>
    intro g w l gs b tail hl
    rw [List.cons_append, step_tok name g w l gs b t _
      (isText_punct h1 fun s hs => hi s _ (hs ▸ List.mem_cons_self ..) (by simp))
      (isText_punct h2 fun s hs => hi s _ (hs ▸ List.mem_cons_self ..) (by simp)) (.inl hl),
      ih (fun s c hs => hi s c (List.mem_cons_of_mem _ hs)) _ _ _ _ _ _ hl]
    simp
  | @angle inner ts _ _ ih1 ih2 =>
    intro g w l gs b tail hl
    have hin : RealIdents inner := fun s c hs => hi s c (by simp [hs])
    have hts : RealIdents ts := fun s c hs => hi s c (by simp [hs])
    simp only [List.cons_append, List.append_assoc]
    rw [step_lt name _ _ _ _ _ _ (.inl (by omega)), ih1 hin _ _ _ _ _ _ (by omega),
      step_gt, ih2 hts _ _ _ _ _ _ (by omega)]
    simp only [List.append_assoc, List.cons_append, List.nil_append, Int.add_sub_cancel]

theorem loop_bounds (xs : List Tok) (hx : Bounds xs) (hi : RealIdents xs) :
    ∀ (g w : List Tok) (gs : List Str) (tail : List Tok),
      deriveLoop name ⟨g, w, false, 1, gs, false⟩ (xs ++ tail) =
        deriveLoop name ⟨g ++ xs, w, false, 1, gs, false⟩ tail := by
  induction hx with
  | nil => intros; simp
  | @tok t ts h1 h2 h3 _ ih =>
    intro g w gs tail
    have hm : ∀ c, t ≠ .punct c → c ∈ ['<', '>', ','] → t.isText [c] = false := fun c hc hmem =>
      isText_punct hc fun s hs => hi s _ (hs ▸ List.mem_cons_self ..) hmem
    rw [List.cons_append, step_tok name g w 1 gs false t _ (hm _ h1 (by simp)) (hm _ h2 (by simp))
      (.inr ⟨rfl, rfl, hm _ h3 (by simp)⟩), ih (fun s c hs => hi s c (List.mem_cons_of_mem _ hs))]
    simp
  | @angle inner ts h1 _ ih2 =>
    intro g w gs tail
    have hin : RealIdents inner := fun s c hs => hi s c (by simp [hs])
    have hts : RealIdents ts := fun s c hs => hi s c (by simp [hs])
    simp only [List.cons_append, List.append_assoc]
    rw [step_lt name _ _ _ _ _ _ (.inl (by omega)), loop_balanced name _ h1 hin _ _ _ _ _ _ (by omega),
      step_gt, Int.add_sub_cancel, ih2 hts]
    simp only [List.append_assoc, List.cons_append, List.nil_append]

theorem loop_param (p : GenParam) (hk : p.kind = .type) (hb : Bounds p.bounds) (hi : RealIdents p.toks)
    (g w : List Tok) (gs : List Str) (tail : List Tok) :
    deriveLoop name ⟨g, w, false, 1, gs, true⟩ (p.toks ++ tail) =
      deriveLoop name ⟨g ++ p.toks, w, false, 1, gs ++ [p.name], false⟩ tail := by
  have ht : p.toks = .ident p.name :: p.bounds := by simp [GenParam.toks, hk]
  rw [ht] at hi ⊢
  have hn : ∀ c ∈ ['<', '>', ','], p.name ≠ [c] := fun c hc => hi p.name c (List.mem_cons_self ..) hc
  rw [List.cons_append, step_name name _ _ _ _ _ (hn _ (by simp)) (hn _ (by simp)),
    loop_bounds name _ hb (fun s c hs => hi s c (List.mem_cons_of_mem _ hs))]
  simp

theorem loop_params (tr : Bool) (ps : List GenParam) (hp : ParamsOk ps) (ht : ∀ p ∈ ps, p.kind = .type) :
    ∀ (g w : List Tok) (gs : List Str) (tail : List Tok),
      ∃ b, deriveLoop name ⟨g, w, false, 1, gs, true⟩ (paramToks tr ps ++ tail) =
        deriveLoop name ⟨g ++ paramToks tr ps, w, false, 1, gs ++ ps.map (·.name), b⟩ tail := by
  induction ps with
  | nil => intro g w gs tail; exact ⟨true, by simp [paramToks, commaSep]⟩
  | cons p ps ih =>
    intro g w gs tail
    obtain ⟨h1, h2⟩ := hp p (List.mem_cons_self ..)
    have hk := ht p (List.mem_cons_self ..)
    have hps : ParamsOk ps := fun q hq => hp q (List.mem_cons_of_mem _ hq)
    cases ps with
    | nil =>
      cases tr with
      | false =>
        refine ⟨false, ?_⟩
        simp only [paramToks, List.map_cons, List.map_nil, commaSep, Bool.false_eq_true, if_false,
          List.append_nil]
        rw [loop_param name p hk h1 h2]
      | true =>
        refine ⟨true, ?_⟩
        simp only [paramToks, List.map_cons, List.map_nil, commaSep, if_true, List.append_assoc,
          List.singleton_append]
        rw [loop_param name p hk h1 h2, step_comma]
        simp
    | cons q ps =>
      obtain ⟨b, hb⟩ := ih hps (fun q hq => ht q (List.mem_cons_of_mem _ hq))
        (g ++ p.toks ++ [.punct ',']) w (gs ++ [p.name]) tail
      refine ⟨b, ?_⟩
      have e : paramToks tr (p :: q :: ps) = p.toks ++ .punct ',' :: paramToks tr (q :: ps) := rfl
      rw [e, List.append_assoc, loop_param name p hk h1 h2, List.cons_append, step_comma, hb]
      simp

theorem loop_where (ws : List Tok) (hws : PlainWhere ws) (hi : RealIdents ws)
    (g w : List Tok) (gs : List Str) (b : Bool) (tail : List Tok) :
    deriveLoop name ⟨g, w, true, 0, gs, b⟩ (ws ++ tail) =
      deriveLoop name ⟨g, w ++ ws, true, 0, gs, b⟩ tail := by
  induction ws generalizing w with
  | nil => simp
  | cons t ws ih =>
    obtain ⟨h1, h2, h3, h4⟩ := hws
    have hm : ∀ c, t ≠ .punct c → c ∈ ['<', '>', ','] → t.isText [c] = false := fun c hc hmem =>
      isText_punct hc fun s hs => hi s _ (hs ▸ List.mem_cons_self ..) hmem
    have n1 : t ≠ .punct '<' := fun h => h2 (h ▸ List.mem_cons_self ..)
    have n2 : t ≠ .punct '>' := fun h => h3 (h ▸ List.mem_cons_self ..)
    have hc : (DeriveState.mk g w true 0 gs b).count t = ⟨g, w, true, 0, gs, b⟩ := by
      simp [DeriveState.count, hm _ n1 (by simp), hm _ n2 (by simp)]
    have hwh : t.isText c!"where" = false := by
      cases t with
      | ident s =>
        have : s ≠ c!"where" := by rintro rfl; exact h4 (List.mem_cons_self ..)
        simpa [Tok.isText] using this
      | punct c => simp [Tok.isText]
      | lit s => rfl
      | group d s => rfl
    have hstep : deriveLoop name ⟨g, w, true, 0, gs, b⟩ (t :: (ws ++ tail)) =
        deriveLoop name ⟨g, w ++ [t], true, 0, gs, b⟩ (ws ++ tail) := by
      rw [deriveLoop.eq_def]
      simp only [hc, ne_eq, not_true_eq_false, if_false, hwh, Bool.false_eq_true]
      cases t with
      | group d s =>
        cases d with
        | brace => exact absurd (List.mem_cons_self ..) (h1 s).1
        | paren => exact absurd (List.mem_cons_self ..) (h1 s).2
        | bracket => rfl
        | none => rfl
      | _ => rfl
    rw [List.cons_append, hstep, ih
      ⟨fun s => ⟨fun h => (h1 s).1 (List.mem_cons_of_mem _ h), fun h => (h1 s).2 (List.mem_cons_of_mem _ h)⟩,
        fun h => h2 (List.mem_cons_of_mem _ h), fun h => h3 (List.mem_cons_of_mem _ h),
        fun h => h4 (List.mem_cons_of_mem _ h)⟩
      (fun s c hs => hi s c (List.mem_cons_of_mem _ hs))]
    simp

theorem step_where (g w : List Tok) (gs : List Str) (b : Bool) (tail : List Tok) :
    deriveLoop name ⟨g, w, false, 0, gs, b⟩ (.ident c!"where" :: tail) =
      deriveLoop name ⟨g, w, true, 0, gs, b⟩ tail := rfl

theorem step_body (g w : List Tok) (i : Bool) (gs : List Str) (b : Bool) (body : List Tok) :
    deriveLoop name ⟨g, w, i, 0, gs, b⟩ [.group .brace body] = .braces body ⟨name, g, w, gs⟩ := rfl
end

theorem needsComma_iff (ws : List Tok) (hi : RealIdents ws) :
    whereComma ws = if needsComma ws then [Tok.punct ','] else [] := by
  induction ws with
  | nil => rfl
  | cons t ws ih =>
    cases ws with
    | nil =>
      cases t with
      | punct c =>
        by_cases hc : c = ','
        · subst hc; rfl
        · have : needsComma [.punct c] = true := by
            unfold needsComma
            split <;> simp_all
          simp [whereComma, Tok.isText, hc, this]
      | ident s =>
        have : s ≠ c!"," := hi s ',' (by simp) (by simp)
        simp [whereComma, Tok.isText, this, needsComma]
      | lit s => rfl
      | group d s => rfl
    | cons u ws =>
      have e : needsComma (t :: u :: ws) = needsComma (u :: ws) := by simp [needsComma]
      rw [e, ← ih fun s c hs => hi s c (List.mem_cons_of_mem _ hs)]
      simp [whereComma]

theorem commaSep_flatMap (f : Str → List Tok) (n : Str) (ns : List Str) :
    commaSep false ((n :: ns).map f) = f n ++ ns.flatMap fun h => .punct ',' :: f h := by
  induction ns generalizing n with
  | nil => simp [commaSep]
  | cons m ns ih =>
    simp only [List.map_cons, commaSep] at ih ⊢
    rw [ih]
    simp

/-- The claim for every struct declared with braces and a plain where clause: the macro finds the body,
and the item it generates is `impl<params> crate::Trait for Name<args> where …`. -/
def C60_statement : Prop :=
  ∀ pre name tr ps ws body, Tok.ident c!"struct" ∉ pre → ParamsOk ps →
    (∀ l, ws = some l → PlainWhere l ∧ RealIdents l) →
    ∃ info, handleDerive (structToks pre name tr ps ws body) = .braces body info ∧
      ∀ trait b, implItem trait info b =
        implToks trait name tr ps (ws.getD []) ++ [.group .brace b]

/-- It holds of structs that have type parameters only. -/
theorem C60_header_partial (pre : List Tok) (name : Str) (tr : Bool) (ps : List GenParam)
    (ws : Option (List Tok)) (body : List Tok) (hpre : Tok.ident c!"struct" ∉ pre) (hp : ParamsOk ps)
    (hws : ∀ l, ws = some l → PlainWhere l ∧ RealIdents l) (ht : ∀ p ∈ ps, p.kind = .type) :
    ∃ info, handleDerive (structToks pre name tr ps ws body) = .braces body info ∧
      ∀ trait b, implItem trait info b =
        implToks trait name tr ps (ws.getD []) ++ [.group .brace b] := by
  refine ⟨⟨.ident name, .punct '<' :: paramToks tr ps ++ [.punct '>'], ws.getD [], ps.map (·.name)⟩, ?_, ?_⟩
  · have hd : ∀ rest : List Tok, (pre ++ .ident c!"struct" :: rest).dropWhile Tok.notStruct =
        .ident c!"struct" :: rest := by
      intro rest
      induction pre with
      | nil => rfl
      | cons t pre ih =>
        have := ih fun h => hpre (List.mem_cons_of_mem _ h)
        rw [List.cons_append, List.dropWhile_cons, if_pos]
        · exact this
        · cases t with
          | ident i =>
            have : i ≠ c!"struct" := by rintro rfl; exact hpre (List.mem_cons_self ..)
            simpa [Tok.notStruct] using this
          | _ => rfl
    unfold handleDerive structToks
    simp only [List.append_assoc, List.cons_append, List.nil_append]
    rw [hd]
    simp only
    rw [step_lt _ _ _ _ _ _ _ (.inr ⟨rfl, rfl⟩)]
    obtain ⟨b, hb⟩ := loop_params (.ident name) tr ps hp ht [.punct '<'] [] []
      (.punct '>' :: ((match ws with | none => [] | some ws => Tok.ident c!"where" :: ws) ++
        [.group .brace body]))
    cases ws with
    | none =>
      simp only [List.nil_append, Int.zero_add] at hb ⊢
      rw [hb, step_gt]
      rfl
    | some l =>
      simp only [List.nil_append, Int.zero_add] at hb ⊢
      rw [hb, step_gt]
      obtain ⟨h1, h2⟩ := hws l rfl
      simp only [List.cons_append, Int.sub_self]
      rw [step_where, loop_where _ l h1 h2, step_body]
      simp
  · intro trait b
    have hty : ps.filter (fun p => p.kind = .type) = ps := by
      rw [List.filter_eq_self]
      intro p hm
      simp [ht p hm]
    have harg : ps.map GenParam.arg = (ps.map (·.name)).map fun n => [Tok.ident n] := by
      rw [List.map_map]
      apply List.map_congr_left
      intro p hm
      simp [GenParam.arg, ht p hm]
    have hri : RealIdents (ws.getD []) := by
      cases ws with
      | none => intro s c h; simp at h
      | some l => exact (hws l rfl).2
    have hnc := needsComma_iff _ hri
    unfold implItem implToks whereClause
    simp only [hty, harg]
    rw [hnc]
    cases ps with
    | nil => simp [genList, commaSep]
    | cons p ps =>
      have hb : (fun p : GenParam => boundToks trait p.name) = boundToks trait ∘ (·.name) := rfl
      rw [hb, ← List.map_map]
      simp only [List.map_cons, List.isEmpty_cons, Bool.not_false, Bool.true_and, Bool.false_eq_true,
        if_false]
      have e1 := commaSep_flatMap (fun n => [Tok.ident n]) p.name (ps.map (·.name))
      have e2 := commaSep_flatMap (boundToks trait) p.name (ps.map (·.name))
      rw [List.map_cons] at e1 e2
      rw [e1, e2]
      simp [genList, boundToks]

/-- It is false of structs with lifetimes: for `struct S<'a> { }` the item is for `S<a>`. -/
theorem C60_counterexample : ¬ C60_statement := by
  intro h
  obtain ⟨info, h1, h2⟩ := h [] c!"S" false [⟨.lifetime, c!"a", []⟩] none [] (by simp)
    (by intro p hp
        obtain rfl := List.mem_singleton.1 hp
        refine ⟨.nil, ?_⟩
        intro s c hs hc
        simp [GenParam.toks] at hs
        subst hs
        rintro h
        injection h with h
        subst h
        simp at hc) (by simp)
  have e : handleDerive (structToks [] c!"S" false [⟨.lifetime, c!"a", []⟩] none []) =
      .braces [] ⟨.ident c!"S", [.punct '<', .punct '\'', .ident c!"a", .punct '>'], [], [c!"a"]⟩ := by
    rfl
  rw [e] at h1
  injection h1 with _ h1
  have := congrArg List.length (h2 c!"T" [])
  rw [← h1] at this
  exact absurd this (by decide)

/-- Two more shapes that go wrong: `struct S<F: Fn() -> T> {}` (the `>` of the arrow is counted; the
parameter list ends early) and `struct S<T> where T: A<B, C> {}` (`C` is taken for a parameter). -/
theorem C60_arrow : handleDerive
    [.ident c!"struct", .ident c!"S", .punct '<', .ident c!"F", .punct ':', .ident c!"Fn",
      .group .paren [], .punct '-', .punct '>', .ident c!"T", .punct '>', .group .brace []] = .panic := rfl

theorem C60_where_generics : ∃ info, handleDerive
    [.ident c!"struct", .ident c!"S", .punct '<', .ident c!"T", .punct '>', .ident c!"where",
      .ident c!"T", .punct ':', .ident c!"A", .punct '<', .ident c!"B", .punct ',', .ident c!"C",
      .punct '>', .group .brace []] = .braces [] info ∧ info.generics = [c!"T", c!"C"] := ⟨_, rfl, rfl⟩

/-- `pub struct S<T: A<B, C>, U> where T: D {}` -/
example : ∃ info, handleDerive (structToks [.ident c!"pub"] c!"S" false
    [⟨.type, c!"T", [.punct ':', .ident c!"A", .punct '<', .ident c!"B", .punct ',', .ident c!"C",
      .punct '>']⟩, ⟨.type, c!"U", []⟩] (some [.ident c!"T", .punct ':', .ident c!"D"]) []) =
    .braces [] info ∧ info.generics = [c!"T", c!"U"] := ⟨_, rfl, rfl⟩

end Octane
