import Verif.Props.Macros
import Verif.Props.Json
import Verif.Props.JsonGenerics
import Verif.Props.Quoted
/-
For C57, C59, C60, C62 and C63, which do not hold of every input: exactly the inputs they hold of.
-/
namespace Octane
open Spec

/-! ## C57 -/

theorem loop_signature_le (toks : List Tok) (self : StreamParser) (acc : List Tok) :
    (self.loop acc toks).2.length ≤ acc.length + toks.length := by
  induction toks generalizing self acc with
  | nil => simp [StreamParser.loop]
  | cons t toks ih =>
    have step : ∀ u, (self.loop (acc ++ [u]) toks).2.length ≤ acc.length + (toks.length + 1) := by
      intro u
      have := ih self (acc ++ [u])
      simp only [List.length_append, List.length_singleton] at this
      omega
    cases t with
    | ident x =>
      simp only [StreamParser.loop, List.length_cons]
      split
      · have := ih { self with isAsync := true } acc
        omega
      · exact step _
    | punct c => exact step _
    | lit s => exact step _
    | group d s =>
      cases d with
      | brace => simp only [StreamParser.loop]; omega
      | paren => exact step _
      | bracket => exact step _
      | none => exact step _

/-- a stream with a brace group before the last token has a signature that is too short -/
theorem loop_signature_brace (a : List Tok) (s : List Tok) (b : List Tok) (self : StreamParser)
    (acc : List Tok) : (self.loop acc (a ++ .group .brace s :: b)).2.length ≤ acc.length + a.length := by
  induction a generalizing self acc with
  | nil => simp [StreamParser.loop]
  | cons t a ih =>
    have step : ∀ u, (self.loop (acc ++ [u]) (a ++ .group .brace s :: b)).2.length ≤
        acc.length + (a.length + 1) := by
      intro u
      have := ih self (acc ++ [u])
      simp only [List.length_append, List.length_singleton] at this
      omega
    cases t with
    | ident x =>
      simp only [StreamParser.loop, List.length_cons, List.cons_append]
      split
      · have := ih { self with isAsync := true } acc
        omega
      · exact step _
    | punct c => exact step _
    | lit s => exact step _
    | group d s =>
      cases d with
      | brace => simp only [StreamParser.loop, List.cons_append]; omega
      | paren => exact step _
      | bracket => exact step _
      | none => exact step _

theorem signature_short (pre post body : List Tok) (h : ¬ NoBrace (pre ++ post)) :
    (StreamParser.new (pre ++ [.ident c!"async"] ++ post ++ [.group .brace body])).parse.signature.length <
      pre.length + post.length := by
  have ⟨s, hs⟩ := Classical.not_forall.1 h
  have hs := Classical.not_not.1 hs
  simp only [StreamParser.parse, StreamParser.new]
  rcases List.mem_append.1 hs with hs | hs
  · obtain ⟨a, b, rfl⟩ := List.append_of_mem hs
    have := loop_signature_brace a s (b ++ [.ident c!"async"] ++ post ++ [.group .brace body])
      (StreamParser.new (a ++ Tok.group .brace s :: b ++ [.ident c!"async"] ++ post ++ [.group .brace body])) []
    simp only [StreamParser.new, List.append_assoc, List.cons_append, List.length_append, List.length_cons,
      List.length_nil, Nat.zero_add] at this ⊢
    omega
  · obtain ⟨a, b, rfl⟩ := List.append_of_mem hs
    have key : ∀ (p : List Tok) (self : StreamParser) (acc : List Tok),
        (self.loop acc (p ++ .ident c!"async" :: (a ++ Tok.group .brace s :: (b ++ [.group .brace body])))).2.length
          ≤ acc.length + p.length + a.length := by
      intro p
      induction p with
      | nil =>
        intro self acc
        simp only [List.nil_append, StreamParser.loop, if_true]
        have := loop_signature_brace a s (b ++ [.group .brace body]) { self with isAsync := true } acc
        simpa using this
      | cons t p ih =>
        intro self acc
        have step : ∀ u, (self.loop (acc ++ [u]) (p ++ .ident c!"async" ::
            (a ++ Tok.group .brace s :: (b ++ [.group .brace body])))).2.length ≤
            acc.length + (p.length + 1) + a.length := by
          intro u
          have := ih self (acc ++ [u])
          simp only [List.length_append, List.length_singleton] at this
          omega
        cases t with
        | ident x =>
          rw [List.cons_append, StreamParser.loop, List.length_cons]
          split
          · have := ih { self with isAsync := true } acc
            omega
          · exact step _
        | punct c => exact step _
        | lit s => exact step _
        | group d s =>
          cases d with
          | brace => simp only [StreamParser.loop, List.cons_append]; omega
          | paren => exact step _
          | bracket => exact step _
          | none => exact step _
    have := key pre (StreamParser.new (pre ++ [.ident c!"async"] ++ (a ++ Tok.group .brace s :: b) ++
      [.group .brace body])) []
    simp only [StreamParser.new, List.append_assoc, List.cons_append, List.nil_append, List.length_append,
      List.length_cons, List.length_nil, Nat.zero_add] at this ⊢
    omega

/-- C57 holds of exactly the async functions without a brace group in their signature; of the others
the macro loses part of the signature whatever the beginning of the body is. -/
theorem C57_main_iff (cpus : Nat) : ∃ start : List Tok, Tok.ident c!"compile_error" ∉ start ∧
    ∀ pre post body, NoAsync (pre ++ post) →
      ((expandMain cpus (pre ++ [.ident c!"async"] ++ post ++ [.group .brace body]) =
          pre ++ post ++ [.group .brace (start ++ runsBody body)] ↔ NoBrace (pre ++ post)) ∧
        (¬ NoBrace (pre ++ post) → ∀ b,
          expandMain cpus (pre ++ [.ident c!"async"] ++ post ++ [.group .brace body]) ≠ pre ++ post ++ [b])) := by
  obtain ⟨start, h1, h2⟩ := C57_main_partial cpus
  have short : ∀ pre post body b, ¬ NoBrace (pre ++ post) →
      expandMain cpus (pre ++ [.ident c!"async"] ++ post ++ [.group .brace body]) ≠ pre ++ post ++ [b] := by
    intro pre post body b hb he
    have := signature_short pre post body hb
    have he := congrArg List.length he
    simp only [expandMain, List.length_append, List.length_singleton] at he this
    omega
  refine ⟨start, h1, fun pre post body ha => ⟨⟨fun he => ?_, h2 pre post body ha⟩, fun hb b => short _ _ _ b hb⟩⟩
  exact Classical.byContradiction fun hb => short _ _ _ _ hb he

theorem C57_test_iff : ∃ start : List Tok, Tok.ident c!"compile_error" ∉ start ∧
    ∀ pre post body, NoAsync (pre ++ post) →
      ((expandTest (pre ++ [.ident c!"async"] ++ post ++ [.group .brace body]) =
          [.punct '#', .group .bracket [.ident c!"test"]] ++ pre ++ post ++
            [.group .brace (start ++ runsBody body)] ↔ NoBrace (pre ++ post)) ∧
        (¬ NoBrace (pre ++ post) → ∀ b,
          expandTest (pre ++ [.ident c!"async"] ++ post ++ [.group .brace body]) ≠
            [.punct '#', .group .bracket [.ident c!"test"]] ++ pre ++ post ++ [b])) := by
  obtain ⟨start, h1, h2⟩ := C57_test_partial
  have short : ∀ pre post body b, ¬ NoBrace (pre ++ post) →
      expandTest (pre ++ [.ident c!"async"] ++ post ++ [.group .brace body]) ≠
        [.punct '#', .group .bracket [.ident c!"test"]] ++ pre ++ post ++ [b] := by
    intro pre post body b hb he
    have := signature_short pre post body hb
    have he := congrArg List.length he
    simp only [expandTest, List.length_append, List.length_cons, List.length_nil] at he this
    omega
  refine ⟨start, h1, fun pre post body ha => ⟨⟨fun he => ?_, h2 pre post body ha⟩, fun hb b => short _ _ _ b hb⟩⟩
  exact Classical.byContradiction fun hb => short _ _ _ _ hb he

/-- a signature of each kind: `fn main()` and `fn main() -> A<{1}>` -/
example : NoBrace [.ident c!"fn", .ident c!"main", .group .paren []] ∧
    ¬ NoBrace [.ident c!"fn", .ident c!"main", .group .paren [], .punct '-', .punct '>', .ident c!"A",
      .punct '<', .group .brace [.lit c!"1"], .punct '>'] :=
  ⟨by intro s; simp, fun h => h [.lit c!"1"] (by simp)⟩

/-! ## C59 -/

/-- a comma starts a new field for the scanner, whatever came before -/
theorem scanFields_comma (b : Bool) (c rest : List Tok) :
    scanFields b (c ++ .punct ',' :: rest) = scanFields b c ++ scanFields true rest := by
  induction c generalizing b with
  | nil => cases b <;> rfl
  | cons t c ih =>
    rw [List.cons_append]
    cases t with
    | ident s => cases b <;> simp [scanFields, ih]
    | punct p => by_cases hp : p = ',' <;> simp [scanFields, ih, hp]
    | lit s => simp [scanFields, ih]
    | group d s => simp [scanFields, ih]

theorem scanFields_commaSep_all (tr : Bool) (cs : List (List Tok)) :
    scanFields true (commaSep tr cs) = cs.flatMap (scanFields true) := by
  induction cs with
  | nil => rfl
  | cons c cs ih =>
    cases cs with
    | nil =>
      cases tr with
      | false => simp [commaSep]
      | true => simp only [commaSep, if_true]; rw [scanFields_comma]; simp [scanFields]
    | cons d cs =>
      simp only [commaSep] at ih ⊢
      rw [scanFields_comma, ih]
      simp

theorem scanFields_attr (attrs : List (List Tok)) (ts : List Tok) :
    scanFields true (attrToks attrs ++ ts) = scanFields true ts := by
  induction attrs with
  | nil => rfl
  | cons a attrs ih =>
    simp only [attrToks, List.flatMap_cons, List.cons_append, List.nil_append] at ih ⊢
    simpa [scanFields] using ih

/-- The type has a comma outside parentheses and brackets that is followed by an identifier. -/
def Spec.LooseComma (ty : List Tok) : Prop := ∃ a b s, ty = a ++ .punct ',' :: b ∧ Tok.ident s ∈ b

theorem scanFields_no_ident (ts : List Tok) (h : ∀ s, Tok.ident s ∉ ts) (b : Bool) : scanFields b ts = [] := by
  induction ts generalizing b with
  | nil => rfl
  | cons t ts ih =>
    have ih := fun b => ih (fun s hs => h s (List.mem_cons_of_mem _ hs)) b
    cases t with
    | ident s => exact absurd (List.mem_cons_self ..) (h s)
    | punct p => by_cases hp : p = ',' <;> simp [scanFields, ih, hp]
    | lit s => simp [scanFields, ih]
    | group d s => simp [scanFields, ih]

theorem scanFields_ident {ts : List Tok} {s : Str} (h : Tok.ident s ∈ ts) : scanFields true ts ≠ [] := by
  induction ts with
  | nil => simp at h
  | cons t ts ih =>
    cases t with
    | ident x => simp [scanFields]
    | punct p =>
      have := ih (by simpa using h)
      by_cases hp : p = ',' <;> simpa [scanFields, hp] using this
    | lit x => simpa [scanFields] using ih (by simpa using h)
    | group d x => simpa [scanFields] using ih (by simpa using h)

theorem scanFields_false_iff (ty : List Tok) : scanFields false ty = [] ↔ ¬ LooseComma ty := by
  constructor
  · rintro h ⟨a, b, s, rfl, hs⟩
    rw [scanFields_comma, List.append_eq_nil_iff] at h
    exact scanFields_ident hs h.2
  · intro h
    induction ty with
    | nil => rfl
    | cons t ty ih =>
      have ih := ih (by rintro ⟨a, b, s, rfl, hs⟩; exact h ⟨t :: a, b, s, rfl, hs⟩)
      cases t with
      | ident s => simpa [scanFields] using ih
      | punct p =>
        by_cases hp : p = ','
        · subst hp
          simp only [scanFields, if_true]
          exact scanFields_no_ident ty (fun s hs => h ⟨[], ty, s, rfl, hs⟩) true
        · simpa [scanFields, hp] using ih
      | lit s => simpa [scanFields] using ih
      | group d s => simpa [scanFields] using ih

theorem scanFields_priv (f : FieldDecl) (h : f.vis = []) :
    scanFields true f.toks = f.name :: scanFields false f.ty := by
  unfold FieldDecl.toks
  rw [h, List.append_nil, List.append_assoc, scanFields_attr]
  simp [scanFields]

theorem scanFields_pub (f : FieldDecl) (h : IsVis f.vis) (hn : f.vis ≠ []) :
    c!"pub" ∈ scanFields true f.toks := by
  unfold FieldDecl.toks
  rw [List.append_assoc, List.append_assoc, scanFields_attr]
  generalize f.vis = v at h hn
  cases h with
  | priv => exact absurd rfl hn
  | pub => simp [scanFields]
  | pubIn g => simp [scanFields]

theorem nodup_subset_length {α : Type u} [DecidableEq α] {a b : List α} (hn : a.Nodup) (hs : ∀ x ∈ a, x ∈ b) :
    a.length ≤ b.length := by
  induction a generalizing b with
  | nil => simp
  | cons x a ih =>
    rw [List.nodup_cons] at hn
    have hx := hs x (List.mem_cons_self ..)
    have := ih (b := b.erase x) hn.2 fun y hy => by
      have hyx : y ≠ x := by rintro rfl; exact hn.1 hy
      exact (List.mem_erase_of_ne hyx).2 (hs y (List.mem_cons_of_mem _ hy))
    rw [List.length_erase_of_mem hx] at this
    have : 0 < b.length := List.length_pos_of_mem hx
    simp only [List.length_cons]
    omega

/-- C59 holds of exactly the brace structs none of whose fields has a visibility or a comma outside
brackets that is followed by an identifier. -/
theorem C59_named_iff (fields : List FieldDecl) (tr : Bool) (h : FieldsOk fields) :
    NamedOk (fields.map (·.name)) (scanFields true (commaSep tr (fields.map (·.toks)))) ↔
      ∀ f ∈ fields, f.vis = [] ∧ ¬ LooseComma f.ty := by
  rw [scanFields_commaSep_all]
  constructor
  · intro hok
    have hvis : ∀ f ∈ fields, f.vis = [] := by
      intro f hf
      refine Classical.byContradiction fun hne => ?_
      have hp := scanFields_pub f (h.2 f hf).1 hne
      have := (hok.from_compiles.2 c!"pub").1
        (List.mem_flatMap.2 ⟨f.toks, List.mem_map_of_mem hf, hp⟩)
      obtain ⟨g, hg, he⟩ := List.mem_map.1 this
      exact (h.2 g hg).2 he
    refine fun f hf => ⟨hvis f hf, ?_⟩
    rw [← scanFields_false_iff]
    have hlen := nodup_subset_length hok.from_compiles.1 fun x hx => (hok.from_compiles.2 x).1 hx
    clear hok h
    induction fields with
    | nil => simp at hf
    | cons g fields ih =>
      have hvis' : ∀ f ∈ fields, f.vis = [] := fun f hf => hvis f (List.mem_cons_of_mem _ hf)
      have hge : fields.length ≤ ((fields.map (·.toks)).flatMap (scanFields true)).length := by
        clear ih hf hlen hvis
        induction fields with
        | nil => simp
        | cons k fields ih =>
          have := ih fun f hf => hvis' f (List.mem_cons_of_mem _ hf)
          simp only [List.map_cons, List.flatMap_cons, List.length_append, List.length_cons]
          rw [scanFields_priv k (hvis' k (List.mem_cons_self ..)), List.length_cons]
          omega
      simp only [List.map_cons, List.flatMap_cons, List.length_append, List.length_cons, List.length_map] at hlen ih
      rw [scanFields_priv g (hvis g (List.mem_cons_self ..)), List.length_cons] at hlen
      rcases List.mem_cons.1 hf with rfl | hf
      · exact List.eq_nil_of_length_eq_zero (by omega)
      · exact ih hvis' hf (by omega)
  · intro hv
    rw [show (fields.map (·.toks)).flatMap (scanFields true) = fields.map (·.name) from ?_]
    · exact namedOk _ h.1
    · clear h
      induction fields with
      | nil => rfl
      | cons f fields ih =>
        obtain ⟨h1, h2⟩ := hv f (List.mem_cons_self ..)
        simp only [List.map_cons, List.flatMap_cons]
        rw [scanFields_priv f h1, (scanFields_false_iff _).2 h2, ih fun g hg => hv g (List.mem_cons_of_mem _ hg)]
        rfl

/-- the pieces of a token list between its commas -/
def Spec.commaPieces : List Tok → List (List Tok)
  | [] => [[]]
  | .punct ',' :: ts => [] :: commaPieces ts
  | t :: ts => match commaPieces ts with
    | [] => [[t]]
    | p :: ps => (t :: p) :: ps

/-- is the token an identifier? -/
def Spec.Tok.isIdent : Tok → Bool
  | .ident _ => true
  | _ => false

/-- how many of the pieces of a tuple field between its commas have an identifier -/
def Spec.slots (e : ElemDecl) : Nat :=
  ((commaPieces (e.vis ++ e.ty)).filter fun p => p.any Spec.Tok.isIdent).length

theorem commaPieces_ne (ts : List Tok) : commaPieces ts ≠ [] := by
  unfold commaPieces
  split
  · simp
  · simp
  · split <;> simp

theorem commaPieces_cons (t : Tok) (ts : List Tok) (h : t ≠ .punct ',') :
    ∃ p ps, commaPieces ts = p :: ps ∧ commaPieces (t :: ts) = (t :: p) :: ps := by
  cases hc : commaPieces ts with
  | nil => exact absurd hc (commaPieces_ne ts)
  | cons p ps =>
    refine ⟨p, ps, rfl, ?_⟩
    rw [commaPieces.eq_def]
    split
    · rename_i he; cases he
    · rename_i he; injection he with he _; exact absurd he h
    · rename_i he; injection he with he1 he2; subst he1 he2; rw [hc]

theorem countFields_pieces (ts : List Tok) :
    countFields true ts = ((commaPieces ts).filter fun p => p.any Spec.Tok.isIdent).length ∧
    countFields false ts = ((commaPieces ts).tail.filter fun p => p.any Spec.Tok.isIdent).length := by
  induction ts with
  | nil => exact ⟨rfl, rfl⟩
  | cons t ts ih =>
    by_cases h : t = .punct ','
    · subst h
      simp [countFields, commaPieces, ih.1]
    · obtain ⟨p, ps, h1, h2⟩ := commaPieces_cons t ts h
      rw [h1] at ih
      rw [h2]
      have keep : Spec.Tok.isIdent t = false →
          (((t :: p) :: ps).filter fun p => p.any Spec.Tok.isIdent).length =
            ((p :: ps).filter fun p => p.any Spec.Tok.isIdent).length := by
        intro ht
        have : (t :: p).any Spec.Tok.isIdent = p.any Spec.Tok.isIdent := by simp [ht]
        rw [List.filter_cons, List.filter_cons, this]
        split <;> rfl
      cases t with
      | ident s => simp [countFields, ih.2, Spec.Tok.isIdent]
      | punct c =>
        have : c ≠ ',' := by rintro rfl; exact h rfl
        rw [keep rfl]
        simpa only [countFields, this, if_false, List.tail_cons] using ih
      | lit s => rw [keep rfl]; simpa only [countFields, List.tail_cons] using ih
      | group d s => rw [keep rfl]; simpa only [countFields, List.tail_cons] using ih

/-- C59 holds of exactly the tuple structs whose fields have, together, as many pieces with an
identifier as there are fields. -/
theorem C59_tuple_iff (elems : List ElemDecl) (tr : Bool) :
    TupleOk elems.length (countFields true (commaSep tr (elems.map (·.toks)))) ↔
      (elems.map slots).sum = elems.length := by
  have key : countFields true (commaSep tr (elems.map (·.toks))) = (elems.map slots).sum := by
    rw [countFields_scan, scanFields_commaSep_all]
    induction elems with
    | nil => rfl
    | cons e elems ih =>
      simp only [List.map_cons, List.flatMap_cons, List.length_append, List.sum_cons]
      rw [ih]
      congr 1
      unfold ElemDecl.toks slots
      rw [List.append_assoc, scanFields_attr, ← countFields_scan]
      exact (countFields_pieces _).1
  rw [key]
  constructor
  · intro h; exact h.from_compiles
  · intro h; rw [h]; exact tupleOk _

/-- `struct S { m: Map<A, 3>, t: [u8; 4] }` works, `Map<A, B>` does not. -/
example : (¬ LooseComma [.ident c!"Map", .punct '<', .ident c!"A", .punct ',', .lit c!"3", .punct '>']) ∧
    LooseComma [.ident c!"Map", .punct '<', .ident c!"A", .punct ',', .ident c!"B", .punct '>'] :=
  ⟨by rw [← scanFields_false_iff]; decide,
   ⟨[.ident c!"Map", .punct '<', .ident c!"A"], [.ident c!"B", .punct '>'], c!"B", rfl, by simp⟩⟩

/-- `(A, B)` is no field to the scanner and `M<A, B>` is two, so that a struct of both works. -/
example : slots ⟨[], [], [.group .paren [.ident c!"A", .punct ',', .ident c!"B"]]⟩ = 0 ∧
    slots ⟨[], [], [.ident c!"M", .punct '<', .ident c!"A", .punct ',', .ident c!"B", .punct '>']⟩ = 2 := by
  decide

/-! ## C60 -/

/-- what the scanner takes for the name of a parameter -/
def seenName (p : GenParam) : Str :=
  match p.kind with
  | .const => c!"const"
  | _ => p.name

section
variable (name : Tok)

theorem step_quote (g w : List Tok) (gs : List Str) (toks : List Tok) :
    deriveLoop name ⟨g, w, false, 1, gs, true⟩ (.punct '\'' :: toks) =
      deriveLoop name ⟨g ++ [.punct '\''], w, false, 1, gs, true⟩ toks := by
  have hc : (DeriveState.mk g w false 1 gs true).count (.punct '\'') = ⟨g, w, false, 1, gs, true⟩ := by
    simp [DeriveState.count, Tok.isText]
  rw [deriveLoop.eq_def]
  simp [hc, DeriveState.extend]

theorem loop_param_any (p : GenParam) (hb : Bounds p.bounds) (hi : RealIdents p.toks)
    (g w : List Tok) (gs : List Str) (tail : List Tok) :
    deriveLoop name ⟨g, w, false, 1, gs, true⟩ (p.toks ++ tail) =
      deriveLoop name ⟨g ++ p.toks, w, false, 1, gs ++ [seenName p], false⟩ tail := by
  cases hk : p.kind with
  | type =>
    have : seenName p = p.name := by simp [seenName, hk]
    rw [this]
    exact loop_param name p hk hb hi g w gs tail
  | lifetime =>
    have ht : p.toks = .punct '\'' :: .ident p.name :: p.bounds := by simp [GenParam.toks, hk]
    have hs : seenName p = p.name := by simp [seenName, hk]
    rw [ht] at hi ⊢
    have hn : ∀ c ∈ ['<', '>', ','], p.name ≠ [c] := fun c hc => hi p.name c (by simp) hc
    rw [List.cons_append, List.cons_append, step_quote,
      step_name name _ _ _ _ _ (hn _ (by simp)) (hn _ (by simp)),
      loop_bounds name _ hb (fun s c h => hi s c (by simp [h])), hs]
    simp
  | const =>
    have ht : p.toks = .ident c!"const" :: .ident p.name :: p.bounds := by simp [GenParam.toks, hk]
    have hs : seenName p = c!"const" := by simp [seenName, hk]
    rw [ht] at hi ⊢
    rw [List.cons_append, step_name name _ _ _ _ _ (by decide) (by decide),
      loop_bounds name (.ident p.name :: p.bounds) (.tok (by simp) (by simp) (by simp) hb)
        (fun s c h => hi s c (List.mem_cons_of_mem _ h)), hs]
    simp

theorem loop_params_any (tr : Bool) (ps : List GenParam) (hp : ParamsOk ps) :
    ∀ (g w : List Tok) (gs : List Str) (tail : List Tok),
      ∃ b, deriveLoop name ⟨g, w, false, 1, gs, true⟩ (paramToks tr ps ++ tail) =
        deriveLoop name ⟨g ++ paramToks tr ps, w, false, 1, gs ++ ps.map seenName, b⟩ tail := by
  induction ps with
  | nil => intro g w gs tail; exact ⟨true, by simp [paramToks, commaSep]⟩
  | cons p ps ih =>
    intro g w gs tail
    obtain ⟨h1, h2⟩ := hp p (List.mem_cons_self ..)
    have hps : ParamsOk ps := fun q hq => hp q (List.mem_cons_of_mem _ hq)
    cases ps with
    | nil =>
      cases tr with
      | false =>
        refine ⟨false, ?_⟩
        simp only [paramToks, List.map_cons, List.map_nil, commaSep, Bool.false_eq_true, if_false,
          List.append_nil]
        rw [loop_param_any name p h1 h2]
      | true =>
        refine ⟨true, ?_⟩
        simp only [paramToks, List.map_cons, List.map_nil, commaSep, if_true, List.append_assoc,
          List.singleton_append]
        rw [loop_param_any name p h1 h2, step_comma]
        simp
    | cons q ps =>
      obtain ⟨b, hb⟩ := ih hps (g ++ p.toks ++ [.punct ',']) w (gs ++ [seenName p]) tail
      refine ⟨b, ?_⟩
      have e : paramToks tr (p :: q :: ps) = p.toks ++ .punct ',' :: paramToks tr (q :: ps) := rfl
      rw [e, List.append_assoc, loop_param_any name p h1 h2, List.cons_append, step_comma, hb]
      simp
end

theorem handleDerive_any (pre : List Tok) (name : Str) (tr : Bool) (ps : List GenParam)
    (ws : Option (List Tok)) (body : List Tok) (hpre : Tok.ident c!"struct" ∉ pre) (hp : ParamsOk ps)
    (hws : ∀ l, ws = some l → PlainWhere l ∧ RealIdents l) :
    handleDerive (structToks pre name tr ps ws body) =
      .braces body ⟨.ident name, .punct '<' :: paramToks tr ps ++ [.punct '>'], ws.getD [], ps.map seenName⟩ := by
  have hd : ∀ rest : List Tok, (pre ++ .ident c!"struct" :: rest).dropWhile Tok.notStruct =
      .ident c!"struct" :: rest := by
    intro rest
    induction pre with
    | nil => rfl
    | cons t pre ih =>
      have := ih fun h => hpre (List.mem_cons_of_mem _ h)
      rw [List.cons_append, List.dropWhile_cons, if_pos]
      · exact this
      · cases t with
        | ident i =>
          have : i ≠ c!"struct" := by rintro rfl; exact hpre (List.mem_cons_self ..)
          simpa [Tok.notStruct] using this
        | _ => rfl
  unfold handleDerive structToks
  simp only [List.append_assoc, List.cons_append, List.nil_append]
  rw [hd]
  simp only
  rw [step_lt _ _ _ _ _ _ _ (.inr ⟨rfl, rfl⟩)]
  obtain ⟨b, hb⟩ := loop_params_any (.ident name) tr ps hp [.punct '<'] [] []
    (.punct '>' :: ((match ws with | none => [] | some ws => Tok.ident c!"where" :: ws) ++
      [.group .brace body]))
  cases ws with
  | none =>
    simp only [List.nil_append, Int.zero_add] at hb ⊢
    rw [hb, step_gt]
    rfl
  | some l =>
    simp only [List.nil_append, Int.zero_add] at hb ⊢
    rw [hb, step_gt]
    obtain ⟨h1, h2⟩ := hws l rfl
    simp only [List.cons_append, Int.sub_self]
    rw [step_where, loop_where _ l h1 h2, step_body]
    simp

/-- the arguments the code writes are those declared only if every parameter is a type -/
theorem args_types (ps : List GenParam) (hc : ∀ p ∈ ps, p.kind = .const → p.name ≠ c!"const")
    (x y : List Tok)
    (h : ps.flatMap (fun p => [.punct ',', .ident (seenName p)]) ++ x =
      ps.flatMap (fun p => .punct ',' :: p.arg) ++ y) : ∀ p ∈ ps, p.kind = .type := by
  induction ps with
  | nil => simp
  | cons q ps ih =>
    have hq : q.kind = .type := by
      cases hk : q.kind with
      | type => rfl
      | lifetime => simp [GenParam.arg, hk] at h
      | const =>
        simp only [List.flatMap_cons, GenParam.arg, hk, seenName, List.cons_append, List.nil_append,
          List.cons.injEq, Tok.ident.injEq, true_and] at h
        exact absurd h.1.symm (hc q (List.mem_cons_self ..) hk)
    intro p hm
    rcases List.mem_cons.1 hm with rfl | hm
    · exact hq
    · refine ih (fun p hp => hc p (List.mem_cons_of_mem _ hp)) ?_ p hm
      simpa [GenParam.arg, hq, seenName] using h

theorem args_types' (p : GenParam) (ps : List GenParam)
    (hc : ∀ q ∈ p :: ps, q.kind = .const → q.name ≠ c!"const") (x y : List Tok)
    (h : .ident (seenName p) :: ((ps.map seenName).flatMap (fun h => [.punct ',', .ident h]) ++ x) =
      p.arg ++ ps.flatMap (fun h => .punct ',' :: h.arg) ++ y) : ∀ q ∈ p :: ps, q.kind = .type := by
  refine args_types (p :: ps) hc x y ?_
  simpa [List.flatMap_map] using h

theorem commaSep_cons {α : Type u} (f : α → List Tok) (n : α) (ns : List α) :
    commaSep false ((n :: ns).map f) = f n ++ ns.flatMap fun h => .punct ',' :: f h := by
  induction ns generalizing n with
  | nil => simp [commaSep]
  | cons m ns ih =>
    simp only [List.map_cons, commaSep] at ih ⊢
    rw [ih]
    simp

/-- C60 holds of exactly the structs that have type parameters only (`const` is no name of a
parameter). -/
theorem C60_iff (pre : List Tok) (name : Str) (tr : Bool) (ps : List GenParam)
    (ws : Option (List Tok)) (body : List Tok) (hpre : Tok.ident c!"struct" ∉ pre) (hp : ParamsOk ps)
    (hws : ∀ l, ws = some l → PlainWhere l ∧ RealIdents l)
    (hc : ∀ p ∈ ps, p.kind = .const → p.name ≠ c!"const") :
    (∃ info, handleDerive (structToks pre name tr ps ws body) = .braces body info ∧
      ∀ trait b, implItem trait info b =
        implToks trait name tr ps (ws.getD []) ++ [.group .brace b]) ↔ ∀ p ∈ ps, p.kind = .type := by
  refine ⟨?_, C60_header_partial pre name tr ps ws body hpre hp hws⟩
  rintro ⟨info, h1, h2⟩
  rw [handleDerive_any pre name tr ps ws body hpre hp hws] at h1
  injection h1 with _ h1
  subst h1
  have h := h2 [] []
  cases ps with
  | nil => simp
  | cons p ps =>
    unfold implItem implToks at h
    simp only [List.map_cons, genList, List.isEmpty_cons, Bool.false_eq_true, if_false, List.append_assoc,
      List.cons_append, List.nil_append, List.cons.injEq, true_and] at h
    have h := List.append_cancel_left h
    simp only [List.cons.injEq, true_and] at h
    have e := commaSep_cons GenParam.arg p ps
    rw [List.map_cons] at e
    rw [e] at h
    exact args_types' p ps hc _ _ h

/-- `struct S<T: A, U>` is of the first kind, `struct S<'a, const N: usize>` is not. -/
example : (∀ p ∈ [GenParam.mk .type c!"T" [.punct ':', .ident c!"A"], ⟨.type, c!"U", []⟩], p.kind = .type) ∧
    ∀ info, handleDerive (structToks [] c!"S" false
      [⟨.lifetime, c!"a", []⟩, ⟨.const, c!"N", [.punct ':', .ident c!"usize"]⟩] none []) = .braces [] info →
      info.generics = [c!"a", c!"const"] := by
  refine ⟨by simp, ?_⟩
  intro info h
  have e : handleDerive (structToks [] c!"S" false
      [⟨.lifetime, c!"a", []⟩, ⟨.const, c!"N", [.punct ':', .ident c!"usize"]⟩] none []) =
    .braces [] ⟨.ident c!"S", [.punct '<', .punct '\'', .ident c!"a", .punct ',', .ident c!"const",
      .ident c!"N", .punct ':', .ident c!"usize", .punct '>'], [], [c!"a", c!"const"]⟩ := rfl
  rw [e] at h
  injection h with _ h
  rw [← h]

/-! ## C62 -/

/-- a character `{:?}` writes as itself or behind a backslash -/
def Spec.PrintedAsItself (U : Unicode) (c : Char) : Prop :=
  ¬ isControl c ∧ (isAscii c = true ∨ U.escaped c = false)

theorem hexNumeral_hex {ds : Str} {n : Nat} (h : HexNumeral ds n) : ∀ c ∈ ds, ∃ m, HexDigit c m := by
  induction h with
  | one hd => intro c hc; rw [List.mem_singleton.1 hc]; exact ⟨_, hd⟩
  | snoc _ hd ih =>
    intro c hc
    rcases List.mem_append.1 hc with h | h
    · exact ih c h
    · rw [List.mem_singleton.1 h]; exact ⟨_, hd⟩

/-- what a client reads for one character -/
theorem debugChar_http (U : Unicode) (c : Char) (t s : Str) (h : HttpQuoted t s) :
    ∃ r, HttpQuoted (U.debugChar c ++ t) (r ++ s) ∧ (PrintedAsItself U c → r = [c]) ∧
      (¬ PrintedAsItself U c → 1 < r.length ∨ ∃ d, d ≠ c ∧ r = [d]) := by
  by_cases hp : PrintedAsItself U c
  · refine ⟨[c], ?_, fun _ => rfl, fun h => absurd hp h⟩
    by_cases e : c = '\\'
    · subst e; exact .pair (.inl hp.1) h
    by_cases e' : c = '"'
    · subst e'; exact .pair (.inl hp.1) h
    rw [debugChar_plain U c hp.1 hp.2 e e']
    exact .text e' e (.inl hp.1) h
  · unfold Unicode.debugChar
    split
    · subst_vars; exact ⟨['0'], .pair (by decide) h, fun h => absurd h hp, fun _ => .inr ⟨_, by decide, rfl⟩⟩
    split
    · subst_vars; exact ⟨['t'], .pair (by decide) h, fun h => absurd h hp, fun _ => .inr ⟨_, by decide, rfl⟩⟩
    split
    · subst_vars; exact ⟨['r'], .pair (by decide) h, fun h => absurd h hp, fun _ => .inr ⟨_, by decide, rfl⟩⟩
    split
    · subst_vars; exact ⟨['n'], .pair (by decide) h, fun h => absurd h hp, fun _ => .inr ⟨_, by decide, rfl⟩⟩
    split
    · subst_vars; exact absurd ⟨by decide, .inl (by decide)⟩ hp
    split
    · subst_vars; exact absurd ⟨by decide, .inl (by decide)⟩ hp
    split
    · refine ⟨c!"u{" ++ hexDigits c.toNat ++ c!"}", ?_, fun h => absurd h hp, fun _ => .inl (by simp)⟩
      have plain : ∀ ds : Str, (∀ d ∈ ds, d ≠ '"' ∧ d ≠ '\\' ∧ ¬ isControl d) → ∀ t s, HttpQuoted t s →
          HttpQuoted (ds ++ t) (ds ++ s) := by
        intro ds
        induction ds with
        | nil => intro _ t s h; exact h
        | cons d ds ih =>
          intro hd t s h
          obtain ⟨h1, h2, h3⟩ := hd d (List.mem_cons_self ..)
          exact .text h1 h2 (.inl h3) (ih (fun e he => hd e (List.mem_cons_of_mem _ he)) t s h)
      have hh : ∀ d ∈ c!"{" ++ hexDigits c.toNat ++ c!"}", d ≠ '"' ∧ d ≠ '\\' ∧ ¬ isControl d := by
        intro d hd
        simp only [List.mem_append] at hd
        rcases hd with (hd | hd) | hd
        · rw [List.mem_singleton.1 hd]; decide
        · obtain ⟨n, hn⟩ := hexNumeral_hex (hexDigits_numeral c.toNat) d hd
          refine ⟨?_, ?_, hexNumeral_digits (hexDigits_numeral _) d hd⟩
          · rintro rfl; exact absurd hn (by unfold HexDigit; simp [Char.le_def])
          · rintro rfl; exact absurd hn (by unfold HexDigit; simp [Char.le_def])
        · rw [List.mem_singleton.1 hd]; decide
      have := HttpQuoted.pair (c := 'u') (by decide) (plain _ hh t s h)
      simpa using this
    · rename_i h0 h1 h2 h3 h4 h5 h6
      refine absurd ⟨?_, ?_⟩ hp
      · unfold isControl
        simp only [Bool.or_eq_true, decide_eq_true_eq, beq_iff_eq, not_or] at h6
        omega
      · cases ha : isAscii c with
        | true => exact .inl rfl
        | false => right; simpa [ha] using (by simpa [ha] using h6 : _ ∧ _).2

theorem debug_http (U : Unicode) (name : Str) :
    ∃ s, HttpQuoted (name.flatMap U.debugChar) s ∧ name.length ≤ s.length ∧
      (s = name → ∀ c ∈ name, PrintedAsItself U c) := by
  induction name with
  | nil => exact ⟨[], .nil, by simp, by simp⟩
  | cons c name ih =>
    obtain ⟨s, h1, h2, h3⟩ := ih
    obtain ⟨r, h4, h5, h6⟩ := debugChar_http U c _ _ h1
    refine ⟨r ++ s, h4, ?_, fun he => ?_⟩
    · by_cases hp : PrintedAsItself U c
      · rw [h5 hp]; simpa using h2
      · rcases h6 hp with h | ⟨d, -, rfl⟩
        · simp; omega
        · simpa using h2
    · by_cases hp : PrintedAsItself U c
      · rw [h5 hp] at he
        simp only [List.singleton_append, List.cons.injEq, true_and] at he
        intro d hd
        rcases List.mem_cons.1 hd with rfl | hd
        · exact hp
        · exact h3 he d hd
      · exfalso
        rcases h6 hp with h | ⟨d, hd, rfl⟩
        · have := congrArg List.length he
          simp at this
          omega
        · simp only [List.singleton_append, List.cons.injEq] at he
          exact hd he.1

/-- C62 holds of exactly the names without control characters and without the non-ASCII characters
that `{:?}` escapes. -/
theorem C62_iff (U : Unicode) (r : Response) (name : Str) :
    (∃ v, (r.attachmentWithFilename U name).get c!"Content-Disposition" = some v ∧ FilenameParam v name) ↔
      ∀ c ∈ name, ¬ isControl c ∧ (isAscii c = true ∨ U.escaped c = false) := by
  constructor
  · rintro ⟨v, hv, t, rfl, hq⟩
    rw [attachment_value] at hv
    injection hv with hv
    have : name.flatMap U.debugChar = t := by
      have h : c!"attachment; filename = \"" ++ (name.flatMap U.debugChar ++ ['"']) =
          c!"attachment; filename = \"" ++ (t ++ ['"']) := by
        simpa [Unicode.debug] using hv
      exact List.append_cancel_right (List.append_cancel_left h)
    subst this
    obtain ⟨s, h1, -, h3⟩ := debug_http U name
    exact h3 (httpQuoted_unique h1 hq)
  · intro h
    obtain ⟨v, h1, h2⟩ := C62_read_back_partial U r name (fun c hc => (h c hc).1) (fun c hc => (h c hc).2)
    exact ⟨v, h1, (h2 name).2 rfl⟩

example : (∀ c ∈ c!"my \"x\".png", ¬ isControl c ∧ (isAscii c = true ∨ Unicode.asciiOnly.escaped c = false)) ∧
    ¬ ∀ c ∈ c!"a\tb", ¬ isControl c ∧ (isAscii c = true ∨ Unicode.asciiOnly.escaped c = false) := by decide

/-! ## C63 -/

theorem rustQuoted_raw {t s : Str} (h : RustQuoted t s) :
    s.length ≤ (t.filter (· != '"')).length ∧ (t.filter (· != '"') = s → '\\' ∉ t) := by
  induction h with
  | nil => simp
  | @text c t s h1 h2 _ _ ih =>
    have e : (c :: t).filter (· != '"') = c :: t.filter (· != '"') := by
      rw [List.filter_cons, if_pos (by simpa using h1)]
    rw [e]
    refine ⟨by simpa using ih.1, fun he => ?_⟩
    simp only [List.cons.injEq, true_and] at he
    simp [ih.2 he, Ne.symm h2]
  | @escape k c t s hk _ ih =>
    have e : ('\\' :: k :: t).filter (· != '"') = '\\' :: (k :: t).filter (· != '"') := rfl
    rw [e]
    by_cases hq : k = '"'
    · subst hq
      have hc : c = '"' := by simpa using hk
      subst hc
      have e2 : ('"' :: t).filter (· != '"') = t.filter (· != '"') := rfl
      rw [e2]
      exact ⟨by simpa using ih.1, fun he => by injection he with he; exact absurd he (by decide)⟩
    · rw [List.filter_cons, if_pos (by simpa using hq)]
      refine ⟨by simp; omega, fun he => ?_⟩
      have := congrArg List.length he
      simp at this
      omega
  | @unicode ds n t s _ _ _ _ ih =>
    have hl : s.length + 2 ≤ (('\\' :: 'u' :: '{' :: ds ++ '}' :: t).filter (· != '"')).length := by
      simp only [List.cons_append, List.filter_cons, List.filter_append]
      simp
      omega
    refine ⟨by simp only [List.length_cons]; omega, fun he => ?_⟩
    have := congrArg List.length he
    simp only [List.length_cons] at this
    omega

/-- C63 holds, for every directory and file system, of exactly the literals without escapes. -/
theorem C63_iff (U : Unicode) (lit s : Str) (h : RustLiteral lit s) :
    (∀ (dir : Str) (ex : Str → Bool),
      (ex (dir ++ s) = true →
        ∃ out, expandPath U (some dir) ex [.lit lit] = .ok [.lit out] ∧ RustLiteral out (dir ++ s)) ∧
      (ex (dir ++ s) = false → expandPath U (some dir) ex [.lit lit] = .panic)) ↔ '\\' ∉ lit := by
  constructor
  · intro hall hb
    obtain ⟨t, rfl, hq⟩ := h
    have hraw := (rustQuoted_raw hq).2
    have e : ('"' :: t ++ ['"']).filter (· != '"') = t.filter (· != '"') := by simp
    have hne : t.filter (· != '"') ≠ s := fun he => hraw he (by simpa using hb)
    obtain ⟨out, ho, -⟩ := (hall [] fun p => decide (p = s)).1 (by simp)
    simp only [expandPath, List.head?_cons, e, List.nil_append, hne, decide_false] at ho
    cases ho
  · intro hb dir ex
    obtain ⟨h1, h2⟩ := C63_expands_partial U dir ex lit s [] h hb
    refine ⟨fun hx => ?_, h2⟩
    obtain ⟨out, h3, h4⟩ := h1 hx
    exact ⟨out, h3, (h4 _).2 rfl⟩

/-- `"a\"b"`, of the second kind: as long without its quotes as the string it denotes -/
example : RustLiteral c!"\"a\\\"b\"" c!"a\"b" ∧ '\\' ∈ c!"\"a\\\"b\"" :=
  ⟨⟨c!"a\\\"b", rfl, .text (by decide) (by decide) (by decide) (.escape (by decide)
    (.text (by decide) (by decide) (by decide) .nil))⟩, by decide⟩

end Octane
