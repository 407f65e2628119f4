import Verif.Model.Macros
/-
C57: `#[octane::main]` and `#[octane::test]` keep the function.

A function item is `sig { body }`: its last token is the brace group of its body. The keyword `async`,
if any, is one of the tokens of `sig`.
-/
namespace Octane

/-- `sig` has no brace group among its own tokens (those inside parentheses and brackets are fine) -/
def Spec.NoBrace (sig : List Tok) : Prop := ∀ s, Tok.group .brace s ∉ sig

/-- the keyword `async` is none of the tokens -/
def Spec.NoAsync (sig : List Tok) : Prop := Tok.ident c!"async" ∉ sig

/-- `runtime.block_on(async { body })` -/
def Spec.runsBody (body : List Tok) : List Tok :=
  [.ident c!"runtime", .punct '.', .ident c!"block_on",
    .group .paren [.ident c!"async", .group .brace body]]

/-- `compile_error!("…");` -/
def Spec.reportsError : List Tok :=
  [.ident c!"compile_error", .punct '!', .group .paren
    [.lit c!"\"the async keyword is missing from function declaration\""], .punct ';']

open Spec

theorem parser_loop_sig (self : StreamParser) (acc sig tail : List Tok) (h1 : NoBrace sig)
    (h2 : NoAsync sig) : self.loop acc (sig ++ tail) = self.loop (acc ++ sig) tail := by
  induction sig generalizing acc with
  | nil => simp
  | cons t sig ih =>
    have h1' : NoBrace sig := fun s hs => h1 s (List.mem_cons_of_mem _ hs)
    have h2' : NoAsync sig := fun hs => h2 (List.mem_cons_of_mem _ hs)
    rw [List.cons_append]
    have ht : self.loop acc (t :: (sig ++ tail)) = self.loop (acc ++ [t]) (sig ++ tail) := by
      cases t with
      | ident x =>
        have : x ≠ c!"async" := by rintro rfl; exact h2 (List.mem_cons_self ..)
        simp [StreamParser.loop, this]
      | punct c => rfl
      | lit s => rfl
      | group d s =>
        cases d with
        | brace => exact absurd (List.mem_cons_self ..) (h1 s)
        | _ => rfl
    rw [ht, ih _ h1' h2', List.append_assoc, List.singleton_append]

theorem parser_async (pre post body after : List Tok) (h1 : NoBrace (pre ++ post))
    (h2 : NoAsync (pre ++ post)) :
    let p := (StreamParser.new (pre ++ [.ident c!"async"] ++ post ++ [.group .brace body] ++ after)).parse
    p.signature = pre ++ post ∧ p.rest = body ∧ p.isAsync = true := by
  have h1a : NoBrace pre := fun s hs => h1 s (List.mem_append_left _ hs)
  have h1b : NoBrace post := fun s hs => h1 s (List.mem_append_right _ hs)
  have h2a : NoAsync pre := fun hs => h2 (List.mem_append_left _ hs)
  have h2b : NoAsync post := fun hs => h2 (List.mem_append_right _ hs)
  simp only [StreamParser.parse, StreamParser.new, List.append_assoc]
  rw [parser_loop_sig _ _ _ _ h1a h2a]
  simp only [List.nil_append, List.singleton_append]
  rw [show ∀ (self : StreamParser) acc toks, self.loop acc (.ident c!"async" :: toks) =
    ({ self with isAsync := true } : StreamParser).loop acc toks from fun _ _ _ => rfl,
    parser_loop_sig _ _ _ _ h1b h2b]
  exact ⟨rfl, rfl, rfl⟩

theorem parser_not_async (sig : List Tok) (h1 : NoBrace sig) (h2 : NoAsync sig) :
    (∀ body after, let p := (StreamParser.new (sig ++ .group .brace body :: after)).parse;
      p.signature = sig ∧ p.rest = body ∧ p.isAsync = false) ∧
    (let p := (StreamParser.new sig).parse;
      p.signature = sig ∧ p.rest = [] ∧ p.isAsync = false) := by
  constructor
  · intro body after
    simp only [StreamParser.parse, StreamParser.new]
    rw [parser_loop_sig _ _ _ _ h1 h2]
    exact ⟨rfl, rfl, rfl⟩
  · have := parser_loop_sig (StreamParser.new sig) [] sig [] h1 h2
    simp only [StreamParser.parse, StreamParser.new] at *
    rw [List.append_nil] at this
    rw [this]
    exact ⟨rfl, rfl, rfl⟩

/-- The claim for every async function `pre async post { body }`: there is a fixed beginning, without an
error, such that the function becomes `pre post { beginning; runtime.block_on(async { body }) }`. -/
def C57_statement : Prop :=
  ∀ cpus, ∃ start : List Tok, Tok.ident c!"compile_error" ∉ start ∧
    ∀ pre post body, NoAsync (pre ++ post) →
      expandMain cpus (pre ++ [.ident c!"async"] ++ post ++ [.group .brace body]) =
        pre ++ post ++ [.group .brace (start ++ runsBody body)]

/-- `#[octane::main]` on an async function whose signature has no braces of its own: attributes,
visibility, name, parameters, return type and body are unchanged, `async` is gone. -/
theorem C57_main_partial (cpus : Nat) : ∃ start : List Tok, Tok.ident c!"compile_error" ∉ start ∧
    ∀ pre post body, NoAsync (pre ++ post) → NoBrace (pre ++ post) →
      expandMain cpus (pre ++ [.ident c!"async"] ++ post ++ [.group .brace body]) =
        pre ++ post ++ [.group .brace (start ++ runsBody body)] := by
  refine ⟨?start, ?h, fun pre post body h2 h1 => ?_⟩
  case start =>
    exact newBuilder c!"new_multi_thread" ++ [.ident c!"builder"]
        ++ call c!"enable_io" [] ++ call c!"thread_stack_size" [.lit c!"10485760"]
        ++ call c!"thread_name" [.lit c!"\"octane-main\""] ++ call c!"worker_threads" [usizeLit (cpus * 2)]
        ++ [.punct ';'] ++ ([.ident c!"let", .ident c!"mut", .ident c!"runtime", .punct '=',
          .ident c!"builder"] ++ call c!"build" []
        ++ call c!"expect" [.lit c!"\"Unable to build tokio runtime\""] ++ [.punct ';'])
  case h => simp [newBuilder, call]
  have := parser_async pre post body [] h1 h2
  rw [List.append_nil] at this
  obtain ⟨e1, e2, e3⟩ := this
  simp only [expandMain, e1, e2, e3, compileErrorToks, if_true]
  simp only [blockOn, runsBody, call, List.append_assoc, List.nil_append, List.cons_append]

/-- The same for `#[octane::test]`, which also puts `#[test]` in front. -/
theorem C57_test_partial : ∃ start : List Tok, Tok.ident c!"compile_error" ∉ start ∧
    ∀ pre post body, NoAsync (pre ++ post) → NoBrace (pre ++ post) →
      expandTest (pre ++ [.ident c!"async"] ++ post ++ [.group .brace body]) =
        [.punct '#', .group .bracket [.ident c!"test"]] ++ pre ++ post ++
          [.group .brace (start ++ runsBody body)] := by
  refine ⟨?start, ?h, fun pre post body h2 h1 => ?_⟩
  case start =>
    exact newBuilder c!"new_current_thread" ++ [.ident c!"builder"]
        ++ call c!"enable_io" [] ++ call c!"thread_name" [.lit c!"\"octane-test\""]
        ++ [.punct ';'] ++ ([.ident c!"let", .ident c!"mut", .ident c!"runtime", .punct '=',
          .ident c!"builder"] ++ call c!"build" []
        ++ call c!"expect" [.lit c!"\"Unable to build tokio runtime\""] ++ [.punct ';'])
  case h => simp [newBuilder, call]
  have := parser_async pre post body [] h1 h2
  rw [List.append_nil] at this
  obtain ⟨e1, e2, e3⟩ := this
  simp only [expandTest, e1, e2, e3, compileErrorToks, if_true]
  simp only [blockOn, runsBody, call, List.append_assoc, List.nil_append, List.cons_append]

/-- A function without `async` is refused: its body begins with a `compile_error!`. -/
theorem C57_refused (cpus : Nat) (sig body : List Tok) (h1 : NoBrace sig) (h2 : NoAsync sig) :
    (∃ rest, expandMain cpus (sig ++ [.group .brace body]) = sig ++ [.group .brace (reportsError ++ rest)]) ∧
    (∃ rest, expandTest (sig ++ [.group .brace body]) =
      [.punct '#', .group .bracket [.ident c!"test"]] ++ sig ++ [.group .brace (reportsError ++ rest)]) := by
  have := (parser_not_async sig h1 h2).1 body []
  constructor
  · simp only [expandMain, this.1, this.2.2, compileErrorToks, Bool.false_eq_true, if_false,
      List.append_assoc]
    exact ⟨_, rfl⟩
  · simp only [expandTest, this.1, this.2.2, compileErrorToks, Bool.false_eq_true, if_false,
      List.append_assoc]
    exact ⟨_, rfl⟩

/-- Exactly which token streams are reported, whatever they are: those with no `async` before the
first brace group (or the end). -/
theorem C57_error_iff (items : List Tok) :
    (StreamParser.new items).parse.isAsync = true ↔
      ∃ sig tail, items = sig ++ tail ∧ NoBrace sig ∧ ¬ NoAsync sig := by
  have key : ∀ (toks : List Tok) (self : StreamParser) (acc : List Tok),
      (self.loop acc toks).1.isAsync = true ↔
        self.isAsync = true ∨ ∃ sig tail, toks = sig ++ tail ∧ NoBrace sig ∧ ¬ NoAsync sig := by
    have step : ∀ (t : Tok) (toks : List Tok), (∀ s, t ≠ .group .brace s) → t ≠ .ident c!"async" →
        ((∃ sig tail, t :: toks = sig ++ tail ∧ NoBrace sig ∧ ¬ NoAsync sig) ↔
          ∃ sig tail, toks = sig ++ tail ∧ NoBrace sig ∧ ¬ NoAsync sig) := by
      intro t toks hb ha
      constructor
      · rintro ⟨sig, tail, h1, h2, h3⟩
        cases sig with
        | nil => exact absurd (show NoAsync [] from nofun) h3
        | cons u sig =>
          rw [List.cons_append, List.cons.injEq] at h1
          obtain ⟨rfl, rfl⟩ := h1
          refine ⟨sig, tail, rfl, fun s hs => h2 s (List.mem_cons_of_mem _ hs), fun hn => h3 ?_⟩
          intro hm
          rcases List.mem_cons.1 hm with hm | hm
          · exact ha hm.symm
          · exact hn hm
      · rintro ⟨sig, tail, rfl, h2, h3⟩
        refine ⟨t :: sig, tail, rfl, fun s hs => ?_, fun hn => h3 fun hm => hn (List.mem_cons_of_mem _ hm)⟩
        rcases List.mem_cons.1 hs with hs | hs
        · exact hb s hs.symm
        · exact h2 s hs
    intro toks
    induction toks with
    | nil =>
      intro self acc
      simp only [StreamParser.loop]
      constructor
      · exact .inl
      · rintro (h | ⟨sig, tail, h1, -, h3⟩)
        · exact h
        · obtain ⟨rfl, -⟩ := List.append_eq_nil_iff.1 h1.symm
          exact absurd (show NoAsync [] from nofun) h3
    | cons t toks ih =>
      intro self acc
      cases t with
      | ident x =>
        by_cases hx : x = c!"async"
        · subst hx
          simp only [StreamParser.loop, if_true, ih, true_or, true_iff]
          exact .inr ⟨[.ident c!"async"], toks, rfl, by intro s; simp, by simp [NoAsync]⟩
        · simp only [StreamParser.loop, if_neg hx, ih]
          rw [step _ _ (by simp) (by simp [hx])]
      | punct c => simp only [StreamParser.loop, ih]; rw [step _ _ (by simp) (by simp)]
      | lit s => simp only [StreamParser.loop, ih]; rw [step _ _ (by simp) (by simp)]
      | group d s =>
        have other : d ≠ .brace → ((self.loop acc (Tok.group d s :: toks)).1.isAsync = true ↔
            self.isAsync = true ∨ ∃ sig tail, Tok.group d s :: toks = sig ++ tail ∧ NoBrace sig ∧
              ¬ NoAsync sig) := by
          intro hd
          rw [step _ _ (by simp [hd]) (by simp), ← ih self (acc ++ [.group d s])]
          cases d <;> first | rfl | exact absurd rfl hd
        cases d with
        | brace =>
          simp only [StreamParser.loop]
          constructor
          · exact .inl
          · rintro (h | ⟨sig, tail, h1, h2, h3⟩)
            · exact h
            · cases sig with
              | nil => exact absurd (show NoAsync [] from nofun) h3
              | cons u sig =>
                rw [List.cons_append, List.cons.injEq] at h1
                exact absurd (h1.1 ▸ List.mem_cons_self ..) (h2 s)
        | _ => exact other nofun
  have := key items (StreamParser.new items) []
  simpa [StreamParser.parse, StreamParser.new] using this

/-- The claim is false of functions with a brace group in their signature, such as
`async fn main() -> A<{1}> { x }`: its body becomes `1` and the rest of the signature is lost. -/
theorem C57_counterexample : ¬ C57_statement := by
  intro h
  obtain ⟨start, -, h⟩ := h 1
  have := h [] [.ident c!"fn", .ident c!"main", .group .paren [], .punct '-', .punct '>', .ident c!"A",
    .punct '<', .group .brace [.lit c!"1"], .punct '>'] [.ident c!"x"] (by simp [NoAsync])
  have := congrArg List.length this
  simp [expandMain, StreamParser.parse, StreamParser.loop, StreamParser.new] at this

/-- `#[a{}] pub async fn main(b: {}) { x }` -/
example : ∃ start, expandMain 4 [.punct '#', .group .bracket [.ident c!"a", .group .brace []],
    .ident c!"pub", .ident c!"async", .ident c!"fn", .ident c!"main",
    .group .paren [.ident c!"b", .punct ':', .group .brace []], .group .brace [.ident c!"x"]] =
    [.punct '#', .group .bracket [.ident c!"a", .group .brace []],
    .ident c!"pub", .ident c!"fn", .ident c!"main",
    .group .paren [.ident c!"b", .punct ':', .group .brace []],
    .group .brace (start ++ runsBody [.ident c!"x"])] := by
  obtain ⟨start, -, h⟩ := C57_main_partial 4
  exact ⟨start, h [.punct '#', .group .bracket [.ident c!"a", .group .brace []], .ident c!"pub"]
    [.ident c!"fn", .ident c!"main", .group .paren [.ident c!"b", .punct ':', .group .brace []]]
    [.ident c!"x"] (by simp [NoAsync]) (by intro s; simp)⟩

example : ∃ rest, expandMain 4 [.ident c!"fn", .ident c!"main", .group .paren [],
    .group .brace [.ident c!"x"]] = [.ident c!"fn", .ident c!"main", .group .paren [],
    .group .brace (reportsError ++ rest)] :=
  (C57_refused 4 [.ident c!"fn", .ident c!"main", .group .paren []] [.ident c!"x"]
    (by intro s; simp) (by simp [NoAsync])).1

end Octane
