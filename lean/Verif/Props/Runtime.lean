import Verif.Props.Macros
import Verif.Proof.Text
import Verif.Spec.Text
/-
C82: the runtime that `#[octane::main]` and `#[octane::test]` set up, for every token stream.
-/
namespace Octane

/-- a token from its text: a name begins with a letter, a literal with a digit or a quote; anything else
is one punctuation mark -/
def Spec.tok (s : Str) : Tok :=
  match s with
  | [] => .ident []
  | c :: _ => if c.isAlpha then .ident s else if c.isDigit || c == '"' then .lit s else .punct c

/-- a text cut at its spaces -/
def Spec.cut : Str → List Str
  | [] => [[]]
  | c :: s => if c = ' ' then [] :: cut s else
    match cut s with
    | [] => [[c]]
    | w :: ws => (c :: w) :: ws

/-- the tokens of a text with spaces between them (and none within them) -/
def Spec.toks (s : Str) : List Tok := (cut s).map tok

/-- `( … )` -/
def Spec.args (l : List Tok) : List Tok := [.group .paren l]

open Spec

/-- `let mut builder = tokio::runtime::Builder::new_multi_thread();
builder.enable_io().thread_stack_size(10485760).thread_name("octane-main").worker_threads(…usize);
let mut runtime = builder.build().expect("Unable to build tokio runtime");
runtime.block_on(async { body })` -/
def Spec.MainRuntime (cpus : Nat) (body out : List Tok) : Prop :=
  ∃ workers, Numeral (2 * cpus) workers ∧ out =
    toks c!"let mut builder = tokio : : runtime : : Builder : : new_multi_thread" ++ args [] ++ toks c!";" ++
    toks c!"builder . enable_io" ++ args [] ++
    toks c!". thread_stack_size" ++ args (toks c!"10485760") ++
    toks c!". thread_name" ++ args (toks c!"\"octane-main\"") ++
    toks c!". worker_threads" ++ args (toks (workers ++ c!"usize")) ++ toks c!";" ++
    toks c!"let mut runtime = builder . build" ++ args [] ++
    toks c!". expect" ++ args [.lit c!"\"Unable to build tokio runtime\""] ++ toks c!";" ++
    toks c!"runtime . block_on" ++ args (toks c!"async" ++ [.group .brace body])

/-- `let mut builder = tokio::runtime::Builder::new_current_thread();
builder.enable_io().thread_name("octane-test");
let mut runtime = builder.build().expect("Unable to build tokio runtime");
runtime.block_on(async { body })` -/
def Spec.testRuntime (body : List Tok) : List Tok :=
  toks c!"let mut builder = tokio : : runtime : : Builder : : new_current_thread" ++ args [] ++ toks c!";" ++
  toks c!"builder . enable_io" ++ args [] ++
  toks c!". thread_name" ++ args (toks c!"\"octane-test\"") ++ toks c!";" ++
  toks c!"let mut runtime = builder . build" ++ args [] ++
  toks c!". expect" ++ args [.lit c!"\"Unable to build tokio runtime\""] ++ toks c!";" ++
  toks c!"runtime . block_on" ++ args (toks c!"async" ++ [.group .brace body])

/-- `out` is `sig` without the keyword `async` -/
inductive Spec.WithoutAsync : List Tok → List Tok → Prop
  | nil : WithoutAsync [] []
  | drop {s o} : WithoutAsync s o → WithoutAsync (.ident c!"async" :: s) o
  | keep {t s o} : t ≠ .ident c!"async" → WithoutAsync s o → WithoutAsync (t :: s) (t :: o)

/-- The token stream cut at its first brace group: what stands before it, and its content (nothing if
there is no brace group). -/
def Spec.CutAt (items sig body : List Tok) : Prop :=
  NoBrace sig ∧ (items = sig ∧ body = [] ∨ ∃ after, items = sig ++ .group .brace body :: after)

theorem cutAt_exists (items : List Tok) : ∃ sig body, CutAt items sig body := by
  induction items with
  | nil => exact ⟨[], [], nofun, .inl ⟨rfl, rfl⟩⟩
  | cons t items ih =>
    by_cases ht : ∃ s, t = .group .brace s
    · obtain ⟨s, rfl⟩ := ht
      exact ⟨[], s, nofun, .inr ⟨items, rfl⟩⟩
    · obtain ⟨sig, body, h1, h2⟩ := ih
      refine ⟨t :: sig, body, ?_, ?_⟩
      · intro s hs
        rcases List.mem_cons.1 hs with e | hs
        · exact ht ⟨s, e.symm⟩
        · exact h1 s hs
      · rcases h2 with ⟨rfl, rfl⟩ | ⟨after, rfl⟩
        · exact .inl ⟨rfl, rfl⟩
        · exact .inr ⟨after, rfl⟩

/-- what the parser makes of a token stream cut at its first brace group -/
theorem parser_cut (items sig body : List Tok) (h : CutAt items sig body) :
    ∃ o, WithoutAsync sig o ∧ (StreamParser.new items).parse.signature = o ∧
      (StreamParser.new items).parse.rest = body ∧
      ((StreamParser.new items).parse.isAsync = true ↔ ¬ NoAsync sig) := by
  have key : ∀ (sig tail body : List Tok) (self : StreamParser) (acc : List Tok), NoBrace sig →
      self.rest = [] → (tail = [] ∧ body = [] ∨ ∃ after, tail = .group .brace body :: after) →
      ∃ o, WithoutAsync sig o ∧ (self.loop acc (sig ++ tail)).2 = acc ++ o ∧
        (self.loop acc (sig ++ tail)).1.rest = body ∧
        ((self.loop acc (sig ++ tail)).1.isAsync = true ↔ self.isAsync = true ∨ ¬ NoAsync sig) := by
    intro sig
    induction sig with
    | nil =>
      intro tail body self acc _ hr ht
      refine ⟨[], .nil, ?_⟩
      have hn : NoAsync [] := nofun
      rcases ht with ⟨rfl, rfl⟩ | ⟨after, rfl⟩
      · simp [StreamParser.loop, hr, hn]
      · simp [StreamParser.loop, hn]
    | cons t sig ih =>
      intro tail body self acc hb hr ht
      have hb' : NoBrace sig := fun s hs => hb s (List.mem_cons_of_mem _ hs)
      by_cases ha : t = .ident c!"async"
      · subst ha
        obtain ⟨o, h1, h2, h3, h4⟩ := ih tail body { self with isAsync := true } acc hb' hr ht
        refine ⟨o, .drop h1, ?_⟩
        have hn : ¬ NoAsync (.ident c!"async" :: sig) := fun h => h (List.mem_cons_self ..)
        simp only [List.cons_append, StreamParser.loop, if_true]
        exact ⟨h2, h3, by simp [h4, hn]⟩
      · obtain ⟨o, h1, h2, h3, h4⟩ := ih tail body self (acc ++ [t]) hb' hr ht
        have e : self.loop acc (t :: sig ++ tail) = self.loop (acc ++ [t]) (sig ++ tail) := by
          cases t with
          | ident x =>
            have : x ≠ c!"async" := by rintro rfl; exact ha rfl
            simp [StreamParser.loop, this]
          | punct c => rfl
          | lit s => rfl
          | group d s =>
            cases d with
            | brace => exact absurd (List.mem_cons_self ..) (hb s)
            | _ => rfl
        rw [e]
        refine ⟨t :: o, .keep ha h1, by simp [h2], h3, ?_⟩
        rw [h4]
        simp [NoAsync, Ne.symm ha]
  obtain ⟨h1, h2⟩ := h
  rcases h2 with ⟨rfl, rfl⟩ | ⟨after, rfl⟩
  · obtain ⟨o, a, b, c, d⟩ := key items [] [] (StreamParser.new items) [] h1 rfl (.inl ⟨rfl, rfl⟩)
    rw [List.append_nil] at b c d
    exact ⟨o, a, by simpa [StreamParser.parse, StreamParser.new] using b,
      by simpa [StreamParser.parse, StreamParser.new] using c,
      by simpa [StreamParser.parse, StreamParser.new] using d⟩
  · obtain ⟨o, a, b, c, d⟩ := key sig (.group .brace body :: after) body
      (StreamParser.new (sig ++ .group .brace body :: after)) [] h1 rfl (.inr ⟨after, rfl⟩)
    exact ⟨o, a, by simpa [StreamParser.parse, StreamParser.new] using b,
      by simpa [StreamParser.parse, StreamParser.new] using c,
      by simpa [StreamParser.parse, StreamParser.new] using d⟩

theorem tok_usize {n : Nat} {s : Str} (h : Numeral n s) : toks (s ++ c!"usize") = [.lit (s ++ c!"usize")] := by
  have hcut : ∀ t : Str, ' ' ∉ t → cut t = [t] := by
    intro t
    induction t with
    | nil => intro _; rfl
    | cons c t ih =>
      intro ht
      have hc : c ≠ ' ' := by rintro rfl; exact ht (List.mem_cons_self ..)
      have := ih fun hm => ht (List.mem_cons_of_mem _ hm)
      simp [cut, hc, this]
  obtain ⟨h1, h2, -⟩ := h
  have hsp : ' ' ∉ s ++ c!"usize" := by
    intro hm
    rcases List.mem_append.1 hm with hm | hm
    · exact absurd (h2 _ hm) (by decide)
    · exact absurd hm (by decide)
  unfold toks
  rw [hcut _ hsp]
  cases s with
  | nil => exact absurd rfl h1
  | cons c s =>
    have hd : c.isDigit = true := by
      have := h2 c (List.mem_cons_self ..)
      simp only [Char.isDigit, Bool.and_eq_true, decide_eq_true_eq]
      exact this
    have ha : c.isAlpha = false := by
      have := h2 c (List.mem_cons_self ..)
      simp only [Char.le_def, UInt32.le_iff_toNat_le] at this
      have e1 : ('9' : Char).val.toNat = 57 := rfl
      have e2 : ('A' : Char).val.toNat = 65 := rfl
      have e3 : ('a' : Char).val.toNat = 97 := rfl
      simp only [Char.isAlpha, Char.isUpper, Char.isLower, Bool.or_eq_false_iff, decide_eq_false_iff_not,
        Bool.and_eq_false_iff, ge_iff_le, UInt32.le_iff_toNat_le]
      omega
    simp [tok, ha, hd]

/-- C82 for `#[octane::main]`, for every token stream: it is cut at its first brace group; `async` is taken
out of what stands before it; the body is the set-up of a runtime of twice as many worker threads as
processors, running the content of the group, with an error in front if there was no `async`. -/
theorem C82_main (cpus : Nat) (items sig body : List Tok) (h : CutAt items sig body) :
    ∃ o run, WithoutAsync sig o ∧ MainRuntime cpus body run ∧
      (¬ NoAsync sig → expandMain cpus items = o ++ [.group .brace run]) ∧
      (NoAsync sig → expandMain cpus items = o ++ [.group .brace (reportsError ++ run)]) := by
  obtain ⟨o, h1, h2, h3, h4⟩ := parser_cut items sig body h
  have hn := showNat_numeral (2 * cpus)
  refine ⟨o, _, h1, ⟨_, hn, rfl⟩, ?_, ?_⟩
  · intro ha
    unfold expandMain
    simp only [h2, h3, h4.2 ha]
    rw [tok_usize hn, Nat.mul_comm]
    rfl
  · intro ha
    have hf : (StreamParser.new items).parse.isAsync = false := by
      cases hc : (StreamParser.new items).parse.isAsync with
      | false => rfl
      | true => exact absurd ha (h4.1 hc)
    unfold expandMain
    simp only [h2, h3, hf]
    rw [tok_usize hn, Nat.mul_comm]
    rfl

/-- C82 for `#[octane::test]`: the same with `#[test]` in front and a runtime of the current thread. -/
theorem C82_test (items sig body : List Tok) (h : CutAt items sig body) :
    ∃ o, WithoutAsync sig o ∧
      (¬ NoAsync sig → expandTest items =
        [.punct '#', .group .bracket (toks c!"test")] ++ o ++ [.group .brace (testRuntime body)]) ∧
      (NoAsync sig → expandTest items =
        [.punct '#', .group .bracket (toks c!"test")] ++ o ++
          [.group .brace (reportsError ++ testRuntime body)]) := by
  obtain ⟨o, h1, h2, h3, h4⟩ := parser_cut items sig body h
  refine ⟨o, h1, ?_, ?_⟩
  · intro ha
    unfold expandTest
    simp only [h2, h3, h4.2 ha]
    rfl
  · intro ha
    have hf : (StreamParser.new items).parse.isAsync = false := by
      cases hc : (StreamParser.new items).parse.isAsync with
      | false => rfl
      | true => exact absurd ha (h4.1 hc)
    unfold expandTest
    simp only [h2, h3, hf]
    rfl

/-- every token stream is cut in exactly one way -/
theorem C82_cut (items : List Tok) : (∃ sig body, CutAt items sig body) ∧
    ∀ sig body sig' body', CutAt items sig body → CutAt items sig' body' → sig = sig' ∧ body = body' := by
  refine ⟨cutAt_exists items, ?_⟩
  induction items with
  | nil =>
    rintro sig body sig' body' ⟨-, h | ⟨a, h⟩⟩ ⟨-, h' | ⟨a', h'⟩⟩
    · exact ⟨h.1 ▸ h'.1, h.2.trans h'.2.symm⟩
    all_goals simp at *
  | cons t items ih =>
    intro sig body sig' body' h h'
    have head : ∀ {sig body}, CutAt (t :: items) sig body →
        (sig = [] ∧ t = .group .brace body) ∨ ∃ s, sig = t :: s ∧ (∀ b, t ≠ .group .brace b) ∧ CutAt items s body := by
      rintro sig body ⟨hb, h⟩
      cases sig with
      | nil =>
        rcases h with ⟨h, -⟩ | ⟨a, h⟩
        · cases h
        · cases h; exact .inl ⟨rfl, rfl⟩
      | cons u s =>
        have hu : ∀ b, u ≠ .group .brace b := fun b e => hb b (e ▸ List.mem_cons_self ..)
        have hs : NoBrace s := fun b hm => hb b (List.mem_cons_of_mem _ hm)
        rcases h with ⟨h, e⟩ | ⟨a, h⟩
        · cases h; exact .inr ⟨_, rfl, hu, hs, .inl ⟨rfl, e⟩⟩
        · cases h; exact .inr ⟨_, rfl, hu, hs, .inr ⟨a, rfl⟩⟩
    rcases head h with ⟨rfl, e⟩ | ⟨s, rfl, hu, hc⟩ <;> rcases head h' with ⟨rfl, e'⟩ | ⟨s', rfl, hu', hc'⟩
    · rw [e] at e'; cases e'; exact ⟨rfl, rfl⟩
    · exact absurd e (hu' _)
    · exact absurd e' (hu _)
    · obtain ⟨rfl, rfl⟩ := ih _ _ _ _ hc hc'; exact ⟨rfl, rfl⟩

/-- `pub async fn main() { x }` on four processors: eight workers -/
example : ∃ run, MainRuntime 4 [.ident c!"x"] run ∧
    expandMain 4 [.ident c!"pub", .ident c!"async", .ident c!"fn", .ident c!"main", .group .paren [],
      .group .brace [.ident c!"x"]] =
    [.ident c!"pub", .ident c!"fn", .ident c!"main", .group .paren [], .group .brace run] ∧
    Tok.group .paren [.lit c!"8usize"] ∈ run := by
  obtain ⟨o, run, ho, hr, h, -⟩ := C82_main 4 [.ident c!"pub", .ident c!"async", .ident c!"fn",
    .ident c!"main", .group .paren [], .group .brace [.ident c!"x"]]
    [.ident c!"pub", .ident c!"async", .ident c!"fn", .ident c!"main", .group .paren []] [.ident c!"x"]
    ⟨by intro s; simp, .inr ⟨[], rfl⟩⟩
  have e : o = [.ident c!"pub", .ident c!"fn", .ident c!"main", .group .paren []] := by
    cases ho with
    | keep _ ho => cases ho with
      | keep hne => exact absurd rfl hne
      | drop ho => cases ho with
        | keep _ ho => cases ho with
          | keep _ ho => cases ho with
            | keep _ ho => cases ho; rfl
  refine ⟨run, hr, ?_, ?_⟩
  · rw [h (by simp [NoAsync]), e]; rfl
  · obtain ⟨w, hw, rfl⟩ := hr
    have : w = c!"8" := by rw [hw.eq, showNat_lt (by omega)]; rfl
    subst this
    rw [tok_usize hw]
    simp [args]

/-- a test -/
example := C82_test [.ident c!"async", .ident c!"fn", .ident c!"t", .group .paren [], .group .brace [.ident c!"x"]]
  [.ident c!"async", .ident c!"fn", .ident c!"t", .group .paren []] [.ident c!"x"]
  ⟨by intro s; simp, .inr ⟨[], rfl⟩⟩

end Octane
