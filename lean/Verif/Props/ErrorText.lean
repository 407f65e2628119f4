import Verif.Spec.Markup
import Verif.Proof.Infix
import Verif.Props.Server
/-
C115: the error page tells the error.
-/
namespace Octane
open Spec

/-- is one list inside of the other -/
private def inside [DecidableEq α] (n : List α) : List α → Bool
  | [] => n.isEmpty
  | a :: l => n.isPrefixOf (a :: l) || inside n l

private theorem inside_iff [DecidableEq α] (n l : List α) : inside n l = true ↔ Occurs l n := by
  rw [occurs_iff_infix]
  induction l with
  | nil => cases n <;> simp [inside]
  | cons a l ih => simp [inside, ih, List.infix_cons_iff]

/-- the pieces of the page -/
def Spec.errorPieces : List Piece :=
  [.tag c!"!DOCTYPE html", .tag c!"html", .tag c!"head", .tag c!"title", .text c!"404 NOT FOUND - OCTANE", .tag c!"/title",
    .tag c!"/head", .tag c!"body style=\"padding: 20px;\"", .tag c!"h2 style=\"text-align: center;\"",
    .text c!"404 NOT FOUND", .tag c!"/h2", .tag c!"hr", .tag c!"h5", .text c!"OCTANE - 0.1", .tag c!"/h2", .tag c!"/body",
    .tag c!"/html"]

/-- Whatever the error: the page the client gets is this one, with the text `404 NOT FOUND` as title and as
heading. -/
theorem C115_page (U : Unicode) (cookies : Bool) (ord : MapOrder) (clock : Int) (i : Fin 61) (hc : 0 ≤ clock) :
    ∃ bytes v page, errorPage U cookies ord clock (.named i) = .ok bytes ∧ ClientParses bytes v ∧ v.body = utf8 page ∧
      Markup page errorPieces := by
  obtain ⟨bytes, v, h1, h2, -, -, -, -, -, -, -, -, h9, -⟩ := C55_error_pages U cookies ord clock i hc
  refine ⟨bytes, v, notFoundPage, h1, h2, h9, by decide +kernel, ?_, ?_⟩
  · intro t ht
    have h : errorPieces.all (fun | .tag t => !t.contains '<' && !t.contains '>' | .text t => !t.contains '<' && !t.contains '>') = true := by
      decide +kernel
    rw [List.all_eq_true] at h
    rcases ht with ht | ht <;> simpa using h _ ht
  · intro t ht
    have h : errorPieces.all (fun | .tag _ => true | .text t => !t.isEmpty) = true := by decide +kernel
    rw [List.all_eq_true] at h
    simpa using h _ ht

/-- The tags of the page do not match: the heading `h5` is closed by `/h2`. -/
theorem C115_markup : ¬ TagsMatch [] (tags errorPieces) := by
  intro h
  have one : ∀ {o t ts}, TagsMatch o (t :: ts) → t.head? ≠ some '!' → tagName t ≠ c!"hr" → t.head? ≠ some '/' →
      TagsMatch (tagName t :: o) ts := by
    intro o t ts h h1 h2 h3
    cases h with
    | alone h => rcases h with h | h <;> contradiction
    | begin _ _ _ h => exact h
    | close h => exact absurd rfl h3
  have skip : ∀ {o t ts}, TagsMatch o (t :: ts) → t.head? = some '!' ∨ tagName t = c!"hr" → TagsMatch o ts := by
    intro o t ts h h1
    cases h with
    | alone _ h => exact h
    | begin h2 h3 => rcases h1 with h1 | h1 <;> contradiction
    | close h =>
      rcases h1 with h1 | h1
      · cases h1
      · exact absurd h1 (by simp [tagName])
  have out : ∀ {o n ts}, TagsMatch o (('/' :: n) :: ts) → ∃ o', o = n :: o' ∧ TagsMatch o' ts := by
    intro o n ts h
    cases h with
    | alone h =>
      rcases h with h | h
      · cases h
      · exact absurd h (by simp [tagName])
    | begin _ _ h => exact absurd rfl h
    | close h => exact ⟨_, rfl, h⟩
  simp only [tags, errorPieces] at h
  have h := skip h (.inl rfl)
  have h := one h (by decide) (by decide) (by decide)
  have h := one h (by decide) (by decide) (by decide)
  have h := one h (by decide) (by decide) (by decide)
  obtain ⟨_, e, h⟩ := out h
  injection e with _ e; subst e
  obtain ⟨_, e, h⟩ := out h
  injection e with _ e; subst e
  have h := one h (by decide) (by decide) (by decide)
  have h := one h (by decide) (by decide) (by decide)
  obtain ⟨_, e, h⟩ := out h
  injection e with _ e; subst e
  have h := skip h (.inr rfl)
  have h := one h (by decide) (by decide) (by decide)
  obtain ⟨_, e, h⟩ := out h
  injection e with e _
  exact absurd e (by decide)

private theorem code_inside : ∀ i : Fin 61,
    inside (utf8 (showInt (StatusCode.named i).code)) (utf8 notFoundPage) = true ↔ (StatusCode.named i).code = 404 := by
  decide +kernel

private theorem line_inside : ∀ i : Fin 61,
    inside (utf8 (showInt (StatusCode.named i).code ++ ' ' :: capitals (StatusCode.named i).toStr)) (utf8 notFoundPage) = true ↔
      (StatusCode.named i).code = 404 := by
  decide +kernel

/-- Exactly the 404 page tells its code: in every other one the code the client read in the status line does not
occur, nor does the status line's code and phrase. -/
theorem C115_iff (U : Unicode) (cookies : Bool) (ord : MapOrder) (clock : Int) (i : Fin 61) (hc : 0 ≤ clock) :
    ∃ bytes v, errorPage U cookies ord clock (.named i) = .ok bytes ∧ ClientParses bytes v ∧
      IntNumeral (StatusCode.named i).code v.code ∧
      (Occurs v.body (utf8 v.code) ↔ (StatusCode.named i).code = 404) ∧
      (Occurs v.body (utf8 (v.code ++ ' ' :: v.reason)) ↔ (StatusCode.named i).code = 404) := by
  obtain ⟨bytes, v, h1, h2, -, h4, h5, -, -, -, -, -, h9, -⟩ := C55_error_pages U cookies ord clock i hc
  refine ⟨bytes, v, h1, h2, h4, ?_, ?_⟩
  · rw [h9, h4.eq, ← inside_iff]
    exact code_inside i
  · rw [h9, h5, h4.eq, ← inside_iff]
    exact line_inside i

/-- the claim, for the one page it is true of -/
theorem C115_partial (U : Unicode) (cookies : Bool) (ord : MapOrder) (clock : Int) (hc : 0 ≤ clock) :
    ∃ bytes v, errorPage U cookies ord clock .notFound = .ok bytes ∧ ClientParses bytes v ∧ v.code = c!"404" ∧
      v.reason = c!"NOT FOUND" ∧ Occurs v.body (utf8 (v.code ++ ' ' :: v.reason)) := by
  obtain ⟨i, hi⟩ : ∃ i : Fin 61, StatusCode.notFound = .named i := ⟨_, rfl⟩
  obtain ⟨bytes, v, h1, h2, -, h4, h5, -, -, -, -, -, h9, -⟩ := C55_error_pages U cookies ord clock i hc
  refine ⟨bytes, v, by rw [hi, h1], h2, ?_, ?_, ?_⟩
  · rw [h4.eq, ← hi]; decide +kernel
  · rw [h5, ← hi]; decide +kernel
  · rw [h9, h5, h4.eq, ← inside_iff, line_inside, ← hi]; decide +kernel

/-- The full claim of C115. -/
def C115_statement : Prop :=
  ∀ (U : Unicode) (cookies : Bool) (ord : MapOrder) (clock : Int) (i : Fin 61), 0 ≤ clock →
    ∀ bytes v, errorPage U cookies ord clock (.named i) = .ok bytes → ClientParses bytes v →
      Occurs v.body (utf8 (v.code ++ ' ' :: v.reason)) ∧
      ∀ page pieces, v.body = utf8 page → Markup page pieces → TagsMatch [] (tags pieces)

/-- Neither half of it holds. -/
theorem C115_false : ¬ C115_statement ∧
    ¬ ∀ (U : Unicode) (cookies : Bool) (ord : MapOrder) (clock : Int) (i : Fin 61), 0 ≤ clock →
      ∀ bytes v, errorPage U cookies ord clock (.named i) = .ok bytes → ClientParses bytes v →
        ∀ page pieces, v.body = utf8 page → Markup page pieces → TagsMatch [] (tags pieces) := by
  constructor
  · intro h
    obtain ⟨bytes, v, h1, h2, h3, -, h5⟩ := C115_iff .asciiOnly true MapOrder.id 0 21 (by decide)
    exact absurd (h5.1 (h _ _ _ _ _ (by decide) _ _ h1 h2).1) (by decide +kernel)
  · intro h
    obtain ⟨bytes, v, page, h1, h2, h3, h4⟩ := C115_page .asciiOnly true MapOrder.id 0 21 (by decide)
    exact C115_markup (h _ _ _ _ _ (by decide) _ _ h1 h2 _ _ h3 h4)

/-- Not every page tells its error: whatever the server and the time since 1970, who sends an empty head is refused
with 400 and a page that says 404. -/
theorem C115_counterexample {W : Type u} (sv : Server W) (w : W) (hc : 0 ≤ sv.clock w) :
    ∃ bytes v, sv.serve w ⟨[utf8 c!"\r\n\r\n"], .eof⟩ = .ok (w, bytes) ∧ ClientParses bytes v ∧ v.code = c!"400" ∧
      Occurs v.body (utf8 c!"404 NOT FOUND") ∧ ¬ Occurs v.body (utf8 c!"400") := by
  obtain ⟨bytes, v, e1, e2, e3, -, e5, -⟩ := declareError_ok sv w 21 hc
  have hr : readHead ⟨[utf8 c!"\r\n\r\n"], .eof⟩ = .ok .badRequest := by rfl
  refine ⟨bytes, v, ?_, e2, ?_, ?_, ?_⟩
  · unfold Server.serve
    rw [hr]
    exact congrArg Io.ofRes e1
  · rw [e3]; decide +kernel
  · rw [e5, ← inside_iff]; decide +kernel
  · rw [e5, ← inside_iff]; decide +kernel

/-- the pages of three errors, and the page of an error the server answers with -/
example := C115_page .asciiOnly true MapOrder.id 0 4 (by decide)
example := C115_iff .asciiOnly true MapOrder.id 0 25 (by decide)
example := C115_partial .asciiOnly true MapOrder.id 0 (by decide)

example := C115_counterexample (⟨.default, fun _ => true, .asciiOnly, .id, fun _ => 0, Router.new⟩ : Server Unit) () (by decide)

/-- tags that do match -/
example : TagsMatch [] [c!"!DOCTYPE html", c!"p class=\"a\"", c!"hr", c!"/p"] :=
  .alone (.inl rfl) (.begin (by decide) (by decide) (by decide) (.alone (.inr rfl) (.close .nil)))

end Octane
