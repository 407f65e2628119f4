import Verif.Spec.Registry
import Verif.Props.Tables
/-
C61: named statuses and the IANA registry.
-/
namespace Octane
open Spec

/-! ## C61 -/

/-- The full claim of C61: the named statuses are exactly the registered ones. -/
def C61_statement : Prop :=
  (∀ i : Fin 61, Registered (StatusCode.named i).code (StatusCode.named i).toStr) ∧
  ∀ code phrase, Registered code phrase → ∃ i : Fin 61, (StatusCode.named i).fetch = (code, phrase)

/-- C61 for every named status but three: its code is registered with its phrase. (The three are in
`C61_differences`.) -/
theorem C61_registered_partial (i : Fin 61) (h : (StatusCode.named i).code ∉ [101, 300, 418]) :
    Registered (StatusCode.named i).code (StatusCode.named i).toStr := by
  have key : ∀ e ∈ statusTable, e.1 ∉ [(101 : Int), 300, 418] → Registered e.1 e.2 := by
    decide +kernel
  exact key _ (named_mem i) h

/-- C61, the other direction, for every registered code but three. -/
theorem C61_named_partial (code : Int) (phrase : Str) (hr : Registered code phrase)
    (h : code ∉ [101, 300, 305]) : ∃ i : Fin 61, (StatusCode.named i).fetch = (code, phrase) := by
  have key : ∀ cls ∈ registry, ∀ e ∈ cls.2, (100 * cls.1 + e.1 : Int) ∉ [(101 : Int), 300, 305] →
      ((100 * cls.1 + e.1 : Int), e.2) ∈ statusTable := by
    decide +kernel
  obtain ⟨cls, hc, e, he, rfl, rfl⟩ := hr
  obtain ⟨n, hn, hg⟩ := List.getElem_of_mem (key cls hc e he h)
  exact ⟨⟨n, hn⟩, hg⟩

/-- The differences: 101 and 300 have other phrases, 418 is not registered, 305 has no name. -/
theorem C61_differences :
    (∃ i : Fin 61, (StatusCode.named i).fetch = (101, c!"Switching Protocol") ∧
      Registered 101 c!"Switching Protocols" ∧ ¬ Registered 101 c!"Switching Protocol") ∧
    (∃ i : Fin 61, (StatusCode.named i).fetch = (300, c!"Multiple Choice") ∧
      Registered 300 c!"Multiple Choices" ∧ ¬ Registered 300 c!"Multiple Choice") ∧
    (∃ i : Fin 61, (StatusCode.named i).fetch = (418, c!"I'm a teapot") ∧
      ∀ p, ¬ Registered 418 p) ∧
    Registered 305 c!"Use Proxy" ∧ ∀ i : Fin 61, (StatusCode.named i).code ≠ 305 := by
  refine ⟨⟨1, by decide +kernel⟩, ⟨14, by decide +kernel⟩, ⟨39, by decide +kernel, ?_⟩,
    by decide +kernel, ?_⟩
  · intro p hp
    have key : ∀ cls ∈ registry, ∀ e ∈ cls.2, (100 * cls.1 + e.1 : Int) ≠ 418 := by decide +kernel
    obtain ⟨cls, hc, e, he, h, -⟩ := hp
    exact key cls hc e he h.symm
  · intro i
    have key : ∀ e ∈ statusTable, e.1 ≠ (305 : Int) := by decide +kernel
    exact key _ (named_mem i)

theorem C61_counterexample : ¬ C61_statement := by
  intro h
  obtain ⟨⟨i, hi, -, hn⟩, -⟩ := C61_differences
  have h1 := h.1 i
  have hc : (StatusCode.named i).code = 101 := congrArg Prod.fst hi
  have hs : (StatusCode.named i).toStr = c!"Switching Protocol" := congrArg Prod.snd hi
  rw [hc, hs] at h1
  exact hn h1

example : Registered (StatusCode.named 25).code (StatusCode.named 25).toStr ∧
    (StatusCode.named 25).code ∉ [101, 300, 418] := by decide +kernel

/-- 404 -/
example := C61_named_partial 404 c!"Not Found" (by decide) (by decide)

end Octane
