import Verif.Gkr.LemmasGrandProduct
import Mathlib.Algebra.Field.Rat

/-! Property C36: the grand product witness. -/

set_option linter.dupNamespace false

namespace Verif.Gkr

open Finset

variable {F : Type} [Field F]

/-- **C36.** An input is refused exactly when it has more than `2^n` scalars (rounded up to a whole packed element), and
nothing panics. -/
theorem C36_refused_iff (w n : Nat) (input : List (Packed F)) :
    (witnessNew w n input = some none ↔ 2 ^ (n - w) < input.length) ∧ witnessNew w n input ≠ none := by
  unfold witnessNew
  by_cases h : input.length > 2 ^ (n - w)
  · rw [if_pos h]
    exact ⟨⟨fun _ => h, fun _ => rfl⟩, by simp⟩
  · rw [if_neg h]
    obtain ⟨layers, e, _⟩ := layersFrom_ok w n input (by omega)
    rw [e]
    simp only [Option.map_some]
    refine ⟨⟨fun hc => ?_, fun hc => absurd hc h⟩, by simp⟩
    simp at hc

/-- **C36.** Otherwise there are `n + 1` layers, the first of them the input, in which each entry is the product of its two
children: those at the same position in the lower and the upper half of the layer before. -/
theorem C36_layers (w n : Nat) (input : List (Packed F)) (h : input.length ≤ 2 ^ (n - w)) :
    ∃ layers, witnessNew w n input = some (some layers) ∧ layers.length = n + 1 ∧ witnessNVars layers = n ∧
      layers[0]? = some input ∧
      ∀ (k : Nat) (a b : List (Packed F)), layers[k]? = some a → layers[k + 1]? = some b →
        ∀ i < 2 ^ (n - (k + 1)), value w b i = value w a i * value w a (i + 2 ^ (n - (k + 1))) := by
  obtain ⟨layers, h1, h2, h3, _⟩ := layersFrom_ok w n input h
  refine ⟨input :: layers, ?_, by simp [h2], by simp [witnessNVars, h2], rfl, h3⟩
  unfold witnessNew
  rw [if_neg (by omega), h1]
  rfl

/-- **C36.** The final value is the product of the first `2^n` inputs, absent inputs counting as one. -/
theorem C36_product (w n : Nat) (input : List (Packed F)) (layers : List (List (Packed F)))
    (h : witnessNew w n input = some (some layers)) :
    grandProductEvaluation layers = some (∏ i ∈ range (2 ^ n), value w input i) := by
  unfold witnessNew at h
  split at h
  · simp at h
  · obtain ⟨layers', h1, _, _, last, h4, h5, h6⟩ := layersFrom_ok w n input (by omega)
    rw [h1, Option.map_some] at h
    injection h with h
    injection h with h
    rw [← h]
    unfold grandProductEvaluation
    rw [h4, Option.map_some, ← h6]
    match last, h5 with
    | [], _ => simp [value]
    | [p], _ => simp [value]

/-- Three elements of two scalars for `2^3` scalars: the last two are absent. -/
example : ∃ layers, witnessNew (F := ℚ) 1 3 [fun i => i + 2, fun i => i + 4, fun i => i + 6] = some (some layers) ∧
    grandProductEvaluation layers = some 5040 := by
  obtain ⟨layers, h, _⟩ := C36_layers (F := ℚ) 1 3 [fun i => i + 2, fun i => i + 4, fun i => i + 6] (by decide)
  refine ⟨layers, h, ?_⟩
  rw [C36_product 1 3 _ layers h]
  norm_num [Finset.prod_range_succ, value]

end Verif.Gkr
