import Verif.Gkr.SpecGrandProduct
import Mathlib.Tactic.Ring
import Mathlib.Algebra.BigOperators.Intervals
import Mathlib.Data.Nat.Bitwise

/-! The layers of the grand product circuit. -/

set_option linter.dupNamespace false
set_option linter.unusedSectionVars false

namespace Verif.Gkr

open Finset

variable {F : Type} [Field F]

theorem setProducts_ok (w n : Nat) (p : Packed F) (hn : n < w) : ∀ (count i : Nat) (layer : Packed F),
    i + count ≤ 2 ^ n →
    ∃ q, setProducts w (2 ^ n) [p] i count layer = some q ∧
      (∀ j, i ≤ j → j < i + count → q j = p j * p (j + 2 ^ n)) ∧ ∀ j < i, q j = layer j
  | 0, i, layer, _ => ⟨layer, rfl, fun j h1 h2 => by omega, fun _ _ => rfl⟩
  | count + 1, i, layer, h => by
    have hw : 2 ^ n + 2 ^ n ≤ 2 ^ w := by
      rw [← two_mul, ← pow_succ']; exact Nat.pow_le_pow_right (by omega) (by omega)
    have hor : i ||| 2 ^ n = i + 2 ^ n := by
      have := Nat.two_pow_add_eq_or_of_lt (i := n) (b := i) (by omega) 1
      rw [mul_one] at this
      rw [Nat.or_comm, ← this, Nat.add_comm]
    have hget : ∀ k < 2 ^ w, getPackedSlice w [p] k = some (p k) := fun k hk => by
      unfold getPackedSlice
      rw [Nat.div_eq_of_lt hk, Nat.mod_eq_of_lt hk]
      rfl
    obtain ⟨q, h1, h2, h3⟩ := setProducts_ok w n p hn count (i + 1) (layer.set i (p i * p (i + 2 ^ n))) (by omega)
    refine ⟨q, ?_, fun j hj1 hj2 => ?_, fun j hj => ?_⟩
    · unfold setProducts
      rw [hor, hget i (by omega), Option.bind_some, hget _ (by omega), Option.bind_some, h1]
    · by_cases e : j = i
      · subst e
        rw [h3 j (by omega), Packed.set, if_pos rfl]
      · exact h2 j (by omega) (by omega)
    · rw [h3 j (by omega), Packed.set, if_neg (by omega)]

theorem nextLayer_ok (w n : Nat) (prev : List (Packed F)) (h : prev.length ≤ 2 ^ (n + 1 - w)) :
    ∃ layer, nextLayer w n prev = some layer ∧ layer.length ≤ 2 ^ (n - w) ∧
      ∀ i < 2 ^ n, value w layer i = value w prev i * value w prev (i + 2 ^ n) := by
  by_cases hw : w ≤ n
  · have hL : 2 ^ (n + 1 - w) = 2 * 2 ^ (n - w) := by rw [Nat.sub_add_comm hw, pow_succ']
    have hn : 2 ^ n = 2 ^ w * 2 ^ (n - w) := by rw [← pow_add]; congr 1; omega
    generalize hLd : 2 ^ (n - w) = L at *
    have hprod : (if prev.length - L > 0 then
        List.zipWith (fun a b : Packed F => fun i => a i * b i) (prev.take L) (prev.drop L) else []) =
        List.zipWith (fun a b : Packed F => fun i => a i * b i) (prev.take L) (prev.drop L) := by
      split
      · rfl
      · rw [List.drop_eq_nil_of_le (by omega), List.zipWith_nil_right]
    set products := List.zipWith (fun a b : Packed F => fun i => a i * b i) (prev.take L) (prev.drop L) with hp
    have hplen : products.length = prev.length - L := by
      rw [hp, List.length_zipWith, List.length_take, List.length_drop]; omega
    have key : nextLayer w n prev = some (products ++ (prev.take (min L prev.length)).drop (prev.length - L)) := by
      unfold nextLayer
      simp only [if_pos hw, hLd]
      rw [hprod, if_neg (by omega), List.length_replicate]
      have e1 : products.take (min prev.length L) = products := List.take_of_length_le (by omega)
      rw [e1, List.length_append, List.length_drop, List.length_replicate, hplen, if_neg (by omega)]
      rw [List.take_append_of_le_length (by omega), List.take_of_length_le (by omega)]
    refine ⟨_, key, ?_, fun i hi => ?_⟩
    · rw [List.length_append, hplen, List.length_drop, List.length_take]; omega
    · have hpos := Nat.two_pow_pos w
      have hj : i / 2 ^ w < L := Nat.div_lt_of_lt_mul (by rw [← hn]; exact hi)
      have e1 : (i + 2 ^ n) / 2 ^ w = i / 2 ^ w + L := by rw [hn, Nat.add_mul_div_left _ _ hpos]
      have e2 : (i + 2 ^ n) % 2 ^ w = i % 2 ^ w := by rw [hn, Nat.add_mul_mod_self_left]
      unfold value
      rw [e1, e2]
      generalize i / 2 ^ w = j at *
      by_cases hjp : j < prev.length - L
      · rw [List.getElem?_append_left (by omega), hp, List.getElem?_zipWith, List.getElem?_take_of_lt hj,
          List.getElem?_drop, Nat.add_comm L, List.getElem?_eq_getElem (by omega), List.getElem?_eq_getElem (by omega)]
      · rw [List.getElem?_append_right (by omega), hplen, List.getElem?_drop,
          show prev.length - L + (j - (prev.length - L)) = j by omega,
          List.getElem?_eq_none (l := prev) (i := j + L) (by omega)]
        simp only [mul_one]
        by_cases hjl : j < prev.length
        · rw [List.getElem?_take_of_lt (by omega)]
        · rw [List.getElem?_eq_none (by rw [List.length_take]; omega), List.getElem?_eq_none (by omega)]
  · have e0 : n + 1 - w = 0 := by omega
    have e0' : n - w = 0 := by omega
    rw [e0, pow_zero] at h
    rw [e0', pow_zero]
    have hlt : 2 ^ n + 2 ^ n ≤ 2 ^ w := by
      rw [← two_mul, ← pow_succ']; exact Nat.pow_le_pow_right (by omega) (by omega)
    cases prev with
    | nil =>
      refine ⟨[], ?_, by simp, fun i hi => ?_⟩
      · unfold nextLayer
        simp only [if_neg hw]
        simp
      · simp [value]
    | cons p l =>
      cases l with
      | cons _ _ => simp at h
      | nil =>
        obtain ⟨q, h1, h2, _⟩ := setProducts_ok w n p (by omega) (2 ^ n) 0 (fun _ => 0) (by omega)
        refine ⟨[q], ?_, by simp, fun i hi => ?_⟩
        · unfold nextLayer
          simp only [if_neg hw, e0', pow_zero]
          rw [if_pos (by simp)]
          simp only [List.length_singleton, min_self, List.replicate_one, h1, Option.map_some]
        · have hv : ∀ (p : Packed F) k, k < 2 ^ w → value w [p] k = p k := fun p k hk => by
            unfold value
            rw [Nat.div_eq_of_lt hk, Nat.mod_eq_of_lt hk]
            rfl
          rw [hv q i (by omega), hv p i (by omega), hv p _ (by omega), h2 i (by omega) (by omega)]

theorem prod_halves (f : Nat → F) (n : Nat) :
    ∏ i ∈ range (2 ^ (n + 1)), f i = ∏ i ∈ range (2 ^ n), f i * f (i + 2 ^ n) := by
  rw [pow_succ, mul_two, Finset.prod_range_add, Finset.prod_mul_distrib]
  congr 1
  refine Finset.prod_congr rfl fun i _ => by rw [Nat.add_comm]

theorem layersFrom_ok (w : Nat) : ∀ (n : Nat) (prev : List (Packed F)), prev.length ≤ 2 ^ (n - w) →
    ∃ layers, layersFrom w n prev = some layers ∧ layers.length = n ∧
      (∀ (k : Nat) (a b : List (Packed F)), (prev :: layers)[k]? = some a → (prev :: layers)[k + 1]? = some b →
        ∀ i < 2 ^ (n - (k + 1)), value w b i = value w a i * value w a (i + 2 ^ (n - (k + 1)))) ∧
      ∃ last, (prev :: layers).getLast? = some last ∧ last.length ≤ 1 ∧
        value w last 0 = ∏ i ∈ range (2 ^ n), value w prev i
  | 0, prev, h => by
    refine ⟨[], rfl, rfl, fun k a b _ hb => by simp at hb, prev, rfl, ?_, by simp⟩
    rwa [Nat.zero_sub, pow_zero] at h
  | n + 1, prev, h => by
    obtain ⟨layer, h1, h2, h3⟩ := nextLayer_ok w n prev h
    obtain ⟨layers, d1, d2, d3, last, d4, d5, d6⟩ := layersFrom_ok w n layer h2
    refine ⟨layer :: layers, ?_, by simp [d2], fun k a b ha hb i hi => ?_, last, ?_, d5, ?_⟩
    · unfold layersFrom
      rw [h1, Option.bind_some, d1, Option.map_some]
    · cases k with
      | zero =>
        simp only [List.getElem?_cons_zero, List.getElem?_cons_succ, Option.some.injEq] at ha hb
        rw [← ha, ← hb]
        exact h3 i hi
      | succ k =>
        rw [List.getElem?_cons_succ] at ha hb
        have e : n + 1 - (k + 1 + 1) = n - (k + 1) := by omega
        rw [e] at hi ⊢
        exact d3 k a b ha hb i hi
    · rw [List.getLast?_cons_cons]; exact d4
    · rw [d6, prod_halves]
      exact Finset.prod_congr rfl fun i hi => h3 i (Finset.mem_range.1 hi)

end Verif.Gkr
