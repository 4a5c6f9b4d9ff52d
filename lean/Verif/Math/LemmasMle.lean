import Verif.Math.SpecMle
import Verif.Util.Loop
import Mathlib.Algebra.BigOperators.Fin
import Mathlib.Tactic.LinearCombination

namespace Verif.Mle

open Finset

variable {F : Type*} [CommRing F]

@[simp] theorem eqWeight_nil (b : Nat) : eqWeight ([] : List F) b = 1 := rfl

theorem eqWeight_cons (x : F) (r : List F) (b : Nat) :
    eqWeight (x :: r) b = (if b % 2 = 1 then x else 1 - x) * eqWeight r (b / 2) := by
  unfold eqWeight
  rw [show (∏ i : Fin (x :: r).length, if b.testBit i then (x :: r)[i] else 1 - (x :: r)[i])
    = ∏ i : Fin (r.length + 1), if b.testBit i then (x :: r)[i] else 1 - (x :: r)[i] from rfl,
    Fin.prod_univ_succ]
  congr 1
  · simp [Nat.testBit_zero]
  · refine Finset.prod_congr rfl fun i _ => ?_
    simp [Nat.testBit_succ]

/-- Only the low bits matter. -/
theorem eqWeight_mod (r : List F) (b : Nat) : eqWeight r (b % 2 ^ r.length) = eqWeight r b := by
  unfold eqWeight
  refine Finset.prod_congr rfl fun i _ => ?_
  simp [Nat.testBit_mod_two_pow]

theorem eqWeight_append (r s : List F) (b : Nat) :
    eqWeight (r ++ s) b = eqWeight r b * eqWeight s (b / 2 ^ r.length) := by
  induction r generalizing b with
  | nil => simp
  | cons x r ih =>
    rw [List.cons_append, eqWeight_cons, eqWeight_cons, ih, List.length_cons, Nat.pow_succ',
      ← Nat.div_div_eq_div_mul, mul_assoc]

theorem eqWeight_add_mul (r : List F) (i j : Nat) :
    eqWeight r (i + 2 ^ r.length * j) = eqWeight r i := by
  rw [← eqWeight_mod, Nat.add_mul_mod_self_left, eqWeight_mod]

theorem eqWeight_append_split (r s : List F) (i j : Nat) (hi : i < 2 ^ r.length) :
    eqWeight (r ++ s) (i + 2 ^ r.length * j) = eqWeight r i * eqWeight s j := by
  rw [eqWeight_append, eqWeight_add_mul,
    Nat.add_mul_div_left _ _ (Nat.two_pow_pos _), Nat.div_eq_of_lt hi, Nat.zero_add]

@[simp] theorem mle_nil (v : Nat → F) : mle v [] = v 0 := by simp [mle]

theorem mle_append (v : Nat → F) (r s : List F) :
    mle v (r ++ s) = mle (fun j => mle (fun i => v (i + 2 ^ r.length * j)) r) s := by
  unfold mle
  rw [List.length_append, Nat.pow_add, sum_range_mul]
  refine Finset.sum_congr rfl fun j _ => ?_
  rw [Finset.mul_sum]
  refine Finset.sum_congr rfl fun i hi => ?_
  rw [eqWeight_append_split _ _ _ _ (Finset.mem_range.1 hi)]
  ring

theorem mle_singleton (v : Nat → F) (x : F) : mle v [x] = (1 - x) * v 0 + x * v 1 := by
  simp [mle, eqWeight_cons, Finset.sum_range_succ]

theorem mle_cons (v : Nat → F) (x : F) (r : List F) :
    mle v (x :: r) = mle (fun j => (1 - x) * v (2 * j) + x * v (2 * j + 1)) r := by
  have := mle_append v [x] r
  simp only [List.singleton_append, List.length_singleton, pow_one] at this
  rw [this]
  congr 1
  funext j
  rw [mle_singleton, Nat.zero_add, Nat.add_comm 1]

theorem mle_snoc (v : Nat → F) (r : List F) (x : F) :
    mle v (r ++ [x]) = (1 - x) * mle v r + x * mle (fun i => v (i + 2 ^ r.length)) r := by
  rw [mle_append, mle_singleton]
  simp

theorem mle_congr {v w : Nat → F} {r : List F} (h : ∀ i < 2 ^ r.length, v i = w i) :
    mle v r = mle w r :=
  Finset.sum_congr rfl fun i hi => by rw [h i (Finset.mem_range.1 hi)]

theorem mle_add (v w : Nat → F) (r : List F) : mle (fun i => v i + w i) r = mle v r + mle w r := by
  simp [mle, mul_add, Finset.sum_add_distrib]

theorem mle_smul (c : F) (v : Nat → F) (r : List F) : mle (fun i => c * v i) r = c * mle v r := by
  simp only [mle, Finset.mul_sum]
  exact Finset.sum_congr rfl fun i _ => by ring

theorem mle_sum {ι : Type*} (s : Finset ι) (v : ι → Nat → F) (r : List F) :
    mle (fun i => ∑ k ∈ s, v k i) r = ∑ k ∈ s, mle (v k) r := by
  simp only [mle, Finset.mul_sum]
  rw [Finset.sum_comm]

theorem mle_zero (r : List F) : mle (fun _ => 0) r = 0 := by simp [mle]

theorem mle_one (r : List F) : mle (fun _ => 1) r = 1 := by
  induction r with
  | nil => simp
  | cons x r ih =>
    rw [mle_cons]
    refine Eq.trans ?_ ih
    congr 1
    funext j
    ring

theorem mle_const (c : F) (r : List F) : mle (fun _ => c) r = c := by
  have := mle_smul c (fun _ => 1) r
  simpa [mle_one] using this

theorem sum_eqWeight (r : List F) : ∑ b ∈ range (2 ^ r.length), eqWeight r b = 1 := by
  have := mle_one r
  simpa [mle] using this

@[simp] theorem vertex_length (n b : Nat) : (vertex n b : List F).length = n := by simp [vertex]

theorem vertex_succ (n b : Nat) :
    (vertex (n + 1) b : List F) = (if b % 2 = 1 then 1 else 0) :: vertex n (b / 2) := by
  unfold vertex
  rw [List.range_succ_eq_map, List.map_cons, List.map_map]
  congr 1
  · simp [Nat.testBit_zero]
  · refine List.map_congr_left fun i _ => ?_
    simp [Nat.testBit_succ]

theorem mle_vertex (v : Nat → F) (n b : Nat) (hb : b < 2 ^ n) : mle v (vertex n b) = v b := by
  induction n generalizing v b with
  | zero =>
    have : b = 0 := by simpa using hb
    subst this; simp [vertex]
  | succ n ih =>
    rw [vertex_succ, mle_cons, ih _ (b / 2) (by rw [Nat.pow_succ] at hb; omega)]
    split
    · rename_i h; rw [show 2 * (b / 2) + 1 = b by omega]; ring
    · rename_i h; rw [show 2 * (b / 2) = b by omega]; ring

theorem eqWeight_vertex (n a b : Nat) (ha : a < 2 ^ n) (hb : b < 2 ^ n) :
    eqWeight (vertex n a : List F) b = if a = b then 1 else 0 := by
  have h := mle_vertex (F := F) (fun i => if i = b then 1 else 0) n a ha
  rw [← h]
  simp only [mle, vertex_length, mul_ite, mul_one, mul_zero]
  rw [Finset.sum_ite_eq' (range (2 ^ n)) b, if_pos (Finset.mem_range.2 hb)]

theorem mle_isMultilinear (v : Nat → F) (n : Nat) : IsMultilinear n (mle v) := by
  intro l s x _
  rw [mle_append, mle_append, mle_append, mle_cons, mle_cons, mle_cons, ← mle_smul, ← mle_smul,
    ← mle_add]
  congr 1
  funext j
  ring

/-- Uniqueness: a function affine in every coordinate is determined by its values on the hypercube. -/
theorem isMultilinear_unique (n : Nat) (g : List F → F) (hg : IsMultilinear n g) (v : Nat → F)
    (hv : ∀ b < 2 ^ n, g (vertex n b) = v b) (r : List F) (hr : r.length = n) : g r = mle v r := by
  induction n generalizing g v r with
  | zero =>
    have : r = [] := List.length_eq_zero_iff.1 hr
    subst this
    simpa [vertex] using hv 0 (by simp)
  | succ n ih =>
    obtain ⟨x, r, rfl⟩ : ∃ x r', r = x :: r' := by
      cases r with
      | nil => simp at hr
      | cons x r => exact ⟨x, r, rfl⟩
    have hlen : r.length = n := by simpa using hr
    have h1 : g (x :: r) = (1 - x) * g (0 :: r) + x * g (1 :: r) := by
      simpa using hg [] r x (by simp; omega)
    have hsub : ∀ y, IsMultilinear n (fun r => g (y :: r)) := fun y l s z hl => by
      have := hg (y :: l) s z (by simp; omega)
      simpa using this
    have e0 : g (0 :: r) = mle (fun j => v (2 * j)) r := by
      refine ih (fun r => g (0 :: r)) (hsub 0) _ (fun b hb => ?_) r hlen
      have := hv (2 * b) (by rw [Nat.pow_succ]; omega)
      rw [vertex_succ] at this
      simpa using this
    have e1 : g (1 :: r) = mle (fun j => v (2 * j + 1)) r := by
      refine ih (fun r => g (1 :: r)) (hsub 1) _ (fun b hb => ?_) r hlen
      have := hv (2 * b + 1) (by rw [Nat.pow_succ]; omega)
      rw [vertex_succ] at this
      have h2 : (2 * b + 1) % 2 = 1 := by omega
      have h3 : (2 * b + 1) / 2 = b := by omega
      rw [h3, if_pos h2] at this
      exact this
    rw [h1, e0, e1, mle_cons, mle_add, mle_smul, mle_smul]

/-- The multilinear extension of a vertex table in terms of `eqWeight`, splitting the index. -/
theorem mle_eq_sum (v : Nat → F) (r : List F) :
    mle v r = ∑ b ∈ range (2 ^ r.length), eqWeight r b * v b := rfl

end Verif.Mle
