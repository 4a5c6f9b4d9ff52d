import Verif.Field.ModelPolyval
import Mathlib.Algebra.Polynomial.Eval.Degree
import Mathlib.Algebra.Polynomial.BigOperators
import Mathlib.Algebra.Polynomial.Eval.Coeff
import Mathlib.Algebra.CharP.Two
import Mathlib.Algebra.BigOperators.NatAntidiagonal
import Mathlib.Tactic.LinearCombination
import Mathlib.Tactic.Ring
import Mathlib.Tactic.IntervalCases

/-!
# Carry-less multiplication by integer multiplication with holes

A word is read as a polynomial with coefficients 0 and 1 over the natural numbers; its value at 2 is
the integer and its value in a field of characteristic two is the element it denotes.
-/

namespace Verif.Field.Polyval
open Polynomial Finset

/-- The polynomial whose coefficients are the bits. -/
noncomputable def np {w : Nat} (x : BitVec w) : ℕ[X] :=
  ∑ i ∈ range w, C (x.getLsbD i).toNat * X ^ i

theorem np_coeff {w : Nat} (x : BitVec w) (i : Nat) : (np x).coeff i = (x.getLsbD i).toNat := by
  rw [np, finset_sum_coeff]
  simp only [coeff_C_mul, coeff_X_pow]
  by_cases h : i < w
  · rw [sum_eq_single i]
    · simp
    · intro b _ hb; simp [Ne.symm hb]
    · intro hn; exact absurd (mem_range.2 h) hn
  · rw [sum_eq_zero]
    · rw [BitVec.getLsbD_of_ge x i (by omega)]; rfl
    · intro b hb
      have := mem_range.1 hb
      rw [if_neg (by omega), mul_zero]

theorem mod_two_pow_sum (n x : Nat) :
    x % 2 ^ n = ∑ i ∈ range n, (x.testBit i).toNat * 2 ^ i := by
  induction n with
  | zero => simp [Nat.mod_one]
  | succ n ih => rw [sum_range_succ, ← ih, Nat.mod_pow_succ, Nat.toNat_testBit, Nat.mul_comm]

theorem np_eval_two {w : Nat} (x : BitVec w) : (np x).eval 2 = x.toNat := by
  rw [np, eval_finset_sum]
  simp only [eval_mul, eval_C, eval_pow, eval_X]
  rw [← Nat.mod_eq_of_lt x.isLt, mod_two_pow_sum]
  rfl

theorem np_natDegree (x : BitVec 64) : (np x).natDegree ≤ 63 := by
  rw [natDegree_le_iff_coeff_eq_zero]
  intro n hn
  rw [np_coeff, BitVec.getLsbD_of_ge x n (by omega)]; rfl

/-- The number of ways to get a one at `p` in the product. -/
noncomputable def cv (x y : BitVec 64) (p : Nat) : Nat := (np x * np y).coeff p

theorem cv_eq (x y : BitVec 64) (p : Nat) :
    cv x y p = ∑ q ∈ antidiagonal p, (x.getLsbD q.1).toNat * (y.getLsbD q.2).toNat := by
  rw [cv, coeff_mul]
  exact sum_congr rfl fun q _ => by rw [np_coeff, np_coeff]

theorem cv_range (x y : BitVec 64) (p : Nat) :
    cv x y p = ∑ i ∈ range (p + 1), (x.getLsbD i).toNat * (y.getLsbD (p - i)).toNat := by
  rw [cv_eq, Finset.Nat.sum_antidiagonal_eq_sum_range_succ_mk]

theorem np_mul_natDegree (x y : BitVec 64) : (np x * np y).natDegree < 128 :=
  lt_of_le_of_lt natDegree_mul_le (by have := np_natDegree x; have := np_natDegree y; omega)

theorem cv_high (x y : BitVec 64) {p : Nat} (h : 127 ≤ p) : cv x y p = 0 := by
  refine coeff_eq_zero_of_natDegree_lt (lt_of_le_of_lt natDegree_mul_le ?_)
  have := np_natDegree x; have := np_natDegree y; omega

theorem mul_toNat_sum (x y : BitVec 64) :
    x.toNat * y.toNat = ∑ p ∈ range 128, cv x y p * 2 ^ p := by
  rw [← np_eval_two, ← np_eval_two, ← eval_mul, eval_eq_sum_range' (np_mul_natDegree x y)]
  rfl

/-- `x` has ones only at places congruent to `r` modulo four. -/
def Comb (r : Nat) (x : BitVec 64) : Prop := ∀ i, x.getLsbD i = true → i % 4 = r

theorem cv_comb {r s : Nat} {x y : BitVec 64} (hx : Comb r x) (hy : Comb s y) {p : Nat}
    (h : cv x y p ≠ 0) : p % 4 = (r + s) % 4 := by
  rw [cv_range] at h
  obtain ⟨i, hi, hne⟩ := exists_ne_zero_of_sum_ne_zero h
  have hi := mem_range.1 hi
  rcases hb : x.getLsbD i with _ | _
  · rw [hb] at hne; simp at hne
  rcases hc : y.getLsbD (p - i) with _ | _
  · rw [hc] at hne; simp at hne
  have := hx _ hb; have := hy _ hc
  omega

theorem cv_le {r : Nat} {x : BitVec 64} (hx : Comb r x) (y : BitVec 64) (p : Nat) :
    cv x y p ≤ p / 4 + 1 := by
  rw [cv_range]
  have h1 : ∀ i ∈ range (p + 1), (x.getLsbD i).toNat * (y.getLsbD (p - i)).toNat ≤
      if i % 4 = r then 1 else 0 := by
    intro i _
    rcases hb : x.getLsbD i with _ | _
    · simp
    · rw [if_pos (hx _ hb)]
      rcases y.getLsbD (p - i) <;> simp
  refine le_trans (sum_le_sum h1) ?_
  rw [sum_boole, Nat.cast_id]
  have h2 : ((range (p + 1)).filter fun i => i % 4 = r) ⊆
      (range (p / 4 + 1)).image fun t => 4 * t + r := by
    intro i hi
    rw [mem_filter, mem_range] at hi
    rw [mem_image]
    refine ⟨i / 4, ?_, ?_⟩
    · rw [mem_range]; omega
    · omega
  exact (card_le_card h2).trans (card_image_le.trans (by rw [card_range]))

/-- No carry reaches the place `ρ + 4 q`. -/
theorem low_lt {c : Nat → Nat} {ρ : Nat} (hρ : ρ < 4) (hc : ∀ p, c p ≠ 0 → p % 4 = ρ)
    (q : Nat) (hb : ∀ p, p < ρ + 4 * q → c p ≤ 15) :
    ∑ p ∈ range (ρ + 4 * q), c p * 2 ^ p < 2 ^ (ρ + 4 * q) := by
  induction q with
  | zero =>
    rw [sum_eq_zero]
    · exact Nat.two_pow_pos _
    · intro p hp
      have hp := mem_range.1 hp
      by_contra h
      have := hc p fun h0 => h (by rw [h0, Nat.zero_mul])
      omega
  | succ q ih =>
    have hz : ∀ d, 0 < d → d < 4 → c (ρ + 4 * q + d) = 0 := by
      intro d h1 h2
      by_contra h
      have := hc _ h
      omega
    rw [show ρ + 4 * (q + 1) = ρ + 4 * q + 1 + 1 + 1 + 1 by ring, sum_range_succ, sum_range_succ,
      sum_range_succ, sum_range_succ, show ρ + 4 * q + 1 + 1 = ρ + 4 * q + 2 by ring,
      show ρ + 4 * q + 2 + 1 = ρ + 4 * q + 3 by ring, hz 1 (by omega) (by omega),
      hz 2 (by omega) (by omega), hz 3 (by omega) (by omega)]
    have h1 := ih fun p hp => hb p (by omega)
    have h2 := hb (ρ + 4 * q) (by omega)
    have h3 : c (ρ + 4 * q) * 2 ^ (ρ + 4 * q) ≤ 15 * 2 ^ (ρ + 4 * q) := Nat.mul_le_mul_right _ h2
    have h4 : 2 ^ (ρ + 4 * q + 3 + 1) = 16 * 2 ^ (ρ + 4 * q) := by
      rw [show ρ + 4 * q + 3 + 1 = ρ + 4 * q + 4 by ring, pow_add]; ring
    omega

theorem mod_two_eq_decide (n : Nat) : (decide (n % 2 = 1)).toNat = n % 2 := by
  rcases Nat.mod_two_eq_zero_or_one n with h | h <;> simp [h]

/-- The bits of a product of two combs are the parities, at the places the masks keep. -/
theorem comb_mul {r s : Nat} {x y : BitVec 64} (hx : Comb r x) (hy : Comb s y) {p : Nat}
    (hp : p < 64) (hc : p % 4 = (r + s) % 4) :
    (x * y).getLsbD p = decide (cv x y p % 2 = 1) := by
  have hsum := mul_toNat_sum x y
  obtain ⟨q, hq⟩ : ∃ q, p = p % 4 + 4 * q := ⟨p / 4, by omega⟩
  have hlow := low_lt (c := cv x y) (ρ := p % 4) (by omega)
    (fun p' h => by rw [hc]; exact cv_comb hx hy h) q (by
      intro p' hp'
      by_cases h0 : cv x y p' = 0
      · omega
      · have h1 := cv_comb hx hy h0
        have h2 := cv_le hx y p'
        omega)
  rw [← hq] at hlow
  have hsplit : ∑ p' ∈ range 128, cv x y p' * 2 ^ p' = ∑ p' ∈ range p, cv x y p' * 2 ^ p' +
      cv x y p * 2 ^ p + 2 ^ (p + 1) * ∑ j ∈ range (127 - p), cv x y (p + 1 + j) * 2 ^ j := by
    rw [show 128 = p + 1 + (127 - p) by omega, sum_range_add, sum_range_succ, mul_sum]
    congr 1
    refine sum_congr rfl fun j _ => ?_
    rw [pow_add 2 (p + 1) j]; ring
  rw [hsplit] at hsum
  obtain ⟨A, hA⟩ : ∃ A, ∑ p' ∈ range p, cv x y p' * 2 ^ p' = A := ⟨_, rfl⟩
  obtain ⟨B, hB⟩ : ∃ B, ∑ j ∈ range (127 - p), cv x y (p + 1 + j) * 2 ^ j = B := ⟨_, rfl⟩
  rw [hA] at hlow hsum
  rw [hB] at hsum
  have hN : x.toNat * y.toNat = A + 2 ^ p * (cv x y p + 2 * B) := by
    rw [hsum, pow_succ]; ring
  have hbit : (x * y).getLsbD p = (x.toNat * y.toNat).testBit p := by
    rw [BitVec.getLsbD, BitVec.toNat_mul, Nat.testBit_mod_two_pow]
    simp [hp]
  rw [hbit, Nat.testBit_eq_decide_div_mod_eq, hN, Nat.add_mul_div_left _ _ (Nat.two_pow_pos p),
    Nat.div_eq_of_lt hlow, Nat.zero_add, Nat.add_mul_mod_self_left]

/-- The masks of `bmul64`. -/
def mask : Nat → BitVec 64
  | 0 => 0x1111111111111111#64
  | 1 => 0x2222222222222222#64
  | 2 => 0x4444444444444444#64
  | _ => 0x8888888888888888#64

theorem mask_bit : ∀ r < 4, ∀ i < 64, (mask r).getLsbD i = decide (i % 4 = r) := by decide +kernel

theorem and_mask_bit (x : BitVec 64) {r : Nat} (hr : r < 4) (i : Nat) :
    (x &&& mask r).getLsbD i = (x.getLsbD i && decide (i % 4 = r)) := by
  rw [BitVec.getLsbD_and]
  by_cases hi : i < 64
  · rw [mask_bit r hr i hi]
  · rw [BitVec.getLsbD_of_ge x i (by omega)]; rfl

theorem comb_mask (x : BitVec 64) {r : Nat} (hr : r < 4) : Comb r (x &&& mask r) := by
  intro i h
  rw [and_mask_bit x hr] at h
  simp at h
  exact h.2

/-- The parity of the sum over the four pairs of masks. -/
theorem cv_masks (x y : BitVec 64) (p : Nat) (s : Nat → Nat)
    (hs : ∀ r < 4, s r < 4 ∧ (r + s r) % 4 = p % 4) :
    cv (x &&& mask 0) (y &&& mask (s 0)) p + cv (x &&& mask 1) (y &&& mask (s 1)) p +
      cv (x &&& mask 2) (y &&& mask (s 2)) p + cv (x &&& mask 3) (y &&& mask (s 3)) p =
      cv x y p := by
  simp only [cv_range]
  rw [← sum_add_distrib, ← sum_add_distrib, ← sum_add_distrib]
  refine sum_congr rfl fun i hi => ?_
  have hi := mem_range.1 hi
  have h0 := hs 0 (by omega); have h1 := hs 1 (by omega)
  have h2 := hs 2 (by omega); have h3 := hs 3 (by omega)
  simp only [and_mask_bit x (show 0 < 4 by omega), and_mask_bit x (show 1 < 4 by omega),
    and_mask_bit x (show 2 < 4 by omega), and_mask_bit x (show 3 < 4 by omega),
    and_mask_bit y h0.1, and_mask_bit y h1.1, and_mask_bit y h2.1, and_mask_bit y h3.1]
  have hcase : i % 4 = 0 ∨ i % 4 = 1 ∨ i % 4 = 2 ∨ i % 4 = 3 := by omega
  rcases hcase with h | h | h | h
  · rw [show (p - i) % 4 = s 0 by omega]; simp [h]
  · rw [show (p - i) % 4 = s 1 by omega]; simp [h]
  · rw [show (p - i) % 4 = s 2 by omega]; simp [h]
  · rw [show (p - i) % 4 = s 3 by omega]; simp [h]

theorem xor_parity (a b c d : Nat) :
    (((decide (a % 2 = 1) ^^ decide (b % 2 = 1)) ^^ decide (c % 2 = 1)) ^^ decide (d % 2 = 1)) =
      decide ((a + b + c + d) % 2 = 1) := by
  rcases Nat.mod_two_eq_zero_or_one a with ha | ha <;>
    rcases Nat.mod_two_eq_zero_or_one b with hb | hb <;>
    rcases Nat.mod_two_eq_zero_or_one c with hc | hc <;>
    rcases Nat.mod_two_eq_zero_or_one d with hd | hd <;>
    simp [ha, hb, hc, hd, Nat.add_mod]

theorem four_products (x y : BitVec 64) {p : Nat} (hp : p < 64) (s0 s1 s2 s3 : Nat)
    (h0 : s0 < 4 ∧ s0 % 4 = p % 4) (h1 : s1 < 4 ∧ (1 + s1) % 4 = p % 4)
    (h2 : s2 < 4 ∧ (2 + s2) % 4 = p % 4) (h3 : s3 < 4 ∧ (3 + s3) % 4 = p % 4) :
    (((x &&& mask 0) * (y &&& mask s0)) ^^^ ((x &&& mask 1) * (y &&& mask s1)) ^^^
      ((x &&& mask 2) * (y &&& mask s2)) ^^^ ((x &&& mask 3) * (y &&& mask s3))).getLsbD p =
      decide (cv x y p % 2 = 1) := by
  simp only [BitVec.getLsbD_xor]
  rw [comb_mul (comb_mask x (by omega)) (comb_mask y h0.1) hp (by omega),
    comb_mul (comb_mask x (by omega)) (comb_mask y h1.1) hp (by omega),
    comb_mul (comb_mask x (by omega)) (comb_mask y h2.1) hp (by omega),
    comb_mul (comb_mask x (by omega)) (comb_mask y h3.1) hp (by omega), xor_parity]
  have := cv_masks x y p (fun r => if r = 0 then s0 else if r = 1 then s1 else if r = 2 then s2 else s3)
    (by
      intro r hr
      have : r = 0 ∨ r = 1 ∨ r = 2 ∨ r = 3 := by omega
      rcases this with rfl | rfl | rfl | rfl
      · exact ⟨h0.1, by simpa using h0.2⟩
      · exact h1
      · exact h2
      · exact h3)
  simp only [if_true, if_false, one_ne_zero] at this
  rw [← this]
  rfl

/-- `bmul64` is the carry-less product, truncated to 64 bits. -/
theorem bmul64_bit (x y : BitVec 64) {p : Nat} (hp : p < 64) :
    (bmul64 x y).getLsbD p = decide (cv x y p % 2 = 1) := by
  have e : bmul64 x y =
    ((((x &&& mask 0) * (y &&& mask 0)) ^^^ ((x &&& mask 1) * (y &&& mask 3)) ^^^
      ((x &&& mask 2) * (y &&& mask 2)) ^^^ ((x &&& mask 3) * (y &&& mask 1))) &&& mask 0) |||
    ((((x &&& mask 0) * (y &&& mask 1)) ^^^ ((x &&& mask 1) * (y &&& mask 0)) ^^^
      ((x &&& mask 2) * (y &&& mask 3)) ^^^ ((x &&& mask 3) * (y &&& mask 2))) &&& mask 1) |||
    ((((x &&& mask 0) * (y &&& mask 2)) ^^^ ((x &&& mask 1) * (y &&& mask 1)) ^^^
      ((x &&& mask 2) * (y &&& mask 0)) ^^^ ((x &&& mask 3) * (y &&& mask 3))) &&& mask 2) |||
    ((((x &&& mask 0) * (y &&& mask 3)) ^^^ ((x &&& mask 1) * (y &&& mask 2)) ^^^
      ((x &&& mask 2) * (y &&& mask 1)) ^^^ ((x &&& mask 3) * (y &&& mask 0))) &&& mask 3) := rfl
  rw [e, BitVec.getLsbD_or, BitVec.getLsbD_or, BitVec.getLsbD_or, and_mask_bit _ (by omega),
    and_mask_bit _ (by omega), and_mask_bit _ (by omega), and_mask_bit _ (by omega)]
  have hcase : p % 4 = 0 ∨ p % 4 = 1 ∨ p % 4 = 2 ∨ p % 4 = 3 := by omega
  rcases hcase with h | h | h | h
  · rw [four_products x y hp 0 3 2 1 (by omega) (by omega) (by omega) (by omega)]; simp [h]
  · rw [four_products x y hp 1 0 3 2 (by omega) (by omega) (by omega) (by omega)]; simp [h]
  · rw [four_products x y hp 2 1 0 3 (by omega) (by omega) (by omega) (by omega)]; simp [h]
  · rw [four_products x y hp 3 2 1 0 (by omega) (by omega) (by omega) (by omega)]; simp [h]

end Verif.Field.Polyval
