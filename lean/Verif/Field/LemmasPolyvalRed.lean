import Verif.Field.LemmasPolyvalMul

/-!
# The Montgomery product, evaluated in a field
-/

namespace Verif.Field.Polyval
open Polynomial Finset

/-! ## Bit reversal -/

theorem rev_step (x m : BitVec 64) (s : Nat) (hs : s < 64)
    (hm : ∀ i < 64, (m.getLsbD i = !i.testBit s.log2) ∧
      ((decide (s ≤ i) && m.getLsbD (i - s)) = i.testBit s.log2) ∧
      (i.testBit s.log2 = true → i - s = i ^^^ s) ∧ (i.testBit s.log2 = false → s + i = i ^^^ s))
    {i : Nat} (hi : i < 64) :
    (((x &&& m) <<< s) ||| ((x >>> s) &&& m)).getLsbD i = x.getLsbD (i ^^^ s) := by
  obtain ⟨h1, h2, h3, h4⟩ := hm i hi
  rw [BitVec.getLsbD_or, BitVec.getLsbD_shiftLeft, BitVec.getLsbD_and, BitVec.getLsbD_and,
    BitVec.getLsbD_ushiftRight, h1]
  rcases hb : i.testBit s.log2 with _ | _
  · rw [hb] at h2
    rw [h4 hb]
    by_cases hle : s ≤ i
    · have : m.getLsbD (i - s) = false := by simpa [hle] using h2
      simp [this]
    · simp [show i < s by omega]
  · rw [hb] at h2
    simp only [Bool.and_eq_true, decide_eq_true_eq] at h2
    rw [h3 hb, ← h3 hb, h2.2]
    simp [hi, show ¬ i < s by omega]

theorem xor_lt : ∀ s < 64, ∀ i < 64, i ^^^ s < 64 := by decide +kernel

theorem rev64_bit (x : BitVec 64) {i : Nat} (hi : i < 64) :
    (rev64 x).getLsbD i = x.getLsbD (63 - i) := by
  unfold rev64
  extract_lets x1 x2 x3 x4 x5
  have hrot : ∀ y : BitVec 64, (y.rotateRight 32).getLsbD i = y.getLsbD (i ^^^ 32) := by
    intro y
    rw [BitVec.getLsbD_rotateRight]
    have hx : ∀ i < 64, i ^^^ 32 = if i < 32 then 32 + i else i - 32 := by decide +kernel
    rw [hx i hi]
    by_cases h : i < 32
    · simp [h]
    · simp [h, hi]
  rw [hrot, show x5 = _ from rfl, rev_step x4 _ 16 (by omega) (by decide +kernel) (xor_lt _ (by omega) _ hi),
    show x4 = _ from rfl, rev_step x3 _ 8 (by omega) (by decide +kernel)
      (xor_lt _ (by omega) _ (xor_lt _ (by omega) _ hi)),
    show x3 = _ from rfl, rev_step x2 _ 4 (by omega) (by decide +kernel)
      (xor_lt _ (by omega) _ (xor_lt _ (by omega) _ (xor_lt _ (by omega) _ hi))),
    show x2 = _ from rfl, rev_step x1 _ 2 (by omega) (by decide +kernel)
      (xor_lt _ (by omega) _ (xor_lt _ (by omega) _ (xor_lt _ (by omega) _ (xor_lt _ (by omega) _ hi)))),
    show x1 = _ from rfl, rev_step x _ 1 (by omega) (by decide +kernel)
      (xor_lt _ (by omega) _ (xor_lt _ (by omega) _ (xor_lt _ (by omega) _ (xor_lt _ (by omega) _
        (xor_lt _ (by omega) _ hi)))))]
  have : ∀ i < 64, i ^^^ 32 ^^^ 16 ^^^ 8 ^^^ 4 ^^^ 2 ^^^ 1 = 63 - i := by decide +kernel
  rw [this i hi]

theorem rev64_xor (x y : BitVec 64) : rev64 (x ^^^ y) = rev64 x ^^^ rev64 y := by
  apply BitVec.eq_of_getLsbD_eq
  intro i hi
  rw [BitVec.getLsbD_xor, rev64_bit _ hi, rev64_bit _ hi, rev64_bit _ hi, BitVec.getLsbD_xor]

theorem cv_square (x y : BitVec 64) (n : Nat) :
    cv x y n = ∑ i ∈ range 64, ∑ j ∈ range 64,
      if i + j = n then (x.getLsbD i).toNat * (y.getLsbD j).toNat else 0 := by
  rw [cv, np, np, sum_mul_sum, finset_sum_coeff]
  refine sum_congr rfl fun i _ => ?_
  rw [finset_sum_coeff]
  refine sum_congr rfl fun j _ => ?_
  rw [show C (x.getLsbD i).toNat * X ^ i * (C (y.getLsbD j).toNat * X ^ j) =
    C ((x.getLsbD i).toNat * (y.getLsbD j).toNat) * X ^ (i + j) by
      rw [C_mul, pow_add]; ring, coeff_C_mul, coeff_X_pow]
  by_cases h : n = i + j
  · rw [if_pos h, if_pos h.symm, mul_one]
  · rw [if_neg h, if_neg (Ne.symm h), mul_zero]

theorem cv_rev (x y : BitVec 64) {p : Nat} (hp : p < 63) :
    cv (rev64 x) (rev64 y) (62 - p) = cv x y (64 + p) := by
  rw [cv_square, cv_square, ← sum_range_reflect]
  refine sum_congr rfl fun i hi => ?_
  have hi := mem_range.1 hi
  rw [← sum_range_reflect]
  refine sum_congr rfl fun j hj => ?_
  have hj := mem_range.1 hj
  rw [rev64_bit _ (by omega), rev64_bit _ (by omega), show 63 - (64 - 1 - i) = i by omega,
    show 63 - (64 - 1 - j) = j by omega]
  by_cases h : i + j = 64 + p
  · rw [if_pos (by omega), if_pos h]
  · rw [if_neg (by omega), if_neg h]

/-! ## Evaluation -/

variable {F : Type} [Field F] [CharP F 2]

/-- The value at `g` of the polynomial whose coefficients are the bits. -/
def ev (g : F) {w : Nat} (x : BitVec w) : F :=
  ∑ i ∈ range w, if x.getLsbD i then g ^ i else 0

theorem ev_xor (g : F) {w : Nat} (x y : BitVec w) : ev g (x ^^^ y) = ev g x + ev g y := by
  rw [ev, ev, ev, ← sum_add_distrib]
  refine sum_congr rfl fun i _ => ?_
  rw [BitVec.getLsbD_xor]
  rcases x.getLsbD i <;> rcases y.getLsbD i <;> simp [CharTwo.add_self_eq_zero]

omit [CharP F 2] in
theorem ev_zero (g : F) {w : Nat} : ev g (0#w) = 0 := by
  rw [ev, sum_eq_zero]; intro i _; simp

theorem cast_parity (n : Nat) : (n : F) = if decide (n % 2 = 1) = true then 1 else 0 := by
  conv_lhs => rw [← Nat.div_add_mod n 2]
  rw [Nat.cast_add, Nat.cast_mul, Nat.cast_two, CharTwo.two_eq_zero, zero_mul, zero_add]
  rcases Nat.mod_two_eq_zero_or_one n with h | h <;> simp [h]

omit [CharP F 2] in
theorem ev_eq_eval₂ (g : F) {w : Nat} (x : BitVec w) :
    ev g x = (np x).eval₂ (Nat.castRingHom F) g := by
  rw [np, eval₂_finset_sum, ev]
  refine sum_congr rfl fun i _ => ?_
  rw [eval₂_mul, eval₂_C, eval₂_X_pow]
  rcases x.getLsbD i <;> simp

omit [CharP F 2] in
theorem ev_mul_sum (g : F) (x y : BitVec 64) :
    ev g x * ev g y = ∑ p ∈ range 128, (cv x y p : F) * g ^ p := by
  rw [ev_eq_eval₂, ev_eq_eval₂, ← eval₂_mul, eval₂_eq_sum_range' _ (np_mul_natDegree x y)]
  rfl

/-- Low and high half of a carry-less product. -/
theorem ev_halves (g : F) (x y : BitVec 64) :
    ev g (bmul64 x y) + g ^ 64 * ev g (rev64 (bmul64 (rev64 x) (rev64 y)) >>> 1) =
      ev g x * ev g y := by
  rw [ev_mul_sum, show (128 : Nat) = 64 + 64 from rfl, sum_range_add]
  congr 1
  · rw [ev]
    refine sum_congr rfl fun p hp => ?_
    rw [bmul64_bit _ _ (mem_range.1 hp), cast_parity (cv x y p)]
    split <;> simp
  · rw [ev, mul_sum]
    refine sum_congr rfl fun p hp => ?_
    have hp := mem_range.1 hp
    rw [BitVec.getLsbD_ushiftRight]
    by_cases h : p < 63
    · rw [rev64_bit _ (by omega), bmul64_bit _ _ (by omega), show 63 - (1 + p) = 62 - p by omega,
        cv_rev x y h, cast_parity (cv x y (64 + p)), pow_add]
      split <;> simp
    · rw [BitVec.getLsbD_of_ge _ _ (by omega), cv_high x y (by omega)]
      simp

omit [CharP F 2] in
/-- A shift and its overflow. -/
theorem ev_shift (g : F) (v : BitVec 64) {s : Nat} (hs : s ≤ 64) :
    ev g (v <<< s) + g ^ 64 * ev g (v >>> (64 - s)) = g ^ s * ev g v := by
  have h1 : ev g (v <<< s) = ∑ j ∈ range (64 - s), if v.getLsbD j then g ^ (s + j) else 0 := by
    rw [ev]
    have : (64 : Nat) = s + (64 - s) := by omega
    conv_lhs => rw [show range 64 = range (s + (64 - s)) by rw [← this]]
    rw [sum_range_add, sum_eq_zero, zero_add]
    · refine sum_congr rfl fun j hj => ?_
      have := mem_range.1 hj
      rw [BitVec.getLsbD_shiftLeft]
      simp [show s + j < 64 by omega]
    · intro i hi
      have := mem_range.1 hi
      rw [BitVec.getLsbD_shiftLeft]
      simp [this]
  have h2 : g ^ 64 * ev g (v >>> (64 - s)) =
      ∑ j ∈ range s, if v.getLsbD (64 - s + j) then g ^ (s + (64 - s + j)) else 0 := by
    rw [ev]
    have : (64 : Nat) = s + (64 - s) := by omega
    conv_lhs => rw [show range 64 = range (s + (64 - s)) by rw [← this]]
    rw [sum_range_add, mul_add, mul_sum, mul_sum]
    rw [sum_eq_zero (s := range (64 - s)), add_zero]
    · refine sum_congr rfl fun j hj => ?_
      rw [BitVec.getLsbD_ushiftRight, show s + (64 - s + j) = 64 + j by omega, pow_add]
      split <;> simp
    · intro j _
      rw [BitVec.getLsbD_ushiftRight, BitVec.getLsbD_of_ge _ _ (by omega)]
      simp
  rw [h1, h2, ev]
  have : (64 : Nat) = 64 - s + s := by omega
  conv_rhs => rw [show range 64 = range (64 - s + s) by rw [← this]]
  rw [sum_range_add, mul_add, mul_sum, mul_sum]
  congr 1
  · refine sum_congr rfl fun j _ => ?_
    rw [pow_add]; split <;> simp
  · refine sum_congr rfl fun j _ => ?_
    rw [pow_add]; split <;> simp

omit [CharP F 2] in
theorem ev_split (g : F) (a : BitVec 128) :
    ev g a = ev g (a.setWidth 64) + g ^ 64 * ev g ((a >>> 64).setWidth 64) := by
  rw [ev]
  conv_lhs => rw [show range 128 = range (64 + 64) from rfl]
  rw [sum_range_add, ev, ev, mul_sum]
  congr 1
  · refine sum_congr rfl fun i hi => ?_
    rw [BitVec.getLsbD_setWidth]; simp [mem_range.1 hi]
  · refine sum_congr rfl fun i hi => ?_
    rw [BitVec.getLsbD_setWidth, BitVec.getLsbD_ushiftRight, pow_add]
    simp [mem_range.1 hi]

theorem join_lo (v2 v3 : BitVec 64) :
    (v2.setWidth 128 ||| (v3.setWidth 128) <<< 64).setWidth 64 = v2 := by
  apply BitVec.eq_of_getLsbD_eq
  intro i hi
  simp [hi]

theorem join_hi (v2 v3 : BitVec 64) :
    ((v2.setWidth 128 ||| (v3.setWidth 128) <<< 64) >>> 64).setWidth 64 = v3 := by
  apply BitVec.eq_of_getLsbD_eq
  intro i hi
  rw [BitVec.getLsbD_setWidth, BitVec.getLsbD_ushiftRight, BitVec.getLsbD_or,
    BitVec.getLsbD_shiftLeft, BitVec.getLsbD_setWidth, BitVec.getLsbD_setWidth,
    BitVec.getLsbD_of_ge v2 _ (by omega)]
  simp [hi, show 64 + i < 128 by omega]
  intro _; omega

theorem ev_reduce (g : F) (hg : g ^ 128 + g ^ 127 + g ^ 126 + g ^ 121 + 1 = 0)
    (v0 v1 v2 v3 : BitVec 64) :
    ev g (reduce v0 v1 v2 v3) * g ^ 128 =
      ev g v0 + g ^ 64 * ev g v1 + g ^ 128 * ev g v2 + g ^ 192 * ev g v3 := by
  have key : ∀ v : BitVec 64, ev g v + g ^ 64 * ev g ((v <<< 63) ^^^ (v <<< 62) ^^^ (v <<< 57)) +
      g ^ 128 * ev g (v ^^^ (v >>> 1) ^^^ (v >>> 2) ^^^ (v >>> 7)) = 0 := by
    intro v
    have h1 := ev_shift g v (s := 63) (by omega)
    have h2 := ev_shift g v (s := 62) (by omega)
    have h3 := ev_shift g v (s := 57) (by omega)
    rw [ev_xor, ev_xor, ev_xor, ev_xor, ev_xor]
    norm_num at h1 h2 h3
    linear_combination ev g v * hg + g ^ 64 * h1 + g ^ 64 * h2 + g ^ 64 * h3
  unfold reduce
  extract_lets w2 w1 w3 u2
  rw [ev_split, join_lo, join_hi]
  have e2 : ev g w2 = ev g v2 + ev g (v0 ^^^ (v0 >>> 1) ^^^ (v0 >>> 2) ^^^ (v0 >>> 7)) :=
    ev_xor _ _ _
  have e1 : ev g w1 = ev g v1 + ev g ((v0 <<< 63) ^^^ (v0 <<< 62) ^^^ (v0 <<< 57)) := ev_xor _ _ _
  have e3 : ev g w3 = ev g v3 + ev g (w1 ^^^ (w1 >>> 1) ^^^ (w1 >>> 2) ^^^ (w1 >>> 7)) :=
    ev_xor _ _ _
  have e4 : ev g u2 = ev g w2 + ev g ((w1 <<< 63) ^^^ (w1 <<< 62) ^^^ (w1 <<< 57)) := ev_xor _ _ _
  have k0 := key v0
  have k1 := key w1
  have t : (2 : F) = 0 := CharTwo.two_eq_zero
  rw [e4, e3, e2]
  rw [e1] at k1
  linear_combination (k0 + g ^ 64 * k1) - t * (ev g v0 + g ^ 64 * ev g v1 + g ^ 64 *
    ev g ((v0 <<< 63) ^^^ (v0 <<< 62) ^^^ (v0 <<< 57)))

/-- The Montgomery product: `a b x^-128`. -/
theorem ev_mul (g : F) (hg : g ^ 128 + g ^ 127 + g ^ 126 + g ^ 121 + 1 = 0) (a b : BitVec 128) :
    ev g (mul a b) * g ^ 128 = ev g a * ev g b := by
  unfold mul
  extract_lets h0 h1 h0r h1r h2 h2r y0 y1 y0r y1r y2 y2r z0 z1 z2 z0h z1h z2h w2 w2h u0h u1h u2h
  rw [ev_reduce g hg, ev_split g a, ev_split g b]
  have e0 : ev g z0 + g ^ 64 * ev g u0h = ev g y0 * ev g h0 := ev_halves g y0 h0
  have e1 : ev g z1 + g ^ 64 * ev g u1h = ev g y1 * ev g h1 := ev_halves g y1 h1
  have r2 : rev64 y2 = y2r := rev64_xor _ _
  have s2 : rev64 h2 = h2r := rev64_xor _ _
  have e2 : ev g z2 + g ^ 64 * ev g (rev64 z2h >>> 1) = ev g y2 * ev g h2 := by
    have := ev_halves g y2 h2
    rwa [r2, s2] at this
  have f2 : ev g w2 = ev g z2 + (ev g z0 + ev g z1) := by
    rw [show w2 = z2 ^^^ (z0 ^^^ z1) from rfl, ev_xor, ev_xor]
  have f3 : ev g u2h = ev g (rev64 z2h >>> 1) + (ev g u0h + ev g u1h) := by
    have : u2h = (rev64 z2h >>> 1) ^^^ (u0h ^^^ u1h) := by
      show rev64 (z2h ^^^ (z0h ^^^ z1h)) >>> 1 = _
      rw [rev64_xor, rev64_xor, BitVec.ushiftRight_xor_distrib, BitVec.ushiftRight_xor_distrib]
    rw [this, ev_xor, ev_xor]
  have gy : ev g y2 = ev g y0 + ev g y1 := ev_xor _ _ _
  have gh : ev g h2 = ev g h0 + ev g h1 := ev_xor _ _ _
  rw [show ev g (u0h ^^^ w2) = ev g u0h + ev g w2 from ev_xor _ _ _,
    show ev g (z1 ^^^ u2h) = ev g z1 + ev g u2h from ev_xor _ _ _, f2, f3]
  rw [gy, gh] at e2
  have t : (2 : F) = 0 := CharTwo.two_eq_zero
  show _ = (ev g h0 + g ^ 64 * ev g h1) * (ev g y0 + g ^ 64 * ev g y1)
  linear_combination e0 + g ^ 64 * e2 + g ^ 64 * e0 + g ^ 64 * e1 + g ^ 128 * e1 +
    t * g ^ 64 * (ev g y0 * ev g h0 + ev g y1 * ev g h1)

end Verif.Field.Polyval
