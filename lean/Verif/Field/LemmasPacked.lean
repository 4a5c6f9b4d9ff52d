import Verif.Field.ModelPacked
import Mathlib.Tactic.Common

namespace Verif.Field

namespace T

theorem ofBits_congr : (k : Nat) → {f g : Nat → Bool} → (∀ j, j < 2 ^ k → f j = g j) →
    ofBits k f = ofBits k g
  | 0, _, _, h => h 0 (by simp)
  | k + 1, _, _, h => Prod.ext
      (ofBits_congr k (fun j hj => h j (by rw [Nat.pow_succ]; omega)))
      (ofBits_congr k (fun j hj => h _ (by rw [Nat.pow_succ]; omega)))

theorem ofBits_xor : (k : Nat) → (f g : Nat → Bool) →
    ofBits k (fun j => Bool.xor (f j) (g j)) = ofBits k f + ofBits k g
  | 0, _, _ => rfl
  | k + 1, _, _ => Prod.ext (ofBits_xor k _ _) (ofBits_xor k _ _)

theorem ofBits_false : (k : Nat) → ofBits k (fun _ => false) = 0
  | 0 => rfl
  | k + 1 => Prod.ext (ofBits_false k) (ofBits_false k)

theorem bit_ofBits : (k : Nat) → (f : Nat → Bool) → (j : Nat) → j < 2 ^ k →
    bit k (ofBits k f) j = f j
  | 0, f, j, h => by
    have : j = 0 := by simpa using h
    subst this; rfl
  | k + 1, f, j, h => by
    show (if j < 2 ^ k then bit k (ofBits k f) j else
      bit k (ofBits k (fun j => f (2 ^ k + j))) (j - 2 ^ k)) = f j
    split
    · rw [bit_ofBits k f j ‹_›]
    · rw [bit_ofBits k _ _ (by rw [Nat.pow_succ] at h; omega)]
      congr 1; omega

theorem ofBits_bit : (k : Nat) → (a : T k) → ofBits k (bit k a) = a
  | 0, _ => rfl
  | k + 1, (a0, a1) => by
    refine Prod.ext ?_ ?_
    · refine (ofBits_congr k ?_).trans (ofBits_bit k a0)
      intro j hj
      show (if j < 2 ^ k then bit k a0 j else _) = _
      rw [if_pos hj]
    · refine (ofBits_congr k ?_).trans (ofBits_bit k a1)
      intro j hj
      show (if 2 ^ k + j < 2 ^ k then _ else bit k a1 (2 ^ k + j - 2 ^ k)) = _
      rw [if_neg (by omega)]
      congr 1; omega

theorem bit_ge : (k : Nat) → (a : T k) → (j : Nat) → 2 ^ k ≤ j → bit k a j = false
  | 0, a, j, h => by
    have h0 : j ≠ 0 := by rintro rfl; simp at h
    exact if_neg h0
  | k + 1, (a0, a1), j, h => by
    rw [Nat.pow_succ] at h
    show (if j < 2 ^ k then bit k a0 j else bit k a1 (j - 2 ^ k)) = false
    rw [if_neg (by omega)]
    exact bit_ge k a1 _ (by omega)

theorem bit_inj {k : Nat} {a b : T k} (h : ∀ j, j < 2 ^ k → bit k a j = bit k b j) : a = b := by
  rw [← ofBits_bit k a, ← ofBits_bit k b]
  exact ofBits_congr k h

theorem bit_zero (k j : Nat) : bit k (0 : T k) j = false := by
  by_cases h : j < 2 ^ k
  · rw [← ofBits_false k, bit_ofBits k _ _ h]
  · exact bit_ge k _ _ (by omega)

theorem bit_add {k : Nat} (a b : T k) (j : Nat) :
    bit k (a + b) j = Bool.xor (bit k a j) (bit k b j) := by
  by_cases h : j < 2 ^ k
  · conv_lhs => rw [← ofBits_bit k a, ← ofBits_bit k b, ← ofBits_xor, bit_ofBits k _ _ h]
  · rw [bit_ge _ _ _ (by omega), bit_ge _ _ _ (by omega), bit_ge _ _ _ (by omega)]; rfl

theorem bit_one : (k j : Nat) → bit k (1 : T k) j = decide (j = 0)
  | 0, j => by
    show (if j = 0 then true else false) = _
    by_cases h : j = 0 <;> simp [h]
  | k + 1, j => by
    show (if j < 2 ^ k then bit k (1 : T k) j else bit k (0 : T k) (j - 2 ^ k)) = _
    have := Nat.two_pow_pos k
    split
    · exact bit_one k j
    · rw [bit_zero]; symm; simp; omega

end T

section lanes
variable {L : Nat}

theorem lane_eq (k i : Nat) (u : U L) :
    lane k i u = T.ofBits k (fun j => u.getLsbD (i * 2 ^ k + j)) := by
  unfold lane
  simp [BitVec.getLsbD_ushiftRight]

theorem lane_congr {k i i' : Nat} {u v : U L}
    (h : ∀ j, j < 2 ^ k → u.getLsbD (i * 2 ^ k + j) = v.getLsbD (i' * 2 ^ k + j)) :
    lane k i u = lane k i' v := by
  rw [lane_eq, lane_eq]; exact T.ofBits_congr k h

theorem lane_eq_zero {k i : Nat} {u : U L}
    (h : ∀ j, j < 2 ^ k → u.getLsbD (i * 2 ^ k + j) = false) : lane k i u = 0 := by
  rw [lane_eq, ← T.ofBits_false k]; exact T.ofBits_congr k h

theorem bit_lane {k i : Nat} {u : U L} {j : Nat} (h : j < 2 ^ k) :
    T.bit k (lane k i u) j = u.getLsbD (i * 2 ^ k + j) := by
  rw [lane_eq, T.bit_ofBits _ _ _ h]

theorem lane_succ (k i : Nat) (u : U L) :
    lane (k + 1) i u = (lane k (2 * i) u, lane k (2 * i + 1) u) := by
  rw [lane_eq, lane_eq, lane_eq]
  refine Prod.ext (T.ofBits_congr k fun j _ => ?_) (T.ofBits_congr k fun j _ => ?_)
  · show u.getLsbD _ = u.getLsbD _
    congr 1; rw [Nat.pow_succ]; ring
  · show u.getLsbD _ = u.getLsbD _
    congr 1; rw [Nat.pow_succ]; ring

theorem lane_xor (k i : Nat) (u v : U L) : lane k i (u ^^^ v) = lane k i u + lane k i v := by
  rw [lane_eq, lane_eq, lane_eq, ← T.ofBits_xor]
  exact T.ofBits_congr k fun j _ => by simp

theorem lane_or_of_left {k i : Nat} {u v : U L} (h : lane k i u = 0) :
    lane k i (u ||| v) = lane k i v := by
  apply lane_congr
  intro j hj
  have := bit_lane (u := u) (i := i) hj
  rw [h, T.bit_zero] at this
  simp [← this]

theorem lane_or_of_right {k i : Nat} {u v : U L} (h : lane k i v = 0) :
    lane k i (u ||| v) = lane k i u := by
  rw [BitVec.or_comm]; exact lane_or_of_left h

/-- Indices of lanes are in range: `i < 2^(L-k)`. -/
theorem idx_lt {k i j : Nat} (hk : k ≤ L) (hi : i < 2 ^ (L - k)) (hj : j < 2 ^ k) :
    i * 2 ^ k + j < 2 ^ L := by
  have : 2 ^ L = 2 ^ (L - k) * 2 ^ k := by rw [← Nat.pow_add]; congr 1; omega
  have h2 : (i + 1) * 2 ^ k ≤ 2 ^ (L - k) * 2 ^ k := Nat.mul_le_mul_right _ hi
  rw [Nat.add_mul] at h2
  omega

theorem lane_shr (k i : Nat) (u : U L) :
    lane k i (u >>> (2 ^ k)) = lane k (i + 1) u := by
  apply lane_congr
  intro j _
  rw [BitVec.getLsbD_ushiftRight]
  congr 1; ring

theorem lane_shl_zero (k : Nat) (u : U L) : lane k 0 (u <<< (2 ^ k)) = 0 := by
  apply lane_eq_zero
  intro j hj
  rw [BitVec.getLsbD_shiftLeft]
  simp; intro _; omega

theorem lane_shl_succ {k i : Nat} (hk : k ≤ L) (hi : i + 1 < 2 ^ (L - k)) (u : U L) :
    lane k (i + 1) (u <<< (2 ^ k)) = lane k i u := by
  apply lane_congr
  intro j hj
  rw [BitVec.getLsbD_shiftLeft]
  have h1 := idx_lt hk hi hj
  have h2 : (i + 1) * 2 ^ k + j = i * 2 ^ k + j + 2 ^ k := by ring
  rw [h2] at h1 ⊢
  simp [h1]

end lanes

namespace Packed
variable {L : Nat}

/-- testBit of `i * 2^k + j` at position `k` is the parity of `i`. -/
theorem div_mod {k i j : Nat} (hj : j < 2 ^ k) : (i * 2 ^ k + j) / 2 ^ k % 2 = i % 2 := by
  rw [Nat.add_comm, Nat.add_mul_div_right _ _ (Nat.two_pow_pos k), Nat.div_eq_of_lt hj, Nat.zero_add]

theorem getLsbD_maskLoop (k : Nat) : (m : Nat) → (hm : k + m + 1 ≤ L) → (j : Nat) →
    (maskLoop L k m).getLsbD j = decide (j < 2 ^ (k + m + 1) ∧ j / 2 ^ k % 2 = 0)
  | 0, hm, j => by
    have hkL : 2 ^ k < 2 ^ L := Nat.pow_lt_pow_right (by omega) (by omega)
    have e : maskLoop L k 0 = BitVec.ofNat (2 ^ L) (2 ^ 2 ^ k - 1) := by
      apply BitVec.eq_of_toNat_eq
      have h1 : 2 ^ 2 ^ k < 2 ^ 2 ^ L := Nat.pow_lt_pow_right (by omega) hkL
      have h0 := Nat.two_pow_pos (2 ^ k)
      have h3 : 1 < 2 ^ 2 ^ L := Nat.one_lt_two_pow (Nat.two_pow_pos L).ne'
      simp only [maskLoop, BitVec.toNat_sub, BitVec.toNat_shiftLeft, BitVec.toNat_ofNat]
      rw [Nat.mod_eq_of_lt h3, Nat.one_shiftLeft, Nat.mod_eq_of_lt h1,
        Nat.mod_eq_of_lt (a := 2 ^ 2 ^ k - 1) (by omega)]
      rw [show 2 ^ 2 ^ L - 1 + 2 ^ 2 ^ k = (2 ^ 2 ^ k - 1) + 2 ^ 2 ^ L by omega]
      rw [Nat.add_mod_right, Nat.mod_eq_of_lt (by omega)]
    rw [e, BitVec.getLsbD_ofNat, Nat.testBit_two_pow_sub_one, Nat.pow_succ]
    have hp := Nat.two_pow_pos k
    rw [← Bool.decide_and, decide_eq_decide]
    constructor
    · rintro ⟨_, h⟩
      exact ⟨by omega, by rw [Nat.div_eq_of_lt h]⟩
    · rintro ⟨h1, h2⟩
      have : j < 2 ^ k := by
        by_contra hc
        have hd : j / 2 ^ k = 1 := by
          apply Nat.div_eq_of_lt_le <;> omega
        rw [hd] at h2; omega
      exact ⟨by omega, this⟩
  | m + 1, hm, j => by
    have ih := getLsbD_maskLoop k m (by omega)
    have hs : 2 ^ k * 2 ^ (m + 1) = 2 ^ (k + m + 1) := by rw [← Nat.pow_add]; rfl
    rw [maskLoop, BitVec.getLsbD_or, BitVec.getLsbD_shiftLeft, ih, hs, ih]
    have hp : 2 ^ (k + (m + 1) + 1) = 2 ^ (k + m + 1) + 2 ^ (k + m + 1) := by
      rw [Nat.pow_succ 2 (k + (m + 1))]; ring_nf
    have hL : 2 ^ (k + (m + 1) + 1) ≤ 2 ^ L := Nat.pow_le_pow_right (by omega) (by omega)
    have hpar : ∀ x, (x + 2 ^ (k + m + 1)) / 2 ^ k % 2 = x / 2 ^ k % 2 := by
      intro x
      rw [← hs, Nat.add_mul_div_left _ _ (Nat.two_pow_pos k), Nat.pow_succ]
      omega
    rw [hp] at hL ⊢
    by_cases h : j < 2 ^ (k + m + 1)
    · simp [h]; omega
    · obtain ⟨x, rfl⟩ : ∃ x, j = x + 2 ^ (k + m + 1) := ⟨j - 2 ^ (k + m + 1), by omega⟩
      rw [hpar]
      simp
      omega

theorem getLsbD_evenMask {k : Nat} (hk : k < L) (j : Nat) :
    (evenMask L k).getLsbD j = decide (j < 2 ^ L ∧ j / 2 ^ k % 2 = 0) := by
  rw [evenMask, getLsbD_maskLoop k _ (by omega), show k + (L - k - 1) + 1 = L by omega]

theorem lane_and_evenMask {k i : Nat} (hk : k < L) (hi : i < 2 ^ (L - k)) (u : U L) :
    lane k i (u &&& evenMask L k) = if i % 2 = 0 then lane k i u else 0 := by
  split
  · apply lane_congr
    intro j hj
    rw [BitVec.getLsbD_and, getLsbD_evenMask hk, div_mod hj]
    simp [idx_lt hk.le hi hj, *]
  · apply lane_eq_zero
    intro j hj
    rw [BitVec.getLsbD_and, getLsbD_evenMask hk, div_mod hj]
    simp [*]

theorem getLsbD_oddMask {k : Nat} (hk : k < L) (j : Nat) :
    (oddMask L k).getLsbD j = decide (j < 2 ^ L ∧ j / 2 ^ k % 2 = 1) := by
  rw [oddMask, BitVec.getLsbD_shiftLeft, getLsbD_evenMask hk]
  by_cases h : j < 2 ^ k
  · simp [h, Nat.div_eq_of_lt h]
  · obtain ⟨x, rfl⟩ : ∃ x, j = x + 2 ^ k := ⟨j - 2 ^ k, by omega⟩
    rw [Nat.add_div_right _ (Nat.two_pow_pos k)]
    rw [Bool.eq_iff_iff]
    have := Nat.two_pow_pos k
    simp
    intro h
    omega

theorem lane_and_oddMask {k i : Nat} (hk : k < L) (hi : i < 2 ^ (L - k)) (u : U L) :
    lane k i (u &&& oddMask L k) = if i % 2 = 1 then lane k i u else 0 := by
  split
  · apply lane_congr
    intro j hj
    rw [BitVec.getLsbD_and, getLsbD_oddMask hk, div_mod hj]
    simp [idx_lt hk.le hi hj, *]
  · apply lane_eq_zero
    intro j hj
    rw [BitVec.getLsbD_and, getLsbD_oddMask hk, div_mod hj]
    simp [*]

/-- Position of the single one bit of `alpha k`. -/
def alphaPos (k : Nat) : Nat := if k = 0 then 0 else 2 ^ (k - 1)

theorem alphaPos_lt (k : Nat) : alphaPos k < 2 ^ k := by
  unfold alphaPos
  split
  · exact Nat.two_pow_pos k
  · exact Nat.pow_lt_pow_right (by omega) (by omega)

theorem bit_alpha (k j : Nat) : T.bit k (T.alpha k) j = decide (j = alphaPos k) := by
  cases k with
  | zero => exact T.bit_one 0 j
  | succ k =>
    show (if j < 2 ^ k then T.bit k (0 : T k) j else T.bit k (1 : T k) (j - 2 ^ k)) = _
    simp only [alphaPos, Nat.add_sub_cancel, T.bit_zero, T.bit_one]
    have := Nat.two_pow_pos k
    split <;> simp <;> omega

theorem getLsbD_alphasLoop (k : Nat) : (m : Nat) → (hm : k + m + 1 ≤ L) → (j : Nat) →
    (alphasLoop L k m).getLsbD j = decide (j < 2 ^ (k + m + 1) ∧ j % 2 ^ (k + 1) = alphaPos k)
  | 0, hm, j => by
    have hkL : 2 ^ k < 2 ^ L := Nat.pow_lt_pow_right (by omega) (by omega)
    have ha := alphaPos_lt k
    have e : alphasLoop L k 0 = 1#(2 ^ L) <<< alphaPos k := by
      unfold alphasLoop alphaPos
      split <;> simp
    rw [e, BitVec.getLsbD_shiftLeft, BitVec.getLsbD_one, Bool.eq_iff_iff]
    have : 2 ^ (k + 0 + 1) = 2 ^ (k + 1) := rfl
    have h2 : 2 ^ (k + 1) ≤ 2 ^ L := Nat.pow_le_pow_right (by omega) (by omega)
    have h3 : 2 ^ (k + 1) = 2 ^ k * 2 := Nat.pow_succ 2 k
    simp only [Bool.and_eq_true, decide_eq_true_eq, Bool.not_eq_true', decide_eq_false_iff_not, this]
    constructor
    · rintro ⟨⟨h1, h4⟩, h5⟩
      have : j = alphaPos k := by omega
      subst this
      exact ⟨by omega, Nat.mod_eq_of_lt (by omega)⟩
    · rintro ⟨h1, h4⟩
      rw [Nat.mod_eq_of_lt h1] at h4
      omega
  | m + 1, hm, j => by
    have ih := getLsbD_alphasLoop k m (by omega)
    rw [alphasLoop, BitVec.getLsbD_or, BitVec.getLsbD_shiftLeft, ih, ih]
    have hp : 2 ^ (k + (m + 1) + 1) = 2 ^ (k + m + 1) + 2 ^ (k + m + 1) := by
      rw [Nat.pow_succ 2 (k + (m + 1))]; ring_nf
    have hL : 2 ^ (k + (m + 1) + 1) ≤ 2 ^ L := Nat.pow_le_pow_right (by omega) (by omega)
    have hpar : ∀ x, (x + 2 ^ (k + m + 1)) % 2 ^ (k + 1) = x % 2 ^ (k + 1) := by
      intro x
      rw [show k + m + 1 = k + 1 + m by omega, Nat.pow_add 2 (k+1) m, Nat.add_mul_mod_self_left]
    have hs : k + (m + 1) = k + m + 1 := by omega
    rw [hp] at hL ⊢
    rw [hs]
    by_cases h : j < 2 ^ (k + m + 1)
    · simp [h]; omega
    · obtain ⟨x, rfl⟩ : ∃ x, j = x + 2 ^ (k + m + 1) := ⟨j - 2 ^ (k + m + 1), by omega⟩
      rw [hpar, Bool.eq_iff_iff]
      simp
      omega

theorem lane_alphas {k i : Nat} (hk : k < L) (hi : i < 2 ^ (L - k)) :
    lane k i (alphas L k) = if i % 2 = 0 then T.alpha k else 0 := by
  apply T.bit_inj
  intro j hj
  rw [bit_lane hj, alphas, getLsbD_alphasLoop k _ (by omega),
    show k + (L - k - 1) + 1 = L by omega]
  have h1 := idx_lt hk.le hi hj
  have hmod : (i * 2 ^ k + j) % 2 ^ (k + 1) = (i % 2) * 2 ^ k + j := by
    have h3 : 2 ^ (k + 1) = 2 * 2 ^ k := by rw [Nat.pow_succ]; ring
    have h4 : i * 2 ^ k + j = ((i % 2) * 2 ^ k + j) + 2 ^ (k + 1) * (i / 2) := by
      conv_lhs => rw [← Nat.mod_add_div i 2]
      rw [h3]; ring
    rw [h4, Nat.add_mul_mod_self_left]
    apply Nat.mod_eq_of_lt
    rcases Nat.mod_two_eq_zero_or_one i with h | h <;> rw [h, h3] <;> omega
  rw [hmod]
  have ha := alphaPos_lt k
  rcases Nat.mod_two_eq_zero_or_one i with h | h <;> rw [h]
  · simp [h1, bit_alpha]
  · simp [h1, T.bit_zero]; omega

/-! ### Lanes of interleave / xor_adjacent -/

theorem half_lt {k i : Nat} (hk : k < L) (hi : i < 2 ^ (L - (k + 1))) :
    2 * i + 1 < 2 ^ (L - k) := by
  have : 2 ^ (L - k) = 2 * 2 ^ (L - (k + 1)) := by
    rw [show L - k = (L - (k + 1)) + 1 by omega, Nat.pow_succ]; ring
  omega

variable {k i : Nat}

theorem lane_shl_odd (hk : k < L) (hi : i < 2 ^ (L - (k + 1))) (u : U L) :
    lane k (2 * i + 1) (u <<< 2 ^ k) = lane k (2 * i) u :=
  lane_shl_succ hk.le (half_lt hk hi) u

theorem lane_shl_even_mask (hk : k < L) (hi : i < 2 ^ (L - (k + 1))) (u : U L) :
    lane k (2 * i) ((u &&& evenMask L k) <<< 2 ^ k) = 0 := by
  have h := half_lt hk hi
  rcases Nat.eq_zero_or_pos i with rfl | hp
  · exact lane_shl_zero k _
  · obtain ⟨x, rfl⟩ : ∃ x, i = x + 1 := ⟨i - 1, by omega⟩
    rw [show 2 * (x + 1) = (2 * x + 1) + 1 by ring]
    rw [lane_shl_succ hk.le (by omega), lane_and_evenMask hk (by omega), if_neg (by omega)]

theorem lane_and_even_even (hk : k < L) (hi : i < 2 ^ (L - (k + 1))) (u : U L) :
    lane k (2 * i) (u &&& evenMask L k) = lane k (2 * i) u := by
  have h := half_lt hk hi
  rw [lane_and_evenMask hk (by omega), if_pos (by omega)]

theorem lane_and_even_odd (hk : k < L) (hi : i < 2 ^ (L - (k + 1))) (u : U L) :
    lane k (2 * i + 1) (u &&& evenMask L k) = 0 := by
  have h := half_lt hk hi
  rw [lane_and_evenMask hk (by omega), if_neg (by omega)]

theorem lane_and_odd_even (hk : k < L) (hi : i < 2 ^ (L - (k + 1))) (u : U L) :
    lane k (2 * i) (u &&& oddMask L k) = 0 := by
  have h := half_lt hk hi
  rw [lane_and_oddMask hk (by omega), if_neg (by omega)]

theorem lane_and_odd_odd (hk : k < L) (hi : i < 2 ^ (L - (k + 1))) (u : U L) :
    lane k (2 * i + 1) (u &&& oddMask L k) = lane k (2 * i + 1) u := by
  have h := half_lt hk hi
  rw [lane_and_oddMask hk (by omega), if_pos (by omega)]

theorem lane_alphas_even (hk : k < L) (hi : i < 2 ^ (L - (k + 1))) :
    lane k (2 * i) (alphas L k) = T.alpha k := by
  have h := half_lt hk hi
  rw [lane_alphas hk (by omega), if_pos (by omega)]

theorem lane_alphas_odd (hk : k < L) (hi : i < 2 ^ (L - (k + 1))) :
    lane k (2 * i + 1) (alphas L k) = 0 := by
  have h := half_lt hk hi
  rw [lane_alphas hk (by omega), if_neg (by omega)]

theorem add_add_self {n : Nat} (a b : T n) : a + (a + b) = b := by
  rw [← add_assoc, T.add_self, zero_add]

theorem lane_interleave_fst_even (hk : k < L) (hi : i < 2 ^ (L - (k + 1))) (a b : U L) :
    lane k (2 * i) (interleave k a b).1 = lane k (2 * i) a := by
  simp only [interleave]
  rw [lane_xor, lane_shl_even_mask hk hi, add_zero]

theorem lane_interleave_fst_odd (hk : k < L) (hi : i < 2 ^ (L - (k + 1))) (a b : U L) :
    lane k (2 * i + 1) (interleave k a b).1 = lane k (2 * i) b := by
  simp only [interleave]
  rw [lane_xor, lane_shl_odd hk hi, lane_and_even_even hk hi, lane_xor, lane_shr, add_add_self]

theorem lane_interleave_snd_even (hk : k < L) (hi : i < 2 ^ (L - (k + 1))) (a b : U L) :
    lane k (2 * i) (interleave k a b).2 = lane k (2 * i + 1) a := by
  simp only [interleave]
  rw [lane_xor, lane_and_even_even hk hi, lane_xor, lane_shr, add_comm (lane k (2 * i + 1) a),
    add_add_self]

theorem lane_interleave_snd_odd (hk : k < L) (hi : i < 2 ^ (L - (k + 1))) (a b : U L) :
    lane k (2 * i + 1) (interleave k a b).2 = lane k (2 * i + 1) b := by
  simp only [interleave]
  rw [lane_xor, lane_and_even_odd hk hi, add_zero]

theorem lane_xorAdjacent_even (hk : k < L) (hi : i < 2 ^ (L - (k + 1))) (a : U L) :
    lane k (2 * i) (xorAdjacent k a) = lane k (2 * i) a + lane k (2 * i + 1) a := by
  simp only [xorAdjacent]
  rw [lane_xor, lane_shl_even_mask hk hi, lane_and_even_even hk hi, lane_xor, lane_shr, add_zero,
    add_comm]

theorem lane_xorAdjacent_odd (hk : k < L) (hi : i < 2 ^ (L - (k + 1))) (a : U L) :
    lane k (2 * i + 1) (xorAdjacent k a) = lane k (2 * i) a + lane k (2 * i + 1) a := by
  simp only [xorAdjacent]
  rw [lane_xor, lane_shl_odd hk hi, lane_and_even_even hk hi, lane_xor, lane_shr,
    lane_and_even_odd hk hi, zero_add, add_comm]

/-! ### Lanes of the packed operations -/

theorem lane_mul : (k : Nat) → (hk : k ≤ L) → (i : Nat) → (hi : i < 2 ^ (L - k)) → (a b : U L) →
    lane k i (mul k a b) = lane k i a * lane k i b
  | 0, _, i, _, a, b => by
    rw [lane_eq, lane_eq, lane_eq]
    show (a &&& b).getLsbD _ = Bool.and (a.getLsbD _) (b.getLsbD _)
    simp
  | k + 1, hk, i, hi, a, b => by
    have hk' : k < L := hk
    have hh := half_lt hk' hi
    have ih := lane_mul k hk'.le
    rw [lane_succ, lane_succ, lane_succ]
    refine Eq.trans ?_ (T.mul_mk_raw _ _ _ _).symm
    simp only [mul]
    refine Prod.ext ?_ ?_
    · show lane k (2 * i) _ = lane k (2 * i) a * lane k (2 * i) b +
        lane k (2 * i + 1) a * lane k (2 * i + 1) b
      rw [lane_xor, lane_and_odd_even hk' hi, lane_xorAdjacent_even hk' hi, add_zero,
        ih _ (by omega), ih _ (by omega)]
    · show lane k (2 * i + 1) _ = _
      have e0 := fun a b => ih (2 * i) (by omega) a b
      have e1 := fun a b => ih (2 * i + 1) (by omega) a b
      simp only [lane_xor, lane_and_odd_odd hk' hi, lane_xorAdjacent_odd hk' hi,
        lane_shl_odd hk' hi, e0, e1, lane_and_odd_even hk' hi,
        lane_interleave_fst_odd hk' hi, lane_interleave_snd_odd hk' hi,
        lane_interleave_fst_even hk' hi, lane_interleave_snd_even hk' hi,
        lane_alphas_even hk' hi, lane_alphas_odd hk' hi, T.mulAlpha_eq]
      show _ = (lane k (2 * i) a + lane k (2 * i + 1) a) * (lane k (2 * i) b + lane k (2 * i + 1) b)
        + (lane k (2 * i) a * lane k (2 * i) b + lane k (2 * i + 1) a * lane k (2 * i + 1) b) +
        T.alpha k * (lane k (2 * i + 1) a * lane k (2 * i + 1) b)
      ring

theorem lane_mulAlpha : (k : Nat) → (hk : k ≤ L) → (i : Nat) → (hi : i < 2 ^ (L - k)) →
    (a : U L) → lane k i (mulAlpha k a) = T.mulAlpha k (lane k i a)
  | 0, _, _, _, _ => rfl
  | k + 1, hk, i, hi, a => by
    have hk' : k < L := hk
    have hh := half_lt hk' hi
    have ih := lane_mulAlpha k hk'.le
    rw [lane_succ, lane_succ]
    simp only [mulAlpha]
    refine Prod.ext ?_ ?_
    · show lane k (2 * i) _ = lane k (2 * i + 1) a
      rw [lane_or_of_right, lane_shr, lane_and_odd_odd hk' hi]
      rw [lane_xor, ih _ (by omega), lane_and_odd_even hk' hi, T.mulAlpha_eq, mul_zero, add_zero,
        lane_shl_even_mask hk' hi]
    · show lane k (2 * i + 1) _ = lane k (2 * i) a + T.mulAlpha k (lane k (2 * i + 1) a)
      rw [lane_or_of_left, lane_xor, lane_shl_odd hk' hi, lane_and_even_even hk' hi,
        ih _ (by omega), lane_and_odd_odd hk' hi]
      rw [lane_shr]
      by_cases h : 2 * i + 1 + 1 < 2 ^ (L - k)
      · rw [lane_and_oddMask hk' h, if_neg (by omega)]
      · apply lane_eq_zero
        intro j _
        apply BitVec.getLsbD_of_ge
        have : 2 ^ L = 2 ^ (L - k) * 2 ^ k := by rw [← Nat.pow_add]; congr 1; omega
        have h2 : 2 ^ (L - k) * 2 ^ k ≤ (2 * i + 1 + 1) * 2 ^ k := Nat.mul_le_mul_right _ (by omega)
        omega

theorem lane_square : (k : Nat) → (hk : k ≤ L) → (i : Nat) → (hi : i < 2 ^ (L - k)) →
    (a : U L) → lane k i (square k a) = T.square k (lane k i a)
  | 0, _, _, _, _ => rfl
  | k + 1, hk, i, hi, a => by
    have hk' : k < L := hk
    have hh := half_lt hk' hi
    have ih := lane_square k hk'.le
    rw [lane_succ, lane_succ]
    simp only [square]
    refine Prod.ext ?_ ?_
    · show lane k (2 * i) _ = T.square k (lane k (2 * i) a) + T.square k (lane k (2 * i + 1) a)
      rw [lane_or_of_right (lane_and_odd_even hk' hi _), lane_and_even_even hk' hi, lane_xor,
        lane_shr, ih _ (by omega), ih _ (by omega)]
    · show lane k (2 * i + 1) _ = T.mulAlpha k (T.square k (lane k (2 * i + 1) a))
      rw [lane_or_of_left (lane_and_even_odd hk' hi _), lane_and_odd_odd hk' hi,
        lane_mulAlpha k hk'.le _ (by omega), ih _ (by omega)]

theorem lane_invertOrZero : (k : Nat) → (hk : k ≤ L) → (i : Nat) → (hi : i < 2 ^ (L - k)) →
    (a : U L) → lane k i (invertOrZero k a) = T.invertOrZero k (lane k i a)
  | 0, _, _, _, _ => rfl
  | k + 1, hk, i, hi, a => by
    have hk' : k < L := hk
    have hh := half_lt hk' hi
    have ih := lane_invertOrZero k hk'.le
    rw [lane_succ, lane_succ]
    simp only [invertOrZero]
    have hA : lane k (2 * i) (mulAlpha k (a >>> 2 ^ k)) = T.mulAlpha k (lane k (2 * i + 1) a) := by
      rw [lane_mulAlpha k hk'.le _ (by omega), lane_shr]
    have hint : lane k (2 * i) (a ^^^ mulAlpha k (a >>> 2 ^ k)) =
        lane k (2 * i) a + T.mulAlpha k (lane k (2 * i + 1) a) := by
      rw [lane_xor, hA]
    have hdelta : lane k (2 * i) (mul k a (a ^^^ mulAlpha k (a >>> 2 ^ k)) ^^^
        square k (a >>> 2 ^ k)) =
        lane k (2 * i) a * (lane k (2 * i) a + T.mulAlpha k (lane k (2 * i + 1) a)) +
          T.square k (lane k (2 * i + 1) a) := by
      rw [lane_xor, lane_mul k hk'.le _ (by omega), hint, lane_square k hk'.le _ (by omega),
        lane_shr]
    refine Prod.ext ?_ ?_
    · show lane k (2 * i) _ = T.invertOrZero k (lane k (2 * i) a * (lane k (2 * i) a +
        T.mulAlpha k (lane k (2 * i + 1) a)) + T.square k (lane k (2 * i + 1) a)) *
          (lane k (2 * i) a + T.mulAlpha k (lane k (2 * i + 1) a))
      rw [lane_mul k hk'.le _ (by omega), lane_or_of_right (lane_shl_even_mask hk' hi _),
        lane_and_even_even hk' hi, ih _ (by omega), hdelta,
        lane_or_of_left (lane_and_odd_even hk' hi _), lane_and_even_even hk' hi, hint]
    · show lane k (2 * i + 1) _ = T.invertOrZero k (lane k (2 * i) a * (lane k (2 * i) a +
        T.mulAlpha k (lane k (2 * i + 1) a)) + T.square k (lane k (2 * i + 1) a)) *
          lane k (2 * i + 1) a
      rw [lane_mul k hk'.le _ (by omega), lane_or_of_left (lane_and_even_odd hk' hi _),
        lane_shl_odd hk' hi,
        lane_and_even_even hk' hi, ih _ (by omega), hdelta,
        lane_or_of_right (lane_and_even_odd hk' hi _), lane_and_odd_odd hk' hi]

end Packed
end Verif.Field
