import Verif.Field.ModelPackedOps
import Verif.Field.LemmasScalar

namespace Verif.Field.Packed
open Verif
variable {L : Nat}

theorem getLsbD_getSub (k i : Nat) (u : U L) (j : Nat) :
    (getSub k i u).getLsbD j = (decide (j < 2 ^ k) && u.getLsbD (i * 2 ^ k + j)) := by
  rw [getSub, BitVec.getLsbD_setWidth, BitVec.getLsbD_ushiftRight]

theorem getSub_congr {k i i' : Nat} {M : Nat} {u : U L} {v : U M}
    (h : ∀ j, j < 2 ^ k → u.getLsbD (i * 2 ^ k + j) = v.getLsbD (i' * 2 ^ k + j)) :
    getSub k i u = getSub k i' v := by
  apply BitVec.eq_of_getLsbD_eq
  intro j hj
  rw [getLsbD_getSub, getLsbD_getSub, h j hj]

theorem toT_getSub (k i : Nat) (u : U L) : toT (getSub k i u) = lane k i u := by
  refine T.bit_inj fun j hj => ?_
  rw [bit_toT, bit_lane hj, getLsbD_getSub]; simp [hj]

theorem getSub_or (k i : Nat) (u v : U L) : getSub k i (u ||| v) = getSub k i u ||| getSub k i v := by
  apply BitVec.eq_of_getLsbD_eq
  intro j hj
  rw [BitVec.getLsbD_or, getLsbD_getSub, getLsbD_getSub, getLsbD_getSub, BitVec.getLsbD_or]
  simp [hj]

theorem getSub_xor (k i : Nat) (u v : U L) : getSub k i (u ^^^ v) = getSub k i u ^^^ getSub k i v := by
  apply BitVec.eq_of_getLsbD_eq
  intro j hj
  rw [BitVec.getLsbD_xor, getLsbD_getSub, getLsbD_getSub, getLsbD_getSub, BitVec.getLsbD_xor]
  simp [hj]

theorem getSub_and (k i : Nat) (u v : U L) : getSub k i (u &&& v) = getSub k i u &&& getSub k i v := by
  apply BitVec.eq_of_getLsbD_eq
  intro j hj
  rw [BitVec.getLsbD_and, getLsbD_getSub, getLsbD_getSub, getLsbD_getSub, BitVec.getLsbD_and]
  simp [hj]

theorem getSub_zero (k i : Nat) : getSub k i (0#_ : U L) = 0#_ := by
  apply BitVec.eq_of_getLsbD_eq
  intro j hj
  simp [getLsbD_getSub]

theorem getSub_not {k i : Nat} (hk : k ≤ L) (hi : i < 2 ^ (L - k)) (u : U L) :
    getSub k i (~~~ u) = ~~~ getSub k i u := by
  apply BitVec.eq_of_getLsbD_eq
  intro j hj
  have := idx_lt hk hi hj
  rw [BitVec.getLsbD_not, getLsbD_getSub, getLsbD_getSub, BitVec.getLsbD_not]
  simp [hj, this]

theorem getSub_shl {k i : Nat} (hk : k ≤ L) (hi : i < 2 ^ (L - k)) (s : Nat) (u : U L) :
    getSub k i (u <<< (s * 2 ^ k)) = if i < s then 0#_ else getSub k (i - s) u := by
  apply BitVec.eq_of_getLsbD_eq
  intro j hj
  have h1 := idx_lt hk hi hj
  rw [getLsbD_getSub, BitVec.getLsbD_shiftLeft]
  split
  · rename_i h
    have : i * 2 ^ k + j < s * 2 ^ k := by
      have := Nat.mul_le_mul_right (2 ^ k) h
      rw [Nat.succ_mul] at this
      omega
    simp [this]
  · rename_i h
    obtain ⟨m, rfl⟩ : ∃ m, i = s + m := ⟨i - s, by omega⟩
    rw [getLsbD_getSub, Nat.add_sub_cancel_left]
    have e : (s + m) * 2 ^ k + j = s * 2 ^ k + (m * 2 ^ k + j) := by ring
    rw [e] at h1 ⊢
    simp [h1, hj]

theorem getSub_setWidth {k i : Nat} (hk : k ≤ L) (hi : i < 2 ^ (L - k)) (v : U k) :
    getSub k i (v.setWidth _ : U L) = if i = 0 then v else 0#_ := by
  apply BitVec.eq_of_getLsbD_eq
  intro j hj
  have h1 := idx_lt hk hi hj
  rw [getLsbD_getSub, BitVec.getLsbD_setWidth]
  split
  · subst i
    simp at h1
    simp [h1, hj]
  · have : 2 ^ k ≤ i * 2 ^ k := Nat.le_mul_of_pos_left _ (by omega)
    rw [BitVec.getLsbD_of_ge v _ (by omega)]; simp

theorem getSub_setWidth_shl {k i : Nat} (hk : k ≤ L) (hi : i < 2 ^ (L - k)) (s : Nat) (v : U k) :
    getSub k i ((v.setWidth _ : U L) <<< (s * 2 ^ k)) = if i = s then v else 0#_ := by
  rw [getSub_shl hk hi]
  split
  · rw [if_neg (by omega)]
  · rw [getSub_setWidth hk (by omega)]
    by_cases h : i = s
    · rw [if_pos h, if_pos (by omega)]
    · rw [if_neg h, if_neg (by omega)]

theorem getSub_setSub {k i : Nat} (hk : k ≤ L) (hi : i < 2 ^ (L - k)) (s : Nat) (u : U L) (v : U k) :
    getSub k i (setSub k s u v) = if i = s then v else getSub k i u := by
  simp only [setSub]
  rw [getSub_or, getSub_and, getSub_not hk hi, getSub_setWidth_shl hk hi, getSub_setWidth_shl hk hi]
  split <;> simp

theorem getSub_ext {k : Nat} (hk : k ≤ L) {u v : U L}
    (h : ∀ i, i < 2 ^ (L - k) → getSub k i u = getSub k i v) : u = v := by
  apply BitVec.eq_of_getLsbD_eq
  intro j hj
  have hkp := Nat.two_pow_pos k
  have e : 2 ^ L = 2 ^ (L - k) * 2 ^ k := by rw [← Nat.pow_add]; congr 1; omega
  have hi : j / 2 ^ k < 2 ^ (L - k) := by
    rw [Nat.div_lt_iff_lt_mul hkp, ← e]; exact hj
  have := congrArg (fun z => BitVec.getLsbD z (j % 2 ^ k)) (h _ hi)
  simp only [getLsbD_getSub, Nat.mod_lt _ hkp, decide_true, Bool.true_and] at this
  rwa [Nat.mul_comm, Nat.div_add_mod] at this

theorem getSub_fromFn {k i : Nat} (hk : k ≤ L) (hi : i < 2 ^ (L - k)) (f : Nat → U k) :
    getSub k i (fromFn k f : U L) = f i := by
  have key : ∀ n, getSub k i ((List.range n).foldl
      (fun r i => r ||| ((f i).setWidth _ <<< (i * 2 ^ k))) (0#_ : U L)) =
      if i < n then f i else 0#_ := by
    intro n
    induction n with
    | zero => simp [getSub_zero]
    | succ n ih =>
      rw [List.range_succ, List.foldl_append, List.foldl_cons, List.foldl_nil, getSub_or, ih,
        getSub_setWidth_shl hk hi]
      by_cases h1 : i < n
      · rw [if_pos h1, if_neg (by omega), if_pos (by omega)]; simp
      · by_cases h2 : i = n
        · subst h2; simp
        · rw [if_neg h1, if_neg h2, if_neg (by omega)]; simp
  rw [fromFn, key, if_pos hi]

theorem getSub_broadcast {k i : Nat} (hk : k ≤ L) (hi : i < 2 ^ (L - k)) (v : U k) :
    getSub k i (broadcast k v : U L) = v := by
  have key : ∀ n, ∀ i, i < 2 ^ (L - k) → getSub k i ((List.range n).foldl
      (fun r i => r ||| (r <<< (2 ^ i * 2 ^ k))) (v.setWidth _ : U L)) =
      if i < 2 ^ n then v else 0#_ := by
    intro n
    induction n with
    | zero =>
      intro i hi
      rw [List.range_zero, List.foldl_nil, getSub_setWidth hk hi]
      by_cases h : i = 0
      · rw [if_pos h, if_pos (by omega)]
      · rw [if_neg h, if_neg (by omega)]
    | succ n ih =>
      intro i hi
      rw [List.range_succ, List.foldl_append, List.foldl_cons, List.foldl_nil, getSub_or, ih i hi,
        getSub_shl hk hi, Nat.pow_succ]
      by_cases h1 : i < 2 ^ n
      · rw [if_pos h1, if_pos h1, if_pos (by omega)]; simp
      · have := Nat.two_pow_pos n
        rw [if_neg h1, if_neg h1, ih _ (by omega)]
        by_cases h2 : i - 2 ^ n < 2 ^ n
        · rw [if_pos h2, if_pos (by omega)]; simp
        · rw [if_neg h2, if_neg (by omega)]; simp
  rw [broadcast, key _ i hi, if_pos hi]

theorem getSub_fromScalars {k i : Nat} (hk : k ≤ L) (hi : i < 2 ^ (L - k)) (vs : List (U k)) :
    getSub k i (fromScalars k vs : U L) = vs.getD i 0#_ := by
  have key : ∀ (ws : List (U k)) (n : Nat) (r : U L),
      getSub k i ((ws.zipIdx n).foldl (fun r p => setSub k p.2 r p.1) r) =
      if n ≤ i ∧ i < n + ws.length then ws.getD (i - n) 0#_ else getSub k i r := by
    intro ws
    induction ws with
    | nil => intro n r; simp
    | cons w ws ih =>
      intro n r
      rw [List.zipIdx_cons, List.foldl_cons, ih, getSub_setSub hk hi]
      simp only [List.length_cons]
      by_cases h1 : i = n
      · subst h1
        rw [if_neg (by omega), if_pos rfl, if_pos (by omega)]; simp
      · by_cases h2 : n ≤ i ∧ i < n + (ws.length + 1)
        · rw [if_pos (by omega), if_pos h2]
          rw [show i - n = (i - (n + 1)) + 1 by omega]; simp
        · rw [if_neg (by omega), if_neg h1, if_neg h2]
  rw [fromScalars, key, Nat.sub_zero, getSub_zero, List.length_take]
  by_cases h : i < vs.length
  · rw [if_pos (by omega)]
    simp [List.getD_eq_getElem?_getD, hi]
  · rw [if_neg (by omega)]
    simp [List.getD_eq_getElem?_getD]
    rw [List.getElem?_eq_none (by omega)]; rfl

/-- bits of `interleave` -/
theorem getLsbD_interleave_fst {k : Nat} (hk : k < L) (a b : U L) {j : Nat} (hj : j < 2 ^ L) :
    (interleave k a b).1.getLsbD j =
      if j / 2 ^ k % 2 = 0 then a.getLsbD j else b.getLsbD (j - 2 ^ k) := by
  simp only [interleave, BitVec.getLsbD_xor, BitVec.getLsbD_shiftLeft, BitVec.getLsbD_and,
    BitVec.getLsbD_ushiftRight, getLsbD_evenMask hk, hj, decide_true, Bool.true_and]
  by_cases h : j < 2 ^ k
  · simp [h, Nat.div_eq_of_lt h]
  · obtain ⟨m, rfl⟩ : ∃ m, j = m + 2 ^ k := ⟨j - 2 ^ k, by omega⟩
    have := Nat.two_pow_pos k
    have hm : m < 2 ^ L := by omega
    rw [Nat.add_div_right _ (Nat.two_pow_pos k), Nat.add_sub_cancel]
    have hp : (m / 2 ^ k + 1) % 2 = 0 ↔ ¬ (m / 2 ^ k % 2 = 0) := by omega
    by_cases h2 : m / 2 ^ k % 2 = 0
    · rw [if_neg (by rw [hp]; simpa using h2), Nat.add_comm (2 ^ k) m]
      simp [h2, hm]
    · rw [if_pos (hp.mpr h2)]
      simp [h2]

theorem getLsbD_interleave_snd {k : Nat} (hk : k < L) (a b : U L) {j : Nat} (hj : j < 2 ^ L) :
    (interleave k a b).2.getLsbD j =
      if j / 2 ^ k % 2 = 0 then a.getLsbD (j + 2 ^ k) else b.getLsbD j := by
  simp only [interleave, BitVec.getLsbD_xor, BitVec.getLsbD_and,
    BitVec.getLsbD_ushiftRight, getLsbD_evenMask hk, hj]
  rw [Nat.add_comm (2 ^ k) j]
  by_cases h2 : j / 2 ^ k % 2 = 0
  · simp [h2]
    cases BitVec.getLsbD a (j + 2 ^ k) <;> cases BitVec.getLsbD b j <;> rfl
  · simp [h2]

/-- parity of the block index of bit `i * 2^k + j` for blocks of `2^(b+k)` bits -/
theorem blk (k b i j : Nat) (hj : j < 2 ^ k) : (i * 2 ^ k + j) / 2 ^ (b + k) = i / 2 ^ b := by
  rw [Nat.add_comm b k, Nat.pow_add, ← Nat.div_div_eq_div_mul, Nat.add_comm,
    Nat.add_mul_div_right _ _ (Nat.two_pow_pos k), Nat.div_eq_of_lt hj, Nat.zero_add]

theorem getSub_interleave_fst {k b i : Nat} (hk : b + k < L) (hi : i < 2 ^ (L - k)) (x y : U L) :
    getSub k i (interleave (b + k) x y).1 =
      if i / 2 ^ b % 2 = 0 then getSub k i x else getSub k (i - 2 ^ b) y := by
  have e : ∀ j, j < 2 ^ k → i * 2 ^ k + j < 2 ^ L := fun j hj => idx_lt (by omega) hi hj
  split
  · rename_i h
    apply getSub_congr
    intro j hj
    rw [getLsbD_interleave_fst hk _ _ (e j hj), blk k b i j hj, if_pos h]
  · rename_i h
    apply getSub_congr
    intro j hj
    rw [getLsbD_interleave_fst hk _ _ (e j hj), blk k b i j hj, if_neg h]
    congr 1
    have h2 : 2 ^ b ≤ i := by
      by_contra hc
      rw [Nat.div_eq_of_lt (by omega)] at h
      simp at h
    rw [Nat.sub_mul, Nat.pow_add]
    have : 2 ^ b * 2 ^ k ≤ i * 2 ^ k := Nat.mul_le_mul_right _ h2
    omega

theorem getSub_interleave_snd {k b i : Nat} (hk : b + k < L) (hi : i < 2 ^ (L - k)) (x y : U L) :
    getSub k i (interleave (b + k) x y).2 =
      if i / 2 ^ b % 2 = 0 then getSub k (i + 2 ^ b) x else getSub k i y := by
  have e : ∀ j, j < 2 ^ k → i * 2 ^ k + j < 2 ^ L := fun j hj => idx_lt (by omega) hi hj
  split
  · rename_i h
    apply getSub_congr
    intro j hj
    rw [getLsbD_interleave_snd hk _ _ (e j hj), blk k b i j hj, if_pos h]
    congr 1
    rw [Nat.add_mul, Nat.pow_add]; omega
  · rename_i h
    apply getSub_congr
    intro j hj
    rw [getLsbD_interleave_snd hk _ _ (e j hj), blk k b i j hj, if_neg h]

end Verif.Field.Packed
