import Verif.Field.LemmasMove
import Verif.Field.SpecField

/-!
# C07: packed arithmetic is lane-wise; C11: block interleaving and transposition; C12: powers

A packed value over a `2^L`-bit underlier with scalars of tower level `k` has `2^(L-k)` lanes; lane
`i` is `get(i)`, the `2^k` bits starting at `i * 2^k`. All theorems range over every `L`, `k ≤ L`.
-/

namespace Verif.Field
open Verif.Spec Packed
variable {L k : Nat}

/-! ## C07 -/

/-- **C07.** Reading a lane: `get_checked` is defined exactly on the lanes and returns the bits of
the underlier at that lane. -/
theorem C07_get (i : Nat) (u : U L) :
    (2 ^ (L - k) ≤ i → getChecked k i u = none) ∧
    (i < 2 ^ (L - k) → ∃ v, getChecked k i u = some v ∧
      ∀ j < 2 ^ k, v.getLsbD j = u.getLsbD (i * 2 ^ k + j)) := by
  refine ⟨fun h => if_neg (by omega), fun h => ⟨getSub k i u, if_pos h, fun j hj => ?_⟩⟩
  rw [getLsbD_getSub]; simp [hj]

/-- **C07.** Two packed values with equal lanes are equal. -/
theorem C07_ext (hk : k ≤ L) (u v : U L)
    (h : ∀ i < 2 ^ (L - k), getChecked k i u = getChecked k i v) : u = v := by
  refine getSub_ext hk fun i hi => ?_
  have := h i hi
  simpa [getChecked, hi] using this

/-- **C07.** Addition, multiplication, squaring, inversion and multiplication by the tower generator
act on each lane as the scalar operation of that lane's field, for every input. -/
theorem C07_arith (hk : k ≤ L) (i : Nat) (hi : i < 2 ^ (L - k)) (a b : U L) :
    getSub k i (a ^^^ b) = Scalar.add (getSub k i a) (getSub k i b) ∧
    getSub k i (Packed.mul k a b) = Scalar.mul (getSub k i a) (getSub k i b) ∧
    getSub k i (Packed.square k a) = Scalar.square (getSub k i a) ∧
    getSub k i (Packed.invertOrZero k a) = Scalar.invertOrZero (getSub k i a) ∧
    getSub k i (Packed.mulAlpha k a) = Packed.mulAlpha k (getSub k i a) := by
  refine ⟨getSub_xor _ _ _ _, toT_injective ?_, toT_injective ?_, toT_injective ?_,
    toT_injective ?_⟩
  · rw [toT_getSub, lane_mul k hk i hi, Scalar.toT_mul, toT_getSub, toT_getSub]
  · rw [toT_getSub, lane_square k hk i hi, Scalar.toT_square, toT_getSub]
  · rw [toT_getSub, lane_invertOrZero k hk i hi, Scalar.toT_inv, toT_getSub,
      T.inv_eq_invertOrZero]
  · rw [toT_getSub, lane_mulAlpha k hk i hi]
    show _ = lane k 0 (Packed.mulAlpha k (getSub k i a))
    rw [lane_mulAlpha k le_rfl 0 (Nat.two_pow_pos _)]
    exact congrArg _ (toT_getSub k i a).symm

/-- **C07.** The different multiplication strategies agree bit for bit: lane-by-lane scalar
multiplication (`PairwiseStrategy`) and computing in a wider underlier (`mul_as_bigger_type`) both
give the bit-sliced packed product. -/
theorem C07_strategies (hk : k ≤ L) (M : Nat) (hM : L ≤ M) (a b : U L) :
    mulPairwise k a b = Packed.mul k a b ∧ mulAsBigger M k a b = Packed.mul k a b := by
  constructor
  · refine getSub_ext hk fun i hi => ?_
    rw [mulPairwise, getSub_fromFn hk hi, (C07_arith hk i hi a b).2.1]
  · refine getSub_ext hk fun i hi => ?_
    have hle : 2 ^ L ≤ 2 ^ M := Nat.pow_le_pow_right (by omega) hM
    have hi' : i < 2 ^ (M - k) := lt_of_lt_of_le hi (Nat.pow_le_pow_right (by omega) (by omega))
    have narrow : ∀ (x : U M), getSub k i (x.setWidth (2 ^ L)) = getSub k i x := by
      intro x
      refine getSub_congr fun j hj => ?_
      rw [BitVec.getLsbD_setWidth]; simp [idx_lt hk hi hj]
    have widen : ∀ (x : U L), getSub k i (x.setWidth (2 ^ M) : U M) = getSub k i x := by
      intro x
      refine getSub_congr fun j hj => ?_
      have := idx_lt hk hi hj
      rw [BitVec.getLsbD_setWidth]; simp [lt_of_lt_of_le this hle]
    rw [mulAsBigger, narrow, (C07_arith (by omega) i hi' _ _).2.1, widen, widen,
      (C07_arith hk i hi a b).2.1]

/-- **C07.** Writing a lane changes that lane and no other; indices past the width are refused. -/
theorem C07_set (hk : k ≤ L) (i : Nat) (u : U L) (v : U k) :
    (2 ^ (L - k) ≤ i → setChecked k i u v = none) ∧
    (i < 2 ^ (L - k) → ∃ w, setChecked k i u v = some w ∧ getChecked k i w = some v ∧
      ∀ j < 2 ^ (L - k), j ≠ i → getChecked k j w = getChecked k j u) := by
  refine ⟨fun h => if_neg (by omega), fun h => ⟨setSub k i u v, if_pos h, ?_, fun j hj hne => ?_⟩⟩
  · rw [getChecked, if_pos h, getSub_setSub hk h, if_pos rfl]
  · rw [getChecked, getChecked, if_pos hj, if_pos hj, getSub_setSub hk hj, if_neg hne]

/-- **C07.** `from_fn`, `broadcast` and `from_scalars` produce the specified lanes; missing scalars
are zero and excess scalars are ignored. -/
theorem C07_construct (hk : k ≤ L) (i : Nat) (hi : i < 2 ^ (L - k)) (f : Nat → U k) (v : U k)
    (vs : List (U k)) :
    getChecked k i (fromFn k f : U L) = some (f i) ∧
    getChecked k i (broadcast k v : U L) = some v ∧
    getChecked k i (fromScalars k vs : U L) = some (if h : i < vs.length then vs[i] else 0#_) := by
  refine ⟨?_, ?_, ?_⟩
  · rw [getChecked, if_pos hi, getSub_fromFn hk hi]
  · rw [getChecked, if_pos hi, getSub_broadcast hk hi]
  · rw [getChecked, if_pos hi, getSub_fromScalars hk hi]
    by_cases h : i < vs.length
    · rw [dif_pos h]; simp [h]
    · rw [dif_neg h]; simp [Nat.le_of_not_lt h]

/-- **C07.** `spread` of block `idx` of length `2^b` repeats each scalar of the block
`WIDTH / 2^b` times consecutively. -/
theorem C07_spread (hk : k ≤ L) (b idx : Nat) (hb : b ≤ L - k) (u : U L) (i : Nat)
    (hi : i < 2 ^ (L - k)) :
    getSub k i (spread k b idx u) = getSub k (idx * 2 ^ b + i / (2 ^ (L - k) / 2 ^ b)) u := by
  rw [getSub_spread hk hb u hi, Nat.pow_div hb (by omega)]

theorem selXor_append {k : Nat} (x : U k) (b : U k) : ∀ (bs : List (U k)) (t : Nat),
    selXor x (bs ++ [b]) t = selXor x bs t ^^^ (if x.getLsbD (t + bs.length) then b else 0#_) := by
  intro bs
  induction bs with
  | nil => intro t; simp [selXor]
  | cons c cs ih =>
    intro t
    rw [List.cons_append, selXor, selXor, ih, BitVec.xor_assoc, List.length_cons]
    rw [show t + 1 + cs.length = t + (cs.length + 1) by omega]

theorem selXor_eq_linearImage {k : Nat} (x : U k) (bs : List (U k)) :
    selXor x bs 0 = linearImage bs x := by
  induction bs using List.reverseRecOn with
  | nil => rfl
  | append_singleton bs b ih =>
    rw [selXor_append, ih, linearImage, linearImage, List.length_append, List.length_singleton,
      List.range_succ, List.foldl_append, List.foldl_cons, List.foldl_nil, Nat.zero_add]
    have key : ∀ (l : List Nat) (acc : U k), (∀ t ∈ l, t < bs.length) →
        l.foldl (fun acc t => acc ^^^ (if x.getLsbD t then bs.getD t 0#_ else 0#_)) acc =
        l.foldl (fun acc t => acc ^^^ (if x.getLsbD t then (bs ++ [b]).getD t 0#_ else 0#_)) acc := by
      intro l
      induction l with
      | nil => intro acc _; rfl
      | cons t l ihl =>
        intro acc h
        have := h t List.mem_cons_self
        have e : (bs ++ [b]).getD t 0#_ = bs.getD t 0#_ := by
          simp [List.getD, List.getElem?_append_left this]
        rw [List.foldl_cons, List.foldl_cons, e, ihl _ fun s hs => h s (List.mem_cons_of_mem _ hs)]
    rw [key _ _ fun t ht => List.mem_range.mp ht]
    simp

/-- **C07.** A packed linear transformation applies, in every lane, the linear map given by the
columns. -/
theorem C07_transform (hk : k ≤ L) (cols : List (U k)) (hc : cols.length ≤ 2 ^ k) (u : U L)
    (i : Nat) (hi : i < 2 ^ (L - k)) :
    getSub k i (transform k cols u) = linearImage cols (getSub k i u) := by
  rw [transform, getSub_transformLoop hk hi u cols 0 0#_ u (by omega) (by simp), getSub_zero,
    BitVec.zero_xor, selXor_eq_linearImage]

/-- The lane theorems apply to every packed type of the library, e.g. sixteen 8-bit scalars in 128
bits, last lane. -/
example (a b : U 7) : getSub 3 15 (Packed.mul 3 a b) = Scalar.mul (getSub 3 15 a) (getSub 3 15 b) :=
  (C07_arith (L := 7) (k := 3) (by decide) 15 (by decide) a b).2.1

/-- Concrete products with the expected values of the repository's own test vectors
(`binary_field.rs:959-987`), two 8-bit lanes side by side, one 16-bit and one 64-bit scalar. -/
example : Packed.mul (L := 4) 3 0x761b#16 0x51a8#16 = 0x8409#16 := by decide +kernel
example : Scalar.mul (k := 4) 0x48a8#16 0xf8a4#16 = 0x3656#16 := by decide +kernel
example : Scalar.mul (k := 6) 0xc84d619110831cef#64 0x000000000000a14f#64 = 0x3565086d6b9ef595#64 := by
  decide +kernel

/-- A concrete spread: block 1 of length 2 among four 4-bit scalars. -/
example : spread (L := 4) 2 1 1 0x4321#16 = 0x4433#16 := by decide +kernel

/-- A concrete linear map: swapping the two bits of each 2-bit lane. -/
example : transform (L := 3) 1 [2#2, 1#2] 0b01101100#8 = 0b10011100#8 := by decide +kernel

/-! ## C11 -/

/-- The blocks of two packed values laid out one after the other: block `m` of `a ++ b`. -/
def blockOf (w m : Nat) (a b : U L) : U w :=
  if m < 2 ^ (L - w) then getSub w m a else getSub w (m - 2 ^ (L - w)) b

/-- **C11.** `interleave` with block length `2^b` is refused unless the block is shorter than the
packed value; otherwise it exchanges the odd blocks of the first argument with the even blocks of
the second: `(a0 a1 a2 a3 .., b0 b1 b2 b3 ..)` becomes `(a0 b0 a2 b2 .., a1 b1 a3 b3 ..)`. -/
theorem C11_interleave (b : Nat) (x y : U L) :
    (L - k ≤ b → interleaveBlocks k b x y = none) ∧
    (b < L - k → ∃ c d, interleaveBlocks k b x y = some (c, d) ∧
      ∀ m, 2 * m + 1 < 2 ^ (L - k - b) →
        getSub (b + k) (2 * m) c = getSub (b + k) (2 * m) x ∧
        getSub (b + k) (2 * m + 1) c = getSub (b + k) (2 * m) y ∧
        getSub (b + k) (2 * m) d = getSub (b + k) (2 * m + 1) x ∧
        getSub (b + k) (2 * m + 1) d = getSub (b + k) (2 * m + 1) y) := by
  refine ⟨fun h => if_neg (by omega), fun h => ⟨(interleave (b + k) x y).1,
    (interleave (b + k) x y).2, if_pos h, fun m hm => ?_⟩⟩
  have e : L - k - b = L - (b + k) := by omega
  rw [e] at hm
  have f := fun i hi => getSub_interleave_fst (k := b + k) (b := 0) (i := i) (by omega) hi x y
  have s := fun i hi => getSub_interleave_snd (k := b + k) (b := 0) (i := i) (by omega) hi x y
  rw [Nat.zero_add] at f s
  refine ⟨?_, ?_, ?_, ?_⟩
  · rw [f _ (by omega), if_pos (by simp)]
  · rw [f _ hm, if_neg (by simp)]; simp
  · rw [s _ (by omega), if_pos (by simp)]; simp
  · rw [s _ hm, if_neg (by simp)]

/-- **C11.** Interleaving is an involution on pairs. -/
theorem C11_interleave_involutive (b : Nat) (x y c d : U L)
    (h : interleaveBlocks k b x y = some (c, d)) : interleaveBlocks k b c d = some (x, y) := by
  have hb : b < L - k := by
    by_contra hc
    rw [(C11_interleave b x y).1 (by omega)] at h
    exact absurd h (by simp)
  obtain ⟨c', d', h', H⟩ := (C11_interleave (k := k) b x y).2 hb
  obtain ⟨x', y', h'', H'⟩ := (C11_interleave (k := k) b c d).2 hb
  rw [h] at h'
  simp only [Option.some.injEq, Prod.mk.injEq] at h'
  obtain ⟨rfl, rfl⟩ := h'
  rw [h'']
  have e : L - k - b = L - (b + k) := by omega
  rw [e] at H H'
  have ev : 2 ^ (L - (b + k)) % 2 = 0 := by
    obtain ⟨n, hn⟩ : ∃ n, L - (b + k) = n + 1 := ⟨L - (b + k) - 1, by omega⟩
    rw [hn, Nat.pow_succ]; omega
  have hx : x' = x := by
    refine getSub_ext (k := b + k) (by omega) fun i hi => ?_
    rcases Nat.mod_two_eq_zero_or_one i with h0 | h1
    · obtain ⟨m, rfl⟩ : ∃ m, i = 2 * m := ⟨i / 2, by omega⟩
      rw [(H' m (by omega)).1, (H m (by omega)).1]
    · obtain ⟨m, rfl⟩ : ∃ m, i = 2 * m + 1 := ⟨i / 2, by omega⟩
      rw [(H' m hi).2.1, (H m hi).2.2.1]
  have hy : y' = y := by
    refine getSub_ext (k := b + k) (by omega) fun i hi => ?_
    rcases Nat.mod_two_eq_zero_or_one i with h0 | h1
    · obtain ⟨m, rfl⟩ : ∃ m, i = 2 * m := ⟨i / 2, by omega⟩
      rw [(H' m (by omega)).2.2.1, (H m (by omega)).2.1]
    · obtain ⟨m, rfl⟩ : ∃ m, i = 2 * m + 1 := ⟨i / 2, by omega⟩
      rw [(H' m hi).2.2.2, (H m hi).2.2.2]
  rw [hx, hy]

/-- **C11.** `unzip` collects the even blocks of the concatenation of its arguments in the first
result and the odd blocks in the second. -/
theorem C11_unzip (b : Nat) (x y : U L) :
    (L - k ≤ b → unzip k b x y = none) ∧
    (b < L - k → ∃ c d, unzip k b x y = some (c, d) ∧
      ∀ m, m < 2 ^ (L - (b + k)) →
        getSub (b + k) m c = blockOf (b + k) (2 * m) x y ∧
        getSub (b + k) m d = blockOf (b + k) (2 * m + 1) x y) := by
  refine ⟨fun h => if_neg (by omega), fun h => ⟨_, _, if_pos h, fun m hm => ?_⟩⟩
  have := getSub_transposeLoop (b + k) (L - (b + k)) x y (by omega) 0 m hm (by omega)
  simp only [Nat.zero_mul, Nat.zero_add] at this
  exact this

/-- **C11.** `square_transpose` fails exactly when the block does not fit in a packed value or the
slice is shorter than one block. Otherwise the slice is a matrix with `2^n` rows of `2^w` packed
values, and every `2^n × 2^n` block of scalars is transposed: the scalar in row `r` at position `s`
of a block is the scalar that was in row `s` at position `r`. -/
theorem C11_squareTranspose (n logSize : Nat) (elems : Nat → U L) :
    (L - k < n ∨ logSize < n → squareTranspose k n logSize elems = none) ∧
    (n ≤ L - k → n ≤ logSize → k ≤ L → ∃ out, squareTranspose k n logSize elems = some out ∧
      ∀ r s c q, r < 2 ^ n → s < 2 ^ n → c < 2 ^ (logSize - n) → q < 2 ^ (L - k - n) →
        getSub k (q * 2 ^ n + s) (out (r * 2 ^ (logSize - n) + c)) =
          getSub k (q * 2 ^ n + r) (elems (s * 2 ^ (logSize - n) + c))) := by
  constructor
  · intro h
    rw [squareTranspose]
    split
    · rfl
    · split
      · rfl
      · omega
  · intro h1 h2 hk
    refine ⟨_, by rw [squareTranspose, if_neg (by omega), if_neg (by omega)], ?_⟩
    intro r s c q hr hs hc hq
    have := getSub_transposeRounds (k := k) (logN := n) (w := logSize - n) (by omega) elems n le_rfl
      0 q r s c hr hs hc (by simp) hq
    simpa using this

/-- **C11.** Transposing twice restores the slice. -/
theorem C11_squareTranspose_involutive (hk : k ≤ L) (n logSize : Nat) (elems out out' : Nat → U L)
    (h : squareTranspose k n logSize elems = some out)
    (h' : squareTranspose k n logSize out = some out') :
    ∀ e < 2 ^ logSize, out' e = elems e := by
  have hn : n ≤ L - k ∧ n ≤ logSize := by
    by_contra hc
    rw [(C11_squareTranspose n logSize elems).1 (by omega)] at h
    exact absurd h (by simp)
  obtain ⟨o, ho, H⟩ := (C11_squareTranspose n logSize elems).2 hn.1 hn.2 hk
  obtain ⟨o', ho', H'⟩ := (C11_squareTranspose n logSize out).2 hn.1 hn.2 hk
  rw [h] at ho; rw [h'] at ho'
  cases ho; cases ho'
  intro e he
  have hsz : 2 ^ logSize = 2 ^ n * 2 ^ (logSize - n) := by rw [← Nat.pow_add]; congr 1; omega
  have hW := Nat.two_pow_pos (logSize - n)
  have he' := Nat.div_add_mod e (2 ^ (logSize - n))
  have hr : e / 2 ^ (logSize - n) < 2 ^ n := by
    rw [Nat.div_lt_iff_lt_mul hW, ← hsz]; exact he
  have hc := Nat.mod_lt e hW
  refine getSub_ext hk fun i hi => ?_
  have hi' := Nat.div_add_mod i (2 ^ n)
  have hs := Nat.mod_lt i (Nat.two_pow_pos n)
  have hq : i / 2 ^ n < 2 ^ (L - k - n) := by
    rw [Nat.div_lt_iff_lt_mul (Nat.two_pow_pos n), ← Nat.pow_add]
    rwa [show L - k - n + n = L - k by omega]
  rw [Nat.mul_comm] at he' hi'
  have A := H' _ _ _ _ hr hs hc hq
  rw [H _ _ _ _ hs hr hc hq, he', hi'] at A
  exact A

/-- Concrete: `4 × 4` bit-matrix transposition in four 4-bit packed values. -/
example : (squareTranspose (L := 2) 0 2 2 (fun i => BitVec.ofNat _ ([0b0001, 0b0011, 0b0111, 0b1111].getD i 0))).map
    (fun f => (List.range 4).map f) = some [0b1111#4, 0b1110#4, 0b1100#4, 0b1000#4] := by
  decide +kernel

example : unzip (L := 4) 2 0 0x3210#16 0x7654#16 = some (0x6420#16, 0x7531#16) := by decide +kernel

/-! ## C12 -/

theorem toT_power {k : Nat} (a : U k) (n : Nat) :
    toT (power Scalar.mul 1#_ a n) = toT a ^ n := by
  induction n with
  | zero => exact Scalar.toT_one
  | succ n ih => rw [power, Scalar.toT_mul, ih, pow_succ]

/-- **C12.** The packed power raises every lane to the exponent, for every 64-bit exponent. -/
theorem C12_packed_pow (hk : k ≤ L) (a : U L) (e : Nat) (he : e < 2 ^ 64) (i : Nat)
    (hi : i < 2 ^ (L - k)) :
    getSub k i (Packed.pow k a e) = power Scalar.mul 1#_ (getSub k i a) e :=
  toT_injective (by rw [toT_getSub, lane_pow hk hi a e he, toT_power, toT_getSub])

theorem toT_foldl_powLimb {k : Nat} (a : U k) (l : List Nat) (h : ∀ x ∈ l, x < 2 ^ 64) :
    toT (l.reverse.foldl (powLimbVartime a) 1#_) = toT a ^ limbsValue l := by
  induction l with
  | nil => simp [limbsValue, Scalar.toT_one]
  | cons x xs ih =>
    rw [List.reverse_cons, List.foldl_append, List.foldl_cons, List.foldl_nil,
      toT_powLimbVartime _ _ _ (h x List.mem_cons_self),
      ih fun y hy => h y (List.mem_cons_of_mem _ hy), limbsValue, ← pow_mul, ← pow_add]
    congr 1; ring

/-- **C12.** `pow` and `pow_vartime` on scalars raise to the value of the little-endian limbs, for
every number of limbs. -/
theorem C12_pow (a : U k) (exp : List Nat) (h : ∀ x ∈ exp, x < 2 ^ 64) :
    powLimbs a exp = power Scalar.mul 1#_ a (limbsValue exp) ∧
    powLimbsVartime a exp = power Scalar.mul 1#_ a (limbsValue exp) := by
  have hv : powLimbsVartime a exp = power Scalar.mul 1#_ a (limbsValue exp) :=
    toT_injective (by rw [powLimbsVartime, toT_foldl_powLimb a exp h, toT_power])
  refine ⟨?_, hv⟩
  rw [← hv, powLimbs, powLimbsVartime]
  congr 1
  funext r e
  exact powLimb_eq_vartime a r e

/-- Exponents with several limbs are in range: `2^64 + 3`. -/
example (a : U 7) : powLimbs a [3, 1] = power Scalar.mul 1#_ a (2 ^ 64 + 3) := by
  have := (C12_pow a [3, 1] (by decide)).1
  simpa [limbsValue, Nat.add_comm] using this

/-- `2^3 = 1` in `GF(4)`, in both lanes. -/
example : Packed.pow (L := 2) 1 0b1110#4 3 = 0b0101#4 := by decide +kernel

end Verif.Field
