import Verif.Field.LemmasPackedOps

namespace Verif.Field.Packed
open Verif
variable {L : Nat}

theorem getSub_getSub {k b s q : Nat} (hs : s < 2 ^ b) (u : U L) :
    getSub k s (getSub (b + k) q u) = getSub k (q * 2 ^ b + s) u := by
  apply BitVec.eq_of_getLsbD_eq
  intro j hj
  rw [getLsbD_getSub, getLsbD_getSub, getLsbD_getSub]
  have : s * 2 ^ k + j < 2 ^ (b + k) := by
    have := Nat.mul_le_mul_right (2 ^ k) hs
    rw [Nat.succ_mul] at this
    rw [Nat.pow_add]; omega
  simp only [hj, this, decide_true, Bool.true_and]
  congr 1
  rw [Nat.pow_add]; ring

theorem two_pow_split (h : Nat) : 2 ^ (h + 1) = 2 ^ h + 2 ^ h := by rw [Nat.pow_succ]; omega

/-! ### unzip -/

theorem getSub_transposeLoop (lo : Nat) : ∀ (n : Nat) (a b : U L), lo + n ≤ L →
    ∀ h r, r < 2 ^ n → h * 2 ^ n + r < 2 ^ (L - lo) →
    getSub lo (h * 2 ^ n + r) (transposeLoop lo n (a, b)).1 =
      (if 2 * r < 2 ^ n then getSub lo (h * 2 ^ n + 2 * r) a
        else getSub lo (h * 2 ^ n + (2 * r - 2 ^ n)) b) ∧
    getSub lo (h * 2 ^ n + r) (transposeLoop lo n (a, b)).2 =
      (if 2 * r + 1 < 2 ^ n then getSub lo (h * 2 ^ n + (2 * r + 1)) a
        else getSub lo (h * 2 ^ n + (2 * r + 1 - 2 ^ n)) b) := by
  intro n
  induction n with
  | zero =>
    intro a b _ h r hr _
    have : r = 0 := by simpa using hr
    subst this
    simp [transposeLoop]
  | succ n ih =>
    intro a b hL h r hr hlt
    have hp := two_pow_split n
    have hn := Nat.two_pow_pos n
    have hlo : n + lo < L := by omega
    rw [transposeLoop]
    rw [Nat.add_comm lo n]
    have c := fun i hi => getSub_interleave_fst (k := lo) (b := n) (i := i) hlo hi a b
    have d := fun i hi => getSub_interleave_snd (k := lo) (b := n) (i := i) hlo hi a b
    have hh : h * 2 ^ (n + 1) = (2 * h) * 2 ^ n := by rw [hp]; ring
    have hbound : ∀ x, x < 2 ^ (n + 1) → 2 * h * 2 ^ n + x < 2 ^ (L - lo) := by
      intro x hx
      -- the superblock containing the lane is inside the underlier
      have e : 2 ^ (L - lo) = 2 ^ (L - lo - (n + 1)) * 2 ^ (n + 1) := by
        rw [← Nat.pow_add]; congr 1; omega
      have h1 : h < 2 ^ (L - lo - (n + 1)) := by
        by_contra hc
        have := Nat.mul_le_mul_right (2 ^ (n + 1)) (Nat.le_of_not_lt hc)
        omega
      have h2 := Nat.mul_le_mul_right (2 ^ (n + 1)) h1
      rw [Nat.succ_mul] at h2
      omega
    by_cases ht : r < 2 ^ n
    · -- lower half
      have := ih (interleave (n + lo) a b).1 (interleave (n + lo) a b).2 (by omega) (2 * h) r ht
        (by have := hbound r hr; omega)
      rw [Prod.mk.eta] at this
      rw [hh]
      have par : ∀ x, x < 2 ^ n → (2 * h * 2 ^ n + x) / 2 ^ n % 2 = 0 := by
        intro x hx
        rw [Nat.add_comm, Nat.add_mul_div_right _ _ hn, Nat.div_eq_of_lt hx]; omega
      refine ⟨this.1.trans ?_, this.2.trans ?_⟩
      · rw [if_pos (show 2 * r < 2 ^ (n + 1) by omega)]
        split
        · rw [c _ (hbound _ (by omega)), if_pos (par _ (by omega))]
        · rw [d _ (hbound _ (by omega)), if_pos (par _ (by omega))]
          congr 1; omega
      · rw [if_pos (show 2 * r + 1 < 2 ^ (n + 1) by omega)]
        split
        · rw [c _ (hbound _ (by omega)), if_pos (par _ (by omega))]
        · rw [d _ (hbound _ (by omega)), if_pos (par _ (by omega))]
          congr 1; omega
    · obtain ⟨r', rfl⟩ : ∃ r', r = 2 ^ n + r' := ⟨r - 2 ^ n, by omega⟩
      have e1 : (2 * h + 1) * 2 ^ n + r' = 2 * h * 2 ^ n + (2 ^ n + r') := by ring
      have := ih (interleave (n + lo) a b).1 (interleave (n + lo) a b).2 (by omega) (2 * h + 1) r'
        (by omega) (by rw [e1]; exact hbound _ (by omega))
      rw [Prod.mk.eta] at this
      rw [hh]
      rw [e1] at this
      have e2 : ∀ x, (2 * h + 1) * 2 ^ n + x = 2 * h * 2 ^ n + (2 ^ n + x) := fun x => by ring
      have par : ∀ x, x < 2 ^ n → ¬ (2 * h * 2 ^ n + (2 ^ n + x)) / 2 ^ n % 2 = 0 := by
        intro x hx
        rw [← e2, Nat.add_comm, Nat.add_mul_div_right _ _ hn, Nat.div_eq_of_lt hx]; omega
      simp only [e2] at this
      refine ⟨this.1.trans ?_, this.2.trans ?_⟩
      · rw [if_neg (show ¬ 2 * (2 ^ n + r') < 2 ^ (n + 1) by omega)]
        split
        · rw [c _ (hbound _ (by omega)), if_neg (par _ (by omega))]
          congr 1; omega
        · rw [d _ (hbound _ (by omega)), if_neg (par _ (by omega))]
          congr 1; omega
      · rw [if_neg (show ¬ 2 * (2 ^ n + r') + 1 < 2 ^ (n + 1) by omega)]
        split
        · rw [c _ (hbound _ (by omega)), if_neg (par _ (by omega))]
          congr 1; omega
        · rw [d _ (hbound _ (by omega)), if_neg (par _ (by omega))]
          congr 1; omega

/-! ### spread -/

theorem getSub_spread_first {k i : Nat} (hk : k ≤ L) (hi : i < 2 ^ (L - k)) (rep : Nat)
    (f : Nat → U k) : ∀ n,
    getSub k i ((List.range n).foldl (fun r x => setSub k (x * 2 ^ rep) r (f x)) (0#_ : U L)) =
      if i % 2 ^ rep = 0 ∧ i / 2 ^ rep < n then f (i / 2 ^ rep) else 0#_ := by
  have hr := Nat.two_pow_pos rep
  intro n
  induction n with
  | zero => simp [getSub_zero]
  | succ n ih =>
    rw [List.range_succ, List.foldl_append, List.foldl_cons, List.foldl_nil,
      getSub_setSub hk hi, ih]
    by_cases h : i = n * 2 ^ rep
    · subst h
      simp [Nat.mul_div_cancel _ hr]
    · rw [if_neg h]
      by_cases h1 : i % 2 ^ rep = 0 ∧ i / 2 ^ rep < n
      · rw [if_pos h1, if_pos ⟨h1.1, by omega⟩]
      · rw [if_neg h1, if_neg]
        rintro ⟨h2, h3⟩
        have h4 : i / 2 ^ rep = n := by
          have : ¬ i / 2 ^ rep < n := fun hc => h1 ⟨h2, hc⟩
          omega
        have := Nat.div_add_mod i (2 ^ rep)
        rw [h2, h4] at this
        apply h; rw [Nat.mul_comm]; omega

theorem getSub_doubling {k : Nat} (hk : k ≤ L) (rep : Nat) (g : Nat → U k)
    (u : U L)
    (hu : ∀ i, i < 2 ^ (L - k) → getSub k i u =
      if i % 2 ^ rep = 0 then g (i / 2 ^ rep) else 0#_) :
    ∀ n, n ≤ rep → ∀ i, i < 2 ^ (L - k) →
    getSub k i ((List.range n).foldl (fun r x => r ||| (r <<< (2 ^ (k + x)))) u) =
      if i % 2 ^ rep < 2 ^ n then g (i / 2 ^ rep) else 0#_ := by
  intro n
  induction n with
  | zero =>
    intro _ i hi
    rw [List.range_zero, List.foldl_nil, hu i hi]
    by_cases h : i % 2 ^ rep = 0
    · rw [if_pos h, if_pos (by omega)]
    · rw [if_neg h, if_neg (by omega)]
  | succ n ih =>
    intro hn i hi
    have hp := two_pow_split n
    have hnp := Nat.two_pow_pos n
    have hle : 2 ^ (n + 1) ≤ 2 ^ rep := Nat.pow_le_pow_right (by omega) hn
    rw [List.range_succ, List.foldl_append, List.foldl_cons, List.foldl_nil, getSub_or,
      ih (by omega) i hi, show 2 ^ (k + n) = 2 ^ n * 2 ^ k by rw [Nat.pow_add]; ring,
      getSub_shl hk hi]
    by_cases h1 : i % 2 ^ rep < 2 ^ n
    · -- value already there; the shifted contribution is zero
      rw [if_pos h1, if_pos (show i % 2 ^ rep < 2 ^ (n + 1) by omega)]
      by_cases h2 : i < 2 ^ n
      · rw [if_pos h2]; simp
      · rw [if_neg h2, ih (by omega) _ (by omega), if_neg]
        · simp
        · -- (i - 2^n) % 2^rep ≥ 2^n
          have h3 := Nat.div_add_mod i (2 ^ rep)
          have hq : 0 < i / 2 ^ rep := by
            rcases Nat.eq_zero_or_pos (i / 2 ^ rep) with h0 | h0
            · rw [h0] at h3; omega
            · exact h0
          obtain ⟨q, hq'⟩ : ∃ q, i / 2 ^ rep = q + 1 := ⟨i / 2 ^ rep - 1, by omega⟩
          rw [hq', Nat.mul_add] at h3
          have : i - 2 ^ n = 2 ^ rep * q + (2 ^ rep + i % 2 ^ rep - 2 ^ n) := by omega
          rw [this, Nat.mul_add_mod, Nat.mod_eq_of_lt (by omega)]
          omega
    · rw [if_neg h1, if_neg (show ¬ i < 2 ^ n from fun hc => h1 (lt_of_le_of_lt (Nat.mod_le _ _) hc)),
        ih (by omega) _ (by omega)]
      have h3 := Nat.div_add_mod i (2 ^ rep)
      have hlt := Nat.mod_lt i (Nat.two_pow_pos rep)
      have e : i - 2 ^ n = 2 ^ rep * (i / 2 ^ rep) + (i % 2 ^ rep - 2 ^ n) := by omega
      have e1 : (i - 2 ^ n) % 2 ^ rep = i % 2 ^ rep - 2 ^ n := by
        rw [e, Nat.mul_add_mod, Nat.mod_eq_of_lt (by omega)]
      have e2 : (i - 2 ^ n) / 2 ^ rep = i / 2 ^ rep := by
        rw [e, Nat.mul_add_div (Nat.two_pow_pos rep), Nat.div_eq_of_lt (a := i % 2 ^ rep - 2 ^ n) (by omega), Nat.add_zero]
      rw [e1, e2]
      by_cases h2 : i % 2 ^ rep - 2 ^ n < 2 ^ n
      · rw [if_pos h2, if_pos (by omega)]; simp
      · rw [if_neg h2, if_neg (by omega)]; simp

theorem getSub_spread {k b idx : Nat} (hk : k ≤ L) (hb : b ≤ L - k)
    (u : U L) {i : Nat} (hi : i < 2 ^ (L - k)) :
    getSub k i (spread k b idx u) = getSub k (idx * 2 ^ b + i / 2 ^ (L - k - b)) u := by
  simp only [spread]
  have e : 2 ^ (L - k) = 2 ^ b * 2 ^ (L - k - b) := by rw [← Nat.pow_add]; congr 1; omega
  have hdiv : ∀ i, i < 2 ^ (L - k) → i / 2 ^ (L - k - b) < 2 ^ b := by
    intro i hi
    rw [Nat.div_lt_iff_lt_mul (Nat.two_pow_pos _), ← e]; exact hi
  rw [getSub_doubling hk (L - k - b) (fun x => getSub k (idx * 2 ^ b + x) u) _ ?_ _
    le_rfl i hi, if_pos (Nat.mod_lt _ (Nat.two_pow_pos _))]
  intro i hi
  rw [getSub_spread_first hk hi]
  by_cases h : i % 2 ^ (L - k - b) = 0
  · rw [if_pos ⟨h, hdiv i hi⟩, if_pos h]
  · rw [if_neg (fun hc => h hc.1), if_neg h]

/-! ### transform -/

theorem getLsbD_broadcastLowestBit {k : Nat} (hk : k ≤ L) (u : U L) (g : Nat → Bool)
    (hu : ∀ i j, i < 2 ^ (L - k) → j < 2 ^ k → u.getLsbD (i * 2 ^ k + j) = (decide (j = 0) && g i)) :
    ∀ n, n ≤ k → ∀ i j, i < 2 ^ (L - k) → j < 2 ^ k →
      (broadcastLowestBit n u).getLsbD (i * 2 ^ k + j) = (decide (j < 2 ^ n) && g i) := by
  intro n
  induction n with
  | zero =>
    intro _ i j hi hj
    rw [broadcastLowestBit, List.range_zero, List.foldl_nil, hu i j hi hj]
    simp
  | succ n ih =>
    intro hn i j hi hj
    have hp := two_pow_split n
    have hnp := Nat.two_pow_pos n
    have hle : 2 ^ (n + 1) ≤ 2 ^ k := Nat.pow_le_pow_right (by omega) hn
    have step : broadcastLowestBit (n + 1) u =
        broadcastLowestBit n u ||| (broadcastLowestBit n u <<< (2 ^ n)) := by
      rw [broadcastLowestBit, List.range_succ, List.foldl_append]; rfl
    rw [step, BitVec.getLsbD_or, BitVec.getLsbD_shiftLeft, ih (by omega) i j hi hj]
    have hlt := idx_lt hk hi hj
    by_cases h1 : j < 2 ^ n
    · -- the shifted bit comes from the previous lane and is zero there (or out of range)
      have h2 : j < 2 ^ (n + 1) := by omega
      simp only [h1, h2, decide_true, Bool.true_and]
      rcases Nat.eq_zero_or_pos i with rfl | hpos
      · have : 0 * 2 ^ k + j < 2 ^ n := by omega
        rw [decide_eq_true this]; simp
      · obtain ⟨x, rfl⟩ : ∃ x, i = x + 1 := ⟨i - 1, by omega⟩
        have e : (x + 1) * 2 ^ k + j - 2 ^ n = x * 2 ^ k + (2 ^ k + j - 2 ^ n) := by
          rw [Nat.add_mul]; omega
        rw [e, ih (by omega) x _ (by omega) (by omega)]
        have : ¬ (2 ^ k + j - 2 ^ n < 2 ^ n) := by omega
        simp [this]
    · have e : i * 2 ^ k + j - 2 ^ n = i * 2 ^ k + (j - 2 ^ n) := by omega
      rw [e, ih (by omega) i _ hi (by omega)]
      have h3 : ¬ (i * 2 ^ k + j < 2 ^ n) := by omega
      have h4 : decide (j - 2 ^ n < 2 ^ n) = decide (j < 2 ^ (n + 1)) := by
        rw [decide_eq_decide]; omega
      simp [h1, h3, hlt, h4]

/-- The exclusive-or of the bases selected by the bits of `x`, starting at bit `t`. -/
def selXor {k : Nat} (x : U k) : List (U k) → Nat → U k
  | [], _ => 0#_
  | b :: bs, t => (if x.getLsbD t then b else 0#_) ^^^ selXor x bs (t + 1)

theorem getSub_transformLoop {k i : Nat} (hk : k ≤ L) (hi : i < 2 ^ (L - k)) (u : U L) :
    ∀ (bases : List (U k)) (t : Nat) (res inp : U L), t + bases.length ≤ 2 ^ k →
      inp = u >>> t →
      getSub k i (transformLoop k bases res inp) =
        getSub k i res ^^^ selXor (getSub k i u) bases t := by
  intro bases
  induction bases with
  | nil => intro t res inp _ _; simp [transformLoop, selXor]
  | cons b bs ih =>
    intro t res inp ht hinp
    have ht' : t + 1 + bs.length ≤ 2 ^ k := by simp only [List.length_cons] at ht; omega
    have htk : t < 2 ^ k := by simp only [List.length_cons] at ht; omega
    rw [transformLoop]
    rw [ih (t + 1) _ _ ht' (by rw [hinp, BitVec.shiftRight_add]), getSub_xor, getSub_and,
      getSub_broadcast hk hi, selXor, BitVec.xor_assoc]
    congr 2
    have hlow : ∀ x j, x < 2 ^ (L - k) → j < 2 ^ k →
        (inp &&& broadcast k 1#_).getLsbD (x * 2 ^ k + j) =
          (decide (j = 0) && inp.getLsbD (x * 2 ^ k)) := by
      intro x j hx hj
      have h1 : (broadcast k 1#_ : U L).getLsbD (x * 2 ^ k + j) = decide (j = 0) := by
        have := congrArg (fun v => v.getLsbD j) (getSub_broadcast hk hx (1#_ : U k))
        simp only [getLsbD_getSub, hj, decide_true, Bool.true_and, BitVec.getLsbD_one] at this
        rw [this]; simp
      rw [BitVec.getLsbD_and, h1]
      by_cases h : j = 0
      · subst h; simp
      · simp [h]
    have hb := getLsbD_broadcastLowestBit hk (inp &&& broadcast k 1#_)
      (fun x => inp.getLsbD (x * 2 ^ k)) hlow k le_rfl
    have hbit : inp.getLsbD (i * 2 ^ k) = (getSub k i u).getLsbD t := by
      rw [hinp, BitVec.getLsbD_ushiftRight, getLsbD_getSub]
      simp [htk, Nat.add_comm]
    apply BitVec.eq_of_getLsbD_eq
    intro j hj
    rw [BitVec.getLsbD_and, getLsbD_getSub, hb i j hi hj, hbit]
    cases (getSub k i u).getLsbD t <;> simp [hj]

/-! ### pow -/

theorem lane_pow {k i : Nat} (hk : k ≤ L) (hi : i < 2 ^ (L - k)) (a : U L) (e : Nat)
    (he : e < 2 ^ 64) : lane k i (pow k a e) = lane k i a ^ e := by
  have key : ∀ n, n ≤ 64 → lane k i ((List.range n).foldl (fun res r =>
      let x := 63 - r
      let res := square k res
      if (e >>> x) &&& 1 = 1 then mul k res a else res) (broadcast k 1#_)) =
      lane k i a ^ (e >>> (64 - n)) := by
    intro n
    induction n with
    | zero =>
      intro _
      have : e >>> 64 = 0 := by
        rw [Nat.shiftRight_eq_div_pow]; exact Nat.div_eq_of_lt he
      rw [List.range_zero, List.foldl_nil, Nat.sub_zero, this, pow_zero, ← toT_getSub,
        getSub_broadcast hk hi, Scalar.toT_one]
    | succ n ih =>
      intro hn
      rw [List.range_succ, List.foldl_append, List.foldl_cons, List.foldl_nil]
      have ih := ih (by omega)
      generalize (List.range n).foldl _ _ = res at ih ⊢
      have hs : e >>> (64 - n) = e >>> (63 - n) / 2 := by
        rw [show 64 - n = (63 - n) + 1 by omega, Nat.shiftRight_add, Nat.shiftRight_one]
      rw [hs] at ih
      rw [show 64 - (n + 1) = 63 - n by omega]
      simp only [Nat.and_one_is_mod]
      generalize e >>> (63 - n) = m at ih ⊢
      have hm := Nat.div_add_mod m 2
      by_cases h : m % 2 = 1
      · rw [if_pos h, lane_mul k hk i hi, lane_square k hk i hi, T.square_eq, ih, ← pow_add,
          ← pow_succ]
        congr 1; omega
      · rw [if_neg h, lane_square k hk i hi, T.square_eq, ih, ← pow_add]
        congr 1; omega
  have := key 64 le_rfl
  simpa [pow] using this

theorem powLimb_eq_vartime {k : Nat} (a res : U k) (e : Nat) :
    powLimb a res e = powLimbVartime a res e := by
  rw [powLimb, powLimbVartime]
  congr 1
  funext res r
  simp only [Nat.and_one_is_mod]
  by_cases h : e >>> (63 - r) % 2 = 1
  · rw [if_pos (by omega), if_pos h]
  · rw [if_neg (by omega), if_neg h]

theorem toT_powLimbVartime {k : Nat} (a res : U k) (e : Nat) (he : e < 2 ^ 64) :
    toT (powLimbVartime a res e) = toT res ^ 2 ^ 64 * toT a ^ e := by
  have key : ∀ n, n ≤ 64 → toT ((List.range n).foldl (fun res r =>
      let x := 63 - r
      let res := Scalar.square res
      if (e >>> x) &&& 1 = 1 then Scalar.mul res a else res) res) =
      toT res ^ 2 ^ n * toT a ^ (e >>> (64 - n)) := by
    intro n
    induction n with
    | zero =>
      intro _
      have : e >>> 64 = 0 := by
        rw [Nat.shiftRight_eq_div_pow]; exact Nat.div_eq_of_lt he
      rw [List.range_zero, List.foldl_nil, Nat.sub_zero, this]; simp
    | succ n ih =>
      intro hn
      rw [List.range_succ, List.foldl_append, List.foldl_cons, List.foldl_nil]
      have ih := ih (by omega)
      generalize (List.range n).foldl _ _ = res' at ih ⊢
      have hs : e >>> (64 - n) = e >>> (63 - n) / 2 := by
        rw [show 64 - n = (63 - n) + 1 by omega, Nat.shiftRight_add, Nat.shiftRight_one]
      rw [hs] at ih
      rw [show 64 - (n + 1) = 63 - n by omega]
      simp only [Nat.and_one_is_mod]
      generalize e >>> (63 - n) = m at ih ⊢
      have hm := Nat.div_add_mod m 2
      rw [pow_succ 2 n, pow_mul]
      by_cases h : m % 2 = 1
      · rw [if_pos h, Scalar.toT_mul, Scalar.toT_square, T.square_eq, ih]
        have : toT a ^ m = toT a ^ (m / 2) * toT a ^ (m / 2) * toT a := by
          rw [← pow_add, ← pow_succ]; congr 1; omega
        rw [this]; ring
      · rw [if_neg h, Scalar.toT_square, T.square_eq, ih]
        have : toT a ^ m = toT a ^ (m / 2) * toT a ^ (m / 2) := by
          rw [← pow_add]; congr 1; omega
        rw [this]; ring
  have := key 64 le_rfl
  simpa [powLimbVartime] using this

/-! ### square transpose -/

theorem transposeRound_index {w j c : Nat} (hc : c < 2 ^ w) :
    (j <<< (w + 1)) ||| c = j * 2 ^ (w + 1) + c ∧
    ((j <<< (w + 1)) ||| c) ||| (1 <<< w) = j * 2 ^ (w + 1) + c + 2 ^ w := by
  have hp := two_pow_split w
  have e1 : (j <<< (w + 1)) ||| c = j * 2 ^ (w + 1) + c := by
    rw [← Nat.shiftLeft_add_eq_or_of_lt (by omega), Nat.shiftLeft_eq]
  refine ⟨e1, ?_⟩
  have e2 : (j <<< (w + 1)) ||| c ||| (1 <<< w) = (((j <<< 1) ||| 1) <<< w) ||| c := by
    rw [Nat.shiftLeft_or_distrib, ← Nat.shiftLeft_add, Nat.add_comm 1 w, Nat.or_assoc,
      Nat.or_comm c, Nat.or_assoc]
  rw [e2, ← Nat.shiftLeft_add_eq_or_of_lt hc, Nat.shiftLeft_eq,
    ← Nat.shiftLeft_add_eq_or_of_lt (show 1 < 2 ^ 1 by omega), Nat.shiftLeft_eq, hp]
  ring

theorem getSub_transposeRound {k logN w i : Nat} (hL : logN + k ≤ L) (hi : i < logN)
    (m : Nat → U L) {R S r s c ρ σ : Nat} (hρ : ρ < 2) (hσ : σ < 2) (hr : r < 2 ^ i) (hs : s < 2 ^ i)
    (hc : c < 2 ^ w) (hR : R < 2 ^ (logN - i - 1))
    (hS : (2 * S + σ) * 2 ^ i + s < 2 ^ (L - k)) (hS' : (2 * S + ρ) * 2 ^ i + s < 2 ^ (L - k)) :
    getSub k ((2 * S + σ) * 2 ^ i + s)
        (transposeRound k logN w i m (((2 * R + ρ) * 2 ^ i + r) * 2 ^ w + c)) =
      getSub k ((2 * S + ρ) * 2 ^ i + s) (m (((2 * R + σ) * 2 ^ i + r) * 2 ^ w + c)) := by
  have hx : r * 2 ^ w + c < 2 ^ (w + i) := by
    have := Nat.mul_le_mul_right (2 ^ w) hr
    rw [Nat.succ_mul] at this
    rw [Nat.pow_add, Nat.mul_comm (2 ^ w)]; omega
  have hin : ∀ p ∈ nest (2 ^ (logN - i - 1)) (2 ^ (w + i)), p.2 < 2 ^ (w + i) :=
    fun p hp => (mem_nest.mp hp).2
  have hd := disjointPairs_layer (2 ^ (logN - i - 1)) (w + i)
    (fun p : Nat × Nat => (p.1 <<< (w + i + 1)) ||| p.2)
    (fun p => ((p.1 <<< (w + i + 1)) ||| p.2) ||| (1 <<< (w + i)))
    (fun p hp => (transposeRound_index (hin p hp)).1)
    (fun p hp => (transposeRound_index (hin p hp)).2)
  have hm := pairLoop_of_mem (fun _ v0 v1 => interleave (i + k) v0 v1) _ _ _ m hd
    (R, r * 2 ^ w + c) (mem_nest.mpr ⟨hR, hx⟩)
  have e := transposeRound_index (w := w + i) (j := R) hx
  dsimp only at hm
  rw [e.2, e.1] at hm
  have e0 : R * 2 ^ (w + i + 1) + (r * 2 ^ w + c) = ((2 * R + 0) * 2 ^ i + r) * 2 ^ w + c := by
    rw [two_pow_split, Nat.pow_add]; ring
  have e1 : R * 2 ^ (w + i + 1) + (r * 2 ^ w + c) + 2 ^ (w + i) =
      ((2 * R + 1) * 2 ^ i + r) * 2 ^ w + c := by
    rw [two_pow_split, Nat.pow_add]; ring
  rw [e1, e0] at hm
  have hp := Nat.two_pow_pos i
  have par : ∀ x, ((2 * S + x) * 2 ^ i + s) / 2 ^ i % 2 = x % 2 := by
    intro x
    rw [Nat.add_comm, Nat.add_mul_div_right _ _ hp, Nat.div_eq_of_lt hs]; omega
  have hT : ∀ x, transposeRound k logN w i m x = pairLoop (fun _ v0 v1 => interleave (i + k) v0 v1)
      (fun p : Nat × Nat => (p.1 <<< (w + i + 1)) ||| p.2)
      (fun p => ((p.1 <<< (w + i + 1)) ||| p.2) ||| (1 <<< (w + i)))
      (nest (2 ^ (logN - i - 1)) (2 ^ (w + i))) m x := by
    intro x
    rw [transposeRound, Nat.one_shiftLeft, Nat.one_shiftLeft]
  rw [hT]
  have c1 := fun a b => getSub_interleave_fst (k := k) (b := i) (by omega) hS a b
  have c2 := fun a b => getSub_interleave_snd (k := k) (b := i) (by omega) hS a b
  rw [par] at c1 c2
  obtain rfl | rfl : ρ = 0 ∨ ρ = 1 := by omega
  · rw [hm.1]
    refine (c1 _ _).trans ?_
    obtain rfl | rfl : σ = 0 ∨ σ = 1 := by omega
    · rfl
    · rw [if_neg (by decide)]
      congr 1
      rw [Nat.add_mul, Nat.add_mul]; omega
  · rw [hm.2]
    refine (c2 _ _).trans ?_
    obtain rfl | rfl : σ = 0 ∨ σ = 1 := by omega
    · rw [if_pos (by decide)]
      congr 1
      rw [Nat.add_mul, Nat.add_mul]; omega
    · rfl

theorem getSub_transposeRounds {k logN w : Nat} (hL : logN + k ≤ L) (m : Nat → U L) :
    ∀ i, i ≤ logN → ∀ R S r s c, r < 2 ^ i → s < 2 ^ i → c < 2 ^ w → R < 2 ^ (logN - i) →
      S < 2 ^ (L - k - i) →
      getSub k (S * 2 ^ i + s)
        ((List.range i).foldl (fun m i => transposeRound k logN w i m) m
          ((R * 2 ^ i + r) * 2 ^ w + c)) =
        getSub k (S * 2 ^ i + r) (m ((R * 2 ^ i + s) * 2 ^ w + c)) := by
  intro i
  induction i with
  | zero =>
    intro _ R S r s c hr hs _ _ _
    obtain rfl : r = 0 := by simpa using hr
    obtain rfl : s = 0 := by simpa using hs
    rfl
  | succ i ih =>
    intro hi R S r s c hr hs hc hR hS
    have hp := two_pow_split i
    have hpp := Nat.two_pow_pos i
    rw [List.range_succ, List.foldl_append, List.foldl_cons, List.foldl_nil]
    obtain ⟨ρ, r', hρ, hr', rfl⟩ : ∃ ρ r', ρ < 2 ∧ r' < 2 ^ i ∧ r = ρ * 2 ^ i + r' := by
      refine ⟨r / 2 ^ i, r % 2 ^ i, ?_, Nat.mod_lt _ hpp, ?_⟩
      · rw [Nat.div_lt_iff_lt_mul hpp]; omega
      · rw [Nat.mul_comm]; exact (Nat.div_add_mod _ _).symm
    obtain ⟨σ, s', hσ, hs', rfl⟩ : ∃ σ s', σ < 2 ∧ s' < 2 ^ i ∧ s = σ * 2 ^ i + s' := by
      refine ⟨s / 2 ^ i, s % 2 ^ i, ?_, Nat.mod_lt _ hpp, ?_⟩
      · rw [Nat.div_lt_iff_lt_mul hpp]; omega
      · rw [Nat.mul_comm]; exact (Nat.div_add_mod _ _).symm
    have ex : ∀ X ξ x, X * 2 ^ (i + 1) + (ξ * 2 ^ i + x) = (2 * X + ξ) * 2 ^ i + x := by
      intro X ξ x; rw [hp]; ring
    simp only [ex]
    have hSS : 2 * S + 1 < 2 ^ (L - k - i) := by
      have : 2 ^ (L - k - i) = 2 ^ (L - k - (i + 1)) + 2 ^ (L - k - (i + 1)) := by
        rw [← two_pow_split]; congr 1; omega
      omega
    have hRR : 2 * R + 1 < 2 ^ (logN - i) := by
      have : 2 ^ (logN - i) = 2 ^ (logN - (i + 1)) + 2 ^ (logN - (i + 1)) := by
        rw [← two_pow_split]; congr 1; omega
      omega
    have hb : ∀ ξ, ξ < 2 → (2 * S + ξ) * 2 ^ i + s' < 2 ^ (L - k) := by
      intro ξ hξ
      have e : 2 ^ (L - k) = 2 ^ (L - k - i) * 2 ^ i := by rw [← Nat.pow_add]; congr 1; omega
      have := Nat.mul_le_mul_right (2 ^ i) (show 2 * S + ξ + 1 ≤ 2 ^ (L - k - i) by omega)
      rw [Nat.succ_mul] at this
      omega
    rw [getSub_transposeRound hL (by omega) _ hρ hσ hr' hs' hc (by rwa [Nat.sub_sub]) (hb _ hσ)
      (hb _ hρ)]
    exact ih (by omega) (2 * R + σ) (2 * S + ρ) r' s' c hr' hs' hc (by omega) (by omega)

end Verif.Field.Packed
