import Verif.M3.SpecVal
import Verif.M3.LemmasTower

set_option linter.dupNamespace false

namespace Verif.M3

open Finset Verif.Field

theorem two_pow_two_pow_succ (N : Nat) : 2 ^ 2 ^ (N + 1) = 2 ^ 2 ^ N * 2 ^ 2 ^ N := by
  rw [← pow_add]; congr 1; rw [pow_succ]; omega

theorem toVal_lt : ∀ (N : Nat) (x : T N), toVal N x < 2 ^ 2 ^ N
  | 0, x => by cases x <;> decide
  | N + 1, (a, b) => by
    show toVal N a + 2 ^ 2 ^ N * toVal N b < _
    have ha := toVal_lt N a
    have hb := toVal_lt N b
    rw [two_pow_two_pow_succ]
    have : 2 ^ 2 ^ N * (toVal N b + 1) ≤ 2 ^ 2 ^ N * 2 ^ 2 ^ N := Nat.mul_le_mul_left _ hb
    rw [Nat.mul_add] at this
    omega

theorem ofVal_toVal : ∀ (N : Nat) (x : T N), ofVal N (toVal N x) = x
  | 0, x => by cases x <;> rfl
  | N + 1, (a, b) => by
    have ha := toVal_lt N a
    have hp := Nat.two_pow_pos (2 ^ N)
    show (ofVal N (toVal N a + 2 ^ 2 ^ N * toVal N b), ofVal N ((toVal N a + 2 ^ 2 ^ N * toVal N b) / 2 ^ 2 ^ N)) = (a, b)
    have hm : ∀ (M v : Nat), ofVal M (v % 2 ^ 2 ^ M) = ofVal M v := by
      intro M
      induction M with
      | zero => intro v; show (v % 2).testBit 0 = v.testBit 0; simp
      | succ M ih =>
        intro v
        have e1 : ofVal M (v % 2 ^ 2 ^ (M + 1)) = ofVal M v := by
          rw [← ih (v % _), ← ih v, Nat.mod_mod_of_dvd _ (by rw [two_pow_two_pow_succ]; exact Nat.dvd_mul_right _ _)]
        have e2 : ofVal M (v % 2 ^ 2 ^ (M + 1) / 2 ^ 2 ^ M) = ofVal M (v / 2 ^ 2 ^ M) := by
          rw [two_pow_two_pow_succ, Nat.mod_mul_right_div_self, ih]
        exact Prod.ext e1 e2
    refine Prod.ext ?_ ?_
    · show ofVal N _ = a
      rw [← hm, Nat.add_mul_mod_self_left, hm, ofVal_toVal N a]
    · show ofVal N _ = b
      rw [Nat.add_mul_div_left _ _ hp, Nat.div_eq_of_lt ha, Nat.zero_add, ofVal_toVal N b]

theorem toVal_ofVal : ∀ (N v : Nat), toVal N (ofVal N v) = v % 2 ^ 2 ^ N
  | 0, v => by
    show (v.testBit 0).toNat = v % 2
    rw [Nat.testBit_zero]
    rcases Nat.mod_two_eq_zero_or_one v with h | h <;> simp [h]
  | N + 1, v => by
    show toVal N (ofVal N v) + 2 ^ 2 ^ N * toVal N (ofVal N (v / 2 ^ 2 ^ N)) = _
    rw [toVal_ofVal N, toVal_ofVal N, two_pow_two_pow_succ, Nat.mod_mul]

theorem ofVal_inj {N v v' : Nat} (h : v < 2 ^ 2 ^ N) (h' : v' < 2 ^ 2 ^ N) (he : ofVal N v = ofVal N v') : v = v' := by
  have := congrArg (toVal N) he
  rwa [toVal_ofVal, toVal_ofVal, Nat.mod_eq_of_lt h, Nat.mod_eq_of_lt h'] at this

theorem toVal_zero : ∀ N, toVal N 0 = 0
  | 0 => rfl
  | N + 1 => by show toVal N 0 + 2 ^ 2 ^ N * toVal N 0 = 0; rw [toVal_zero N]; simp

theorem toVal_one : ∀ N, toVal N 1 = 1
  | 0 => rfl
  | N + 1 => by show toVal N 1 + 2 ^ 2 ^ N * toVal N 0 = 1; rw [toVal_zero N, toVal_one N]; simp

theorem ofVal_zero : ∀ N, ofVal N 0 = 0
  | N => by rw [← toVal_zero N, ofVal_toVal]

theorem ofVal_one (N : Nat) : ofVal N 1 = 1 := by rw [← toVal_one N, ofVal_toVal]

/-- Addition is exclusive or of the numbers. -/
theorem ofVal_xor : ∀ (N a b : Nat), ofVal N (a ^^^ b) = ofVal N a + ofVal N b
  | 0, a, b => by
    show (a ^^^ b).testBit 0 = _
    rw [Nat.testBit_xor]
    rfl
  | N + 1, a, b => by
    refine Prod.ext (ofVal_xor N a b) ?_
    show ofVal N ((a ^^^ b) / 2 ^ 2 ^ N) = ofVal N (a / 2 ^ 2 ^ N) + ofVal N (b / 2 ^ 2 ^ N)
    rw [← ofVal_xor N, ← Nat.shiftRight_eq_div_pow, ← Nat.shiftRight_eq_div_pow, ← Nat.shiftRight_eq_div_pow,
      Nat.shiftRight_xor_distrib]

/-- The subfields are the small numbers. -/
theorem inSub_iff : ∀ (N l : Nat), l ≤ N → ∀ x : T N, InSub N l x ↔ toVal N x < 2 ^ 2 ^ l
  | 0, l, hl, x => by
    obtain rfl : l = 0 := by omega
    exact iff_of_true trivial (toVal_lt 0 x)
  | N + 1, l, hl, (a, b) => by
    show N + 1 ≤ l ∨ (b = 0 ∧ InSub N l a) ↔ toVal N a + 2 ^ 2 ^ N * toVal N b < _
    by_cases h : N + 1 ≤ l
    · obtain rfl : l = N + 1 := by omega
      exact iff_of_true (Or.inl h) (toVal_lt (N + 1) (a, b))
    · have hle : 2 ^ 2 ^ l ≤ 2 ^ 2 ^ N := Nat.pow_le_pow_right (by omega) (Nat.pow_le_pow_right (by omega) (by omega))
      rw [inSub_iff N l (by omega) a]
      constructor
      · rintro (h' | ⟨rfl, h'⟩)
        · exact absurd h' h
        · rw [toVal_zero]; simpa using h'
      · intro h'
        have hb : toVal N b = 0 := by
          by_contra hb
          have : 2 ^ 2 ^ N * 1 ≤ 2 ^ 2 ^ N * toVal N b := Nat.mul_le_mul_left _ (by omega)
          omega
        refine Or.inr ⟨by rw [← ofVal_toVal N b, hb, ofVal_zero], by rw [hb] at h'; simpa using h'⟩

theorem ofVal_two_pow : ∀ (N k : Nat), k < 2 ^ N → ofVal N (2 ^ k) = basisT N k
  | 0, k, hk => by
    obtain rfl : k = 0 := by simpa using hk
    rfl
  | N + 1, k, hk => by
    have hp := Nat.two_pow_pos (2 ^ N)
    by_cases h : k < 2 ^ N
    · refine Eq.trans ?_ (if_pos h).symm
      refine Prod.ext (ofVal_two_pow N k h) ?_
      show ofVal N (2 ^ k / 2 ^ 2 ^ N) = 0
      rw [Nat.div_eq_of_lt (Nat.pow_lt_pow_right (by omega) h), ofVal_zero]
    · refine Eq.trans ?_ (if_neg h).symm
      have hk2 : k - 2 ^ N < 2 ^ N := by rw [pow_succ] at hk; omega
      refine Prod.ext ?_ ?_
      · show ofVal N (2 ^ k) = 0
        have : toVal N (ofVal N (2 ^ k)) = 0 := by
          rw [toVal_ofVal]
          exact Nat.mod_eq_zero_of_dvd (pow_dvd_pow 2 (by omega))
        rw [← ofVal_toVal N (ofVal N (2 ^ k)), this, ofVal_zero]
      · show ofVal N (2 ^ k / 2 ^ 2 ^ N) = basisT N (k - 2 ^ N)
        rw [Nat.pow_div (by omega) (by omega), ofVal_two_pow N _ hk2]

/-- The element with the bits `a` below `n`. -/
theorem ofVal_sum (N : Nat) : ∀ (n : Nat) (v : Nat), v < 2 ^ n → n ≤ 2 ^ N →
    ofVal N v = ∑ k ∈ range n, if v.testBit k then basisT N k else 0
  | 0, v, hv, _ => by
    obtain rfl : v = 0 := by simpa using hv
    rw [ofVal_zero]; rfl
  | n + 1, v, hv, hn => by
    have hx : v = (v % 2 ^ n) ^^^ (if v.testBit n then 2 ^ n else 0) := by
      refine Nat.eq_of_testBit_eq fun i => ?_
      rw [Nat.testBit_xor, Nat.testBit_mod_two_pow]
      rcases Nat.lt_trichotomy i n with h | h | h
      · have : (if v.testBit n = true then 2 ^ n else 0).testBit i = false := by
          split
          · rw [Nat.testBit_two_pow]; simp; omega
          · simp
        rw [this]; simp [h]
      · subst h
        cases hb : v.testBit i
        · simp
        · rw [if_pos rfl, Nat.testBit_two_pow]; simp
      · have h1 : v.testBit i = false := Nat.testBit_lt_two_pow (hv.trans_le (Nat.pow_le_pow_right (by omega) h))
        have : (if v.testBit n = true then 2 ^ n else 0).testBit i = false := by
          split
          · rw [Nat.testBit_two_pow]; simp; omega
          · simp
        rw [h1, this]; simp
    rw [sum_range_succ]
    conv_lhs => rw [hx]
    rw [ofVal_xor, ofVal_sum N n (v % 2 ^ n) (Nat.mod_lt _ (Nat.two_pow_pos n)) (by omega)]
    refine congrArg₂ (· + ·) (sum_congr rfl fun k hk => ?_) ?_
    · rw [Nat.testBit_mod_two_pow, decide_eq_true (mem_range.1 hk), Bool.true_and]
    · split
      · rw [ofVal_two_pow N n (by omega)]
      · rw [ofVal_zero]

theorem basis_zero : ∀ N, basisT N 0 = 1
  | 0 => rfl
  | N + 1 => by
    refine (if_pos (Nat.two_pow_pos N)).trans ?_
    rw [basis_zero N]; rfl

/-- The basis over a subfield: `basis (2^l k + j) = basis (2^l k) * basis j`. -/
theorem basis_mul : ∀ (N l k j : Nat), l ≤ N → j < 2 ^ l → 2 ^ l * k + j < 2 ^ N →
    basisT N (2 ^ l * k + j) = basisT N (2 ^ l * k) * basisT N j
  | 0, l, k, j, hl, hj, hk => by
    obtain rfl : l = 0 := by omega
    rfl
  | N + 1, l, k, j, hl, hj, hk => by
    by_cases hlN : l = N + 1
    · subst hlN
      obtain rfl : k = 0 := by
        by_contra h0
        have : 2 ^ (N + 1) * 1 ≤ 2 ^ (N + 1) * k := Nat.mul_le_mul_left _ (by omega)
        omega
      rw [Nat.mul_zero, Nat.zero_add, basis_zero, one_mul]
    · have hlN : l ≤ N := by omega
      have hjN : j < 2 ^ N := hj.trans_le (Nat.pow_le_pow_right (by omega) hlN)
      obtain ⟨c, hc⟩ : 2 ^ l ∣ 2 ^ N := pow_dvd_pow 2 hlN
      have hbj : basisT (N + 1) j = mkT (basisT N j) 0 := if_pos hjN
      by_cases h : 2 ^ l * k < 2 ^ N
      · have h2 : 2 ^ l * k + j < 2 ^ N := by
          rw [hc] at h ⊢
          have : k < c := Nat.lt_of_mul_lt_mul_left h
          have : 2 ^ l * (k + 1) ≤ 2 ^ l * c := Nat.mul_le_mul_left _ this
          rw [Nat.mul_add] at this
          omega
        have e1 : basisT (N + 1) (2 ^ l * k + j) = mkT (basisT N (2 ^ l * k + j)) 0 := if_pos h2
        have e2 : basisT (N + 1) (2 ^ l * k) = mkT (basisT N (2 ^ l * k)) 0 := if_pos h
        rw [e1, e2, hbj, pair_mul, basis_mul N l k j hlN hj h2]
      · have hkc : c ≤ k := by
          by_contra hk'
          have : 2 ^ l * (k + 1) ≤ 2 ^ l * c := Nat.mul_le_mul_left _ (by omega)
          rw [Nat.mul_add] at this
          have := Nat.two_pow_pos l
          omega
        have e3 : 2 ^ l * k - 2 ^ N = 2 ^ l * (k - c) := by rw [hc, Nat.mul_sub]
        have e1 : basisT (N + 1) (2 ^ l * k + j) = mkT 0 (basisT N (2 ^ l * (k - c) + j)) := by
          refine (if_neg (by omega)).trans ?_
          rw [show 2 ^ l * k + j - 2 ^ N = 2 ^ l * (k - c) + j by omega]; rfl
        have e2 : basisT (N + 1) (2 ^ l * k) = mkT 0 (basisT N (2 ^ l * (k - c))) := by
          refine (if_neg (by omega)).trans ?_
          rw [e3]; rfl
        rw [e1, e2, hbj, basis_mul N l (k - c) j hlN hj (by rw [pow_succ] at hk; omega)]
        refine Eq.symm ((T.mk_mul_mk _ _ _ _).trans (Prod.ext ?_ ?_))
        · show 0 * basisT N j + basisT N (2 ^ l * (k - c)) * 0 = 0; ring
        · show 0 * 0 + basisT N (2 ^ l * (k - c)) * basisT N j + T.alpha N * (basisT N (2 ^ l * (k - c)) * 0) = basisT N (2 ^ l * (k - c)) * basisT N j
          ring

/-- Multiplying an element of the subfield of level `l` by the `k`-th basis element over it moves its bits. -/
theorem ofVal_mul_basis {N l k v : Nat} (hl : l ≤ N) (hk : k < 2 ^ (N - l)) (hv : v < 2 ^ 2 ^ l) :
    ofVal N v * basisT N (2 ^ l * k) = ofVal N (v * 2 ^ (2 ^ l * k)) := by
  have hp : 2 ^ N = 2 ^ l * 2 ^ (N - l) := by rw [← pow_add]; congr 1; omega
  have hle : 2 ^ l * k + 2 ^ l ≤ 2 ^ N := by
    rw [hp, ← Nat.mul_succ]; exact Nat.mul_le_mul_left _ hk
  have hlt : v * 2 ^ (2 ^ l * k) < 2 ^ (2 ^ l * k + 2 ^ l) := by
    rw [pow_add, Nat.mul_comm]
    exact Nat.mul_lt_mul_of_pos_left hv (Nat.two_pow_pos _)
  rw [ofVal_sum N (2 ^ l) v hv (by omega), ofVal_sum N _ _ hlt hle, sum_mul, sum_range_add]
  have h0 : ∑ i ∈ range (2 ^ l * k), (if (v * 2 ^ (2 ^ l * k)).testBit i then basisT N i else 0) = 0 := by
    refine sum_eq_zero fun i hi => if_neg ?_
    rw [Nat.testBit_mul_two_pow]
    simp [mem_range.1 hi]
  rw [h0, zero_add]
  refine sum_congr rfl fun j hj => ?_
  have hj := mem_range.1 hj
  rw [Nat.testBit_mul_two_pow, show 2 ^ l * k + j - 2 ^ l * k = j by omega,
    decide_eq_true (show 2 ^ l * k ≤ 2 ^ l * k + j by omega), Bool.true_and]
  split
  · rw [basis_mul N l k j hl hj (by omega), mul_comm]
  · rw [zero_mul]

end Verif.M3
