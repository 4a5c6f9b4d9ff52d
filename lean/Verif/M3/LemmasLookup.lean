import Verif.M3.SpecLookup
import Verif.M3.LemmasVal
import Verif.M3.LemmasBuilder

set_option linter.dupNamespace false
set_option linter.unusedSectionVars false

namespace Verif.M3

open Finset Verif.Field Verif.Arith

/-! ### Bits of merged values -/

theorem testBit_byte {a i : Nat} (ha : a < 256) (hi : 8 ≤ i) : a.testBit i = false :=
  Nat.testBit_lt_two_pow (lt_of_lt_of_le ha (Nat.pow_le_pow_right (n := 2) (by omega) hi))

theorem or_add {a b n : Nat} (ha : a < 2 ^ n) : a ||| (b <<< n) = a + b * 2 ^ n := by
  rw [Nat.lor_comm, ← Nat.shiftLeft_add_eq_or_of_lt ha, Nat.shiftLeft_eq, Nat.add_comm]

theorem mergeBitand_eq {a b o : Nat} (ha : a < 256) (hb : b < 256) :
    mergeBitandVals a b o = a + b * 256 + o * 65536 := by
  rw [mergeBitandVals, or_add (n := 8) ha, or_add (n := 16) (by omega)]; rfl

theorem mergeIncr_eq {a o : Nat} {c d : Bool} (ha : a < 256) (ho : o < 256) :
    mergeIncrVals a c o d = a + o * 256 + c.toNat * 65536 + d.toNat * 131072 := by
  have hc : c.toNat ≤ 1 := Bool.toNat_le c
  rw [mergeIncrVals, Nat.lor_comm _ a, Nat.lor_comm _ (o <<< 8), ← Nat.lor_assoc, or_add (n := 8) ha,
    Nat.lor_comm (d.toNat <<< 17), ← Nat.lor_assoc, or_add (n := 16) (by omega), or_add (n := 17) (by omega)]; rfl

theorem xor_add {a b n : Nat} (ha : a < 2 ^ n) : a ^^^ (b * 2 ^ n) = a + b * 2 ^ n := by
  rw [← or_add ha, ← Nat.shiftLeft_eq]
  refine Nat.eq_of_testBit_eq fun i => ?_
  rw [Nat.testBit_xor, Nat.testBit_or, Nat.testBit_shiftLeft]
  by_cases hi : n ≤ i
  · rw [Nat.testBit_lt_two_pow (ha.trans_le (Nat.pow_le_pow_right (by omega) hi))]; simp
  · rw [decide_eq_false hi]; simp

/-! ### The circuits -/

/-- The circuit has the value `x`. -/
def EvQ (q : List B128) (c : Circuit B128) (x : B128) : Prop := c ≠ [] ∧ evaluate c q = some x

theorem EvQ.add {q : List B128} {a b : Circuit B128} {x y : B128} (ha : EvQ q a x) (hb : EvQ q b y) :
    EvQ q (Arith.add a b) (x + y) :=
  ⟨by rw [Arith.add]; simp, (C21_operators q ha.1 hb.1 x y 0 ha.2 hb.2).1⟩

theorem EvQ.mul {q : List B128} {a b : Circuit B128} {x y : B128} (ha : EvQ q a x) (hb : EvQ q b y) :
    EvQ q (Arith.mul a b) (x * y) :=
  ⟨by rw [Arith.mul]; simp, (C21_operators q ha.1 hb.1 x y 0 ha.2 hb.2).2.2.1⟩

theorem EvQ.const (q : List B128) (x : B128) : EvQ q (constant x) x := ⟨by simp [constant], (C21_leaves q x 0).1⟩

/-- The `i`-th bit, as an element of the field. -/
def fbit (v i : Nat) : B128 := if v.testBit i then 1 else 0

theorem EvQ.var {n v i : Nat} (hi : i < n) : EvQ (indexBits n v) (Arith.var i) (fbit v i) := by
  refine ⟨by simp [Arith.var], ?_⟩
  rw [(C21_leaves (indexBits n v) (0 : B128) i).2, indexBits, List.getElem?_map, List.getElem?_range hi]
  rfl

theorem one_shl (i : Nat) : (1 : Nat) <<< i = 2 ^ i := by rw [Nat.shiftLeft_eq, one_mul]

theorem fbit_mul (v i k : Nat) : fbit v i * basisT 7 k = if v.testBit i then basisT 7 k else 0 := by
  rw [fbit]; split <;> simp

theorem bitand_fold (v : Nat) : ∀ n ≤ 8, EvQ (indexBits 16 v) ((List.range n).foldl (fun c i =>
    Arith.add (Arith.add (Arith.add c (Arith.mul (Arith.var i) (constant (ofVal 7 (1 <<< i)))))
      (Arith.mul (Arith.var (i + 8)) (constant (ofVal 7 (1 <<< (i + 8))))))
      (Arith.mul (Arith.mul (Arith.var i) (Arith.var (i + 8))) (constant (ofVal 7 (1 <<< (i + 16)))))) (constant 0))
    (∑ i ∈ range n, (fbit v i * basisT 7 i + fbit v (i + 8) * basisT 7 (i + 8) +
      fbit v i * fbit v (i + 8) * basisT 7 (i + 16)))
  | 0, _ => EvQ.const _ _
  | n + 1, hn => by
    rw [List.range_succ, List.foldl_append, sum_range_succ]
    have ih := bitand_fold v n (by omega)
    have hk : ∀ k < 128, ofVal 7 (1 <<< k) = basisT 7 k := fun k hk => by rw [one_shl, ofVal_two_pow 7 k hk]
    have h1 := hk n (by omega)
    have h2 := hk (n + 8) (by omega)
    have h3 := hk (n + 16) (by omega)
    rw [← add_assoc, ← add_assoc]
    rw [← h1, ← h2, ← h3]
    exact (((ih.add ((EvQ.var (by omega)).mul (EvQ.const _ _))).add ((EvQ.var (by omega)).mul (EvQ.const _ _))).add
      (((EvQ.var (by omega)).mul (EvQ.var (by omega))).mul (EvQ.const _ _)))

theorem and_ff (n : Nat) : n &&& 0xFF = n % 256 := Nat.and_two_pow_sub_one_eq_mod n 8

theorem bitandEntry_eq (v : Nat) : bitandLookup.indexToEntry v =
    v % 256 + v / 256 % 256 * 256 + (v % 256 &&& v / 256 % 256) * 65536 := by
  show mergeBitandVals ((v &&& 0xFF) % 256) (((v >>> 8) &&& 0xFF) % 256) (((v &&& 0xFF) &&& ((v >>> 8) &&& 0xFF)) % 256) = _
  rw [and_ff, and_ff, Nat.shiftRight_eq_div_pow]
  have h : (v % 256 &&& v / 2 ^ 8 % 256) < 256 := lt_of_le_of_lt Nat.and_le_left (Nat.mod_lt _ (by omega))
  rw [Nat.mod_eq_of_lt h, Nat.mod_mod, Nat.mod_mod, mergeBitand_eq (Nat.mod_lt _ (by omega)) (Nat.mod_lt _ (by omega))]; rfl

theorem testBit_bitand (v i : Nat) : (bitandLookup.indexToEntry v).testBit i =
    if i < 16 then v.testBit i else decide (i < 24) && v.testBit (i - 16) && v.testBit (i - 8) := by
  show (((v &&& 0xFF) % 256) ||| ((((v >>> 8) &&& 0xFF) % 256) <<< 8) |||
    ((((v &&& 0xFF) &&& ((v >>> 8) &&& 0xFF)) % 256) <<< 16)).testBit i = _
  rw [and_ff, and_ff, Nat.testBit_or, Nat.testBit_or, Nat.testBit_shiftLeft, Nat.testBit_shiftLeft]
  have h8 : ∀ n j : Nat, (n % 256).testBit j = (decide (j < 8) && n.testBit j) := fun n j =>
    Nat.testBit_mod_two_pow n 8 j
  simp only [h8, Nat.testBit_and, Nat.testBit_shiftRight]
  by_cases h1 : i < 8
  · simp [h1, show i < 16 by omega, show ¬ 8 ≤ i by omega, show ¬ 16 ≤ i by omega]
  · by_cases h2 : i < 16
    · simp [h1, h2, show 8 ≤ i by omega, show ¬ 16 ≤ i by omega, show i - 8 < 8 by omega,
        show 8 + (i - 8) = i by omega]
    · by_cases h3 : i < 24
      · simp [h1, h2, h3, show 8 ≤ i by omega, show 16 ≤ i by omega, show ¬ i - 8 < 8 by omega, show i - 16 < 8 by omega,
          show 8 + (i - 16) = i - 8 by omega]
      · simp [h1, h2, h3, show ¬ i - 8 < 8 by omega, show ¬ i - 16 < 8 by omega]

theorem bitandEntry_lt (v : Nat) : bitandLookup.indexToEntry v < 2 ^ 24 := by
  rw [bitandEntry_eq]
  have h : (v % 256 &&& v / 256 % 256) < 256 := lt_of_le_of_lt Nat.and_le_left (Nat.mod_lt _ (by omega))
  omega

theorem bitand_circuit (v : Nat) : evaluate bitandLookup.circuit (indexBits 16 v) =
    some (ofVal 7 (bitandLookup.indexToEntry v)) := by
  refine (bitand_fold v 8 le_rfl).2.trans (congrArg some ?_)
  rw [ofVal_sum 7 24 _ (bitandEntry_lt v) (by decide), show (24 : Nat) = 8 + 8 + 8 from rfl, sum_range_add, sum_range_add,
    ← sum_add_distrib, ← sum_add_distrib]
  refine sum_congr rfl fun i hi => ?_
  have hi := mem_range.1 hi
  have e1 := testBit_bitand v i
  have e2 := testBit_bitand v (8 + i)
  have e3 := testBit_bitand v (8 + 8 + i)
  rw [if_pos (by omega)] at e1 e2
  rw [if_neg (by omega), decide_eq_true (by omega : 8 + 8 + i < 24), Bool.true_and,
    show 8 + 8 + i - 16 = i by omega, show 8 + 8 + i - 8 = i + 8 by omega] at e3
  rw [e1, e2, e3, fbit_mul, fbit_mul, Nat.add_comm 8 i, show 8 + 8 + i = i + 16 by omega]
  refine congrArg₂ (· + ·) rfl ?_
  rw [fbit, fbit]
  cases v.testBit i <;> cases v.testBit (i + 8) <;> simp

theorem bitand_index (v : Nat) (hv : v < 2 ^ 16) : bitandLookup.entryToIndex (bitandLookup.indexToEntry v) = v := by
  have h := bitandEntry_lt v
  show (bitandLookup.indexToEntry v % 2 ^ 32) &&& 0xFFFF = v
  rw [show (0xFFFF : Nat) = 2 ^ 16 - 1 from rfl, Nat.and_two_pow_sub_one_eq_mod, bitandEntry_eq] 
  omega

/-! ### Increments -/

theorem carry_fold (v : Nat) : ∀ n ≤ 8, EvQ (indexBits 9 v) (carryInCircuit n)
    (if v.testBit 8 ∧ ∀ j < n, v.testBit j then 1 else 0)
  | 0, _ => by
    have := EvQ.var (n := 9) (v := v) (i := 8) (by omega)
    rw [fbit] at this
    simpa [carryInCircuit] using this
  | n + 1, hn => by
    have ih := carry_fold v n (by omega)
    have := ih.mul (EvQ.var (n := 9) (v := v) (i := n) (by omega))
    rw [carryInCircuit] at this ⊢
    rw [List.range_succ, List.foldl_append]
    refine Eq.mp (congrArg _ ?_) this
    rw [fbit]
    cases hb : v.testBit n
    · rw [if_neg Bool.false_ne_true, mul_zero, if_neg]
      rintro ⟨-, h⟩
      have := h n (by omega)
      rw [hb] at this
      cases this
    · rw [if_pos rfl, mul_one]
      refine if_congr (and_congr_right fun _ => ⟨fun h j hj => ?_, fun h j hj => h j (by omega)⟩) rfl rfl
      rcases Nat.lt_succ_iff_lt_or_eq.1 hj with h' | rfl
      · exact h j h'
      · exact hb

/-- The carry into bit `n`. -/
def carryBit (v n : Nat) : B128 := if v.testBit 8 ∧ ∀ j < n, v.testBit j then 1 else 0

theorem incr_fold (v : Nat) : ∀ n ≤ 8, EvQ (indexBits 9 v) ((List.range n).foldl (fun c i =>
      Arith.add (Arith.add c (Arith.mul (Arith.var i) (constant (ofVal 7 (1 <<< i)))))
        (Arith.mul (Arith.add (Arith.var i) (carryInCircuit i)) (constant (ofVal 7 (1 <<< (i + 8)))))) (constant 0))
    (∑ i ∈ range n, (fbit v i * basisT 7 i + (fbit v i + carryBit v i) * basisT 7 (i + 8)))
  | 0, _ => EvQ.const _ _
  | n + 1, hn => by
    rw [List.range_succ, List.foldl_append, sum_range_succ]
    have ih := incr_fold v n (by omega)
    have hk : ∀ k < 128, ofVal 7 (1 <<< k) = basisT 7 k := fun k hk => by rw [one_shl, ofVal_two_pow 7 k hk]
    have h1 := hk n (by omega)
    have h2 := hk (n + 8) (by omega)
    rw [← add_assoc, ← h1, ← h2]
    exact ((ih.add ((EvQ.var (by omega)).mul (EvQ.const _ _))).add
      (((EvQ.var (by omega)).add (carry_fold v n (by omega))).mul (EvQ.const _ _)))

theorem incrEntry_eq (v : Nat) : incrLookup.indexToEntry v =
    v % 256 + (v % 256 + v / 256 % 2) % 256 * 256 + v / 256 % 2 * 65536 +
      (decide (256 ≤ v % 256 + v / 256 % 2)).toNat * 131072 := by
  have hc : (decide ((v >>> 8) &&& 1 = 1)).toNat = v / 256 % 2 := by
    rw [Nat.shiftRight_eq_div_pow, Nat.and_one_is_mod]
    rcases Nat.mod_two_eq_zero_or_one (v / 2 ^ 8) with h | h
    · rw [h]; exact h.symm
    · rw [h]; exact h.symm
  have h0 : v % (1 <<< 8) % 256 = v % 256 := by rw [one_shl]; exact Nat.mod_mod _ _
  show mergeIncrVals (v % (1 <<< 8) % 256) (decide ((v >>> 8) &&& 1 = 1))
    (overflowingAdd8 (v % (1 <<< 8) % 256) (decide ((v >>> 8) &&& 1 = 1)).toNat).1
    (overflowingAdd8 (v % (1 <<< 8) % 256) (decide ((v >>> 8) &&& 1 = 1)).toNat).2 = _
  rw [overflowingAdd8, mergeIncr_eq (by rw [h0]; exact Nat.mod_lt _ (by omega)) (Nat.mod_lt _ (by omega)), h0, hc]

theorem incrEntry_lt (v : Nat) : incrLookup.indexToEntry v < 2 ^ 18 := by
  rw [incrEntry_eq]
  have := Bool.toNat_le (decide (256 ≤ v % 256 + v / 256 % 2))
  omega

set_option maxRecDepth 100000 in
/-- The bits of all 512 entries. -/
theorem incr_table : ∀ v < 512, (∀ i < 8, (incrLookup.indexToEntry v).testBit i = v.testBit i) ∧
    (∀ i < 8, (incrLookup.indexToEntry v).testBit (8 + i) =
      (v.testBit i ^^ (v.testBit 8 && (List.range i).all fun j => v.testBit j))) ∧
    (incrLookup.indexToEntry v).testBit 16 = v.testBit 8 ∧
    (incrLookup.indexToEntry v).testBit 17 = (v.testBit 8 && (List.range 8).all fun j => v.testBit j) := by
  decide +kernel

theorem carryBit_eq (v n : Nat) : carryBit v n = if (v.testBit 8 && (List.range n).all fun j => v.testBit j) then 1 else 0 := by
  rw [carryBit]
  refine if_congr ?_ rfl rfl
  simp

theorem incr_circuit (v : Nat) (hv : v < 512) : evaluate incrLookup.circuit (indexBits 9 v) =
    some (ofVal 7 (incrLookup.indexToEntry v)) := by
  have hk : ∀ k < 128, ofVal 7 (1 <<< k) = basisT 7 k := fun k hk => by rw [one_shl, ofVal_two_pow 7 k hk]
  have h := ((incr_fold v 8 le_rfl).add ((EvQ.var (n := 9) (v := v) (i := 8) (by omega)).mul
    (EvQ.const _ (ofVal 7 (1 <<< 16))))).add ((carry_fold v 8 le_rfl).mul
      (EvQ.const _ (ofVal 7 (1 <<< 17))))
  refine h.2.trans (congrArg some ?_)
  obtain ⟨t1, t2, t3, t4⟩ := incr_table v hv
  rw [hk 16 (by omega), hk 17 (by omega), ofVal_sum 7 18 _ (incrEntry_lt v) (by decide),
    show range 18 = range (8 + 8 + 1 + 1) from rfl, sum_range_succ _ (8 + 8 + 1), sum_range_succ _ (8 + 8), sum_range_add,
    ← sum_add_distrib]
  refine congrArg₂ (· + ·) (congrArg₂ (· + ·) (sum_congr rfl fun i hi => ?_) ?_) ?_
  · have hi := mem_range.1 hi
    rw [t1 i hi, t2 i hi, fbit_mul, carryBit_eq, fbit, Nat.add_comm 8 i]
    congr 1
    cases v.testBit i <;> cases (v.testBit 8 && (List.range i).all fun j => v.testBit j) <;> simp [T.add_self]
  · rw [t3, fbit_mul]
  · have := carryBit_eq v 8
    rw [carryBit] at this
    rw [this, t4]
    split <;> simp

set_option maxRecDepth 100000 in
/-- All 512 indices. -/
theorem incr_index : ∀ v < 2 ^ 9, incrLookup.entryToIndex (incrLookup.indexToEntry v) = v := by
  decide +kernel

end Verif.M3
