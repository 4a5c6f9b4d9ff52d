import Verif.M3.ModelAdd
import Mathlib.Tactic.Ring
import Mathlib.Tactic.LinearCombination

/-! Lemmas on numbers and their bits, and on chains of carries and borrows. -/

set_option linter.dupNamespace false
set_option linter.unusedSectionVars false

namespace Verif.M3

open Finset Verif.Arith

variable {F : Type} [Field F] [DecidableEq F]

/-- A bit in the field. -/
def IsBit (x : F) : Prop := x = 0 ∨ x = 1

@[simp] theorem bit_zero : bit (0 : F) = 0 := if_neg zero_ne_one
@[simp] theorem bit_one : bit (1 : F) = 1 := if_pos rfl
@[simp] theorem ofBit_true : (ofBit true : F) = 1 := rfl
@[simp] theorem ofBit_false : (ofBit false : F) = 0 := rfl

theorem toNat_decide' (p : Prop) [Decidable p] : (decide p).toNat = if p then 1 else 0 := by
  by_cases h : p <;> simp [h]

theorem bit_le (x : F) : bit x ≤ 1 := by unfold bit; split <;> omega

theorem ofBit_isBit (b : Bool) : IsBit (ofBit b : F) := by cases b <;> simp [IsBit]

theorem ofBit_decide {x : F} (h : IsBit x) : (ofBit (decide (x = 1)) : F) = x := by
  rcases h with rfl | rfl <;> simp [ofBit]

theorem bit_ofBit (b : Bool) : bit (ofBit b : F) = b.toNat := by cases b <;> simp

theorem num_append : ∀ l m : List F, num (l ++ m) = num l + 2 ^ l.length * num m
  | [], m => by simp [num]
  | x :: l, m => by
    rw [List.cons_append, num, num, num_append l m, List.length_cons, pow_succ]
    ring

theorem num_succ (f : Nat → F) (n : Nat) :
    num ((List.range (n + 1)).map f) = num ((List.range n).map f) + 2 ^ n * bit (f n) := by
  rw [List.range_succ, List.map_append, num_append]
  simp [num]

theorem num_lt : ∀ l : List F, num l < 2 ^ l.length
  | [] => by simp [num]
  | x :: l => by
    have := num_lt l
    have := bit_le x
    rw [num, List.length_cons, pow_succ]
    omega

theorem num_range_lt (f : Nat → F) (n : Nat) : num ((List.range n).map f) < 2 ^ n := by
  simpa using num_lt ((List.range n).map f)

theorem testBit_num : ∀ (l : List F) (j : Nat), (num l).testBit j = decide (l[j]? = some 1)
  | [], j => by simp [num]
  | x :: l, 0 => by
    rw [num, Nat.testBit_zero]
    unfold bit
    by_cases h : x = 1 <;> simp [h] <;> omega
  | x :: l, j + 1 => by
    rw [num, Nat.testBit_succ]
    have : (bit x + 2 * num l) / 2 = num l := by have := bit_le x; omega
    rw [this, testBit_num l j]
    simp

/-- The bits of a number are the bits it was made of. -/
theorem ofBit_testBit {f : Nat → F} {n j : Nat} (hf : ∀ i < n, IsBit (f i)) (hj : j < n) :
    (ofBit ((num ((List.range n).map f)).testBit j) : F) = f j := by
  rw [testBit_num]
  simp only [List.getElem?_map, List.getElem?_range hj, Option.map_some, Option.some_inj]
  exact ofBit_decide (hf j hj)

theorem testBit_num_ge {f : Nat → F} {n j : Nat} (hj : n ≤ j) : (num ((List.range n).map f)).testBit j = false :=
  Nat.testBit_lt_two_pow ((num_range_lt f n).trans_le (Nat.pow_le_pow_right (by omega) hj))

/-- A number with the given bits. -/
theorem eq_num {f : Nat → F} {n v : Nat} (hv : v < 2 ^ n) (hf : ∀ i < n, IsBit (f i))
    (h : ∀ j < n, (ofBit (v.testBit j) : F) = f j) : v = num ((List.range n).map f) := by
  refine Nat.eq_of_testBit_eq fun j => ?_
  by_cases hj : j < n
  · have h1 := (h j hj).trans (ofBit_testBit hf hj).symm
    cases h2 : v.testBit j <;> cases h3 : (num ((List.range n).map f)).testBit j <;> simp_all
  · rw [testBit_num_ge (by omega)]
    exact Nat.testBit_lt_two_pow (hv.trans_le (Nat.pow_le_pow_right (by omega) (by omega)))

/-- Only the first bit is set: the number is that bit. -/
theorem num_first {f : Nat → F} {n : Nat} (hn : 0 < n) (h : ∀ j, 0 < j → j < n → f j = 0) :
    num ((List.range n).map f) = bit (f 0) := by
  induction n with
  | zero => omega
  | succ n ih =>
    rw [num_succ]
    rcases Nat.eq_zero_or_pos n with rfl | hn'
    · simp [num]
    · rw [ih hn' fun j h1 h2 => h j h1 (by omega), h n hn' (by omega)]
      simp

section CharTwo

variable [CharP F 2]

theorem two_zero : (2 : F) = 0 := CharTwo.two_eq_zero

theorem isBit_add {x y : F} (hx : IsBit x) (hy : IsBit y) : IsBit (x + y) := by
  rcases hx with rfl | rfl <;> rcases hy with rfl | rfl <;> simp [IsBit, CharTwo.add_self_eq_zero]

theorem isBit_mul {x y : F} (hx : IsBit x) (hy : IsBit y) : IsBit (x * y) := by
  rcases hx with rfl | rfl <;> rcases hy with rfl | rfl <;> simp [IsBit]

theorem isBit_zero : IsBit (0 : F) := Or.inl rfl
theorem isBit_one : IsBit (1 : F) := Or.inr rfl

theorem ofBit_xor (a b : Bool) : (ofBit (a ^^ b) : F) = ofBit a + ofBit b := by
  cases a <;> cases b <;> simp [CharTwo.add_self_eq_zero]

/-- One bit of an addition. -/
theorem add_bit {x y c : F} (hx : IsBit x) (hy : IsBit y) (hc : IsBit c) :
    bit (x + y + c) + 2 * bit ((x + c) * (y + c) + c) = bit x + bit y + bit c ∧ IsBit ((x + c) * (y + c) + c) := by
  refine ⟨?_, isBit_add (isBit_mul (isBit_add hx hc) (isBit_add hy hc)) hc⟩
  rcases hx with rfl | rfl <;> rcases hy with rfl | rfl <;> rcases hc with rfl | rfl <;>
    simp [CharTwo.add_self_eq_zero]

/-- One bit of a subtraction. -/
theorem sub_bit {x y b : F} (hx : IsBit x) (hy : IsBit y) (hb : IsBit b) :
    bit x + 2 * bit ((b + (x + 1)) * (b + y) + b) = bit y + bit (x + y + b) + bit b ∧
      IsBit ((b + (x + 1)) * (b + y) + b) := by
  refine ⟨?_, isBit_add (isBit_mul (isBit_add hb (isBit_add hx isBit_one)) (isBit_add hb hy)) hb⟩
  rcases hx with rfl | rfl <;> rcases hy with rfl | rfl <;> rcases hb with rfl | rfl <;>
    simp [CharTwo.add_self_eq_zero]

/-- Chains of carries add. -/
theorem add_chain {x y c : Nat → F} {n : Nat} (hx : ∀ j < n, IsBit (x j)) (hy : ∀ j < n, IsBit (y j)) (h0 : IsBit (c 0))
    (hc : ∀ j < n, c (j + 1) = (x j + c j) * (y j + c j) + c j) :
    (∀ j ≤ n, IsBit (c j)) ∧
    num ((List.range n).map fun j => x j + y j + c j) + 2 ^ n * bit (c n) =
      num ((List.range n).map x) + num ((List.range n).map y) + bit (c 0) := by
  induction n with
  | zero => exact ⟨fun j hj => by rwa [Nat.le_zero.1 hj], by simp [num]⟩
  | succ n ih =>
    obtain ⟨h1, h2⟩ := ih (fun j hj => hx j (by omega)) (fun j hj => hy j (by omega)) fun j hj => hc j (by omega)
    obtain ⟨h3, h4⟩ := add_bit (hx n (by omega)) (hy n (by omega)) (h1 n le_rfl)
    refine ⟨fun j hj => ?_, ?_⟩
    · rcases Nat.lt_or_ge j (n + 1) with h | h
      · exact h1 j (by omega)
      · have : j = n + 1 := by omega
        rw [this, hc n (by omega)]; exact h4
    · rw [num_succ, num_succ, num_succ, hc n (by omega), pow_succ]
      linear_combination h2 + 2 ^ n * h3

/-- Chains of borrows subtract. -/
theorem sub_chain {x y b : Nat → F} {n : Nat} (hx : ∀ j < n, IsBit (x j)) (hy : ∀ j < n, IsBit (y j)) (h0 : IsBit (b 0))
    (hb : ∀ j < n, b (j + 1) = (b j + (x j + 1)) * (b j + y j) + b j) :
    (∀ j ≤ n, IsBit (b j)) ∧
    num ((List.range n).map x) + 2 ^ n * bit (b n) =
      num ((List.range n).map y) + num ((List.range n).map fun j => x j + y j + b j) + bit (b 0) := by
  induction n with
  | zero => exact ⟨fun j hj => by rwa [Nat.le_zero.1 hj], by simp [num]⟩
  | succ n ih =>
    obtain ⟨h1, h2⟩ := ih (fun j hj => hx j (by omega)) (fun j hj => hy j (by omega)) fun j hj => hb j (by omega)
    obtain ⟨h3, h4⟩ := sub_bit (hx n (by omega)) (hy n (by omega)) (h1 n le_rfl)
    refine ⟨fun j hj => ?_, ?_⟩
    · rcases Nat.lt_or_ge j (n + 1) with h | h
      · exact h1 j (by omega)
      · have : j = n + 1 := by omega
        rw [this, hb n (by omega)]; exact h4
    · rw [num_succ, num_succ, num_succ, hb n (by omega), pow_succ]
      linear_combination h2 + 2 ^ n * h3

/-- The carries of an addition. -/
def addChain (x y : Nat → F) (c : F) : Nat → F
  | 0 => c
  | j + 1 => (x j + addChain x y c j) * (y j + addChain x y c j) + addChain x y c j

/-- The borrows of a subtraction. -/
def subChain (x y : Nat → F) (b : F) : Nat → F
  | 0 => b
  | j + 1 => (subChain x y b j + (x j + 1)) * (subChain x y b j + y j) + subChain x y b j

/-- From a sum (or difference) whose bits are `x + y + c`, the words of the carries in and out. -/
theorem word_bits {x y c : Nat → F} {X Y Z : Nat} {carry : Bool} (hX : X = num ((List.range 32).map x))
    (hY : Y = num ((List.range 32).map y)) (hZ : Z = num ((List.range 32).map fun j => x j + y j + c j))
    (hx : ∀ j < 32, IsBit (x j)) (hy : ∀ j < 32, IsBit (y j)) (hc : ∀ j ≤ 32, IsBit (c j)) (hcarry : ofBit carry = c 32)
    {j : Nat} (hj : j < 32) :
    ofBit (Z.testBit j) = x j + y j + c j ∧ ofBit ((X ^^^ Y ^^^ Z).testBit j) = c j ∧
    ofBit (((carry.toNat <<< 31) ||| ((X ^^^ Y ^^^ Z) >>> 1)).testBit j) = c (j + 1) ∧
    ofBit (((((carry.toNat <<< 31) ||| ((X ^^^ Y ^^^ Z) >>> 1)) <<< 1) % 2 ^ 32).testBit j) = if j = 0 then 0 else c j := by
  have hz : ∀ j < 32, (ofBit (Z.testBit j) : F) = x j + y j + c j := fun j hj => by
    rw [hZ]
    exact ofBit_testBit (f := fun j => x j + y j + c j) (fun i hi => isBit_add (isBit_add (hx i hi) (hy i hi)) (hc i hi.le)) hj
  have hin : ∀ j < 32, (ofBit ((X ^^^ Y ^^^ Z).testBit j) : F) = c j := fun j hj => by
    rw [Nat.testBit_xor, Nat.testBit_xor, ofBit_xor, ofBit_xor, hz j hj, hX, hY, ofBit_testBit hx hj, ofBit_testBit hy hj]
    linear_combination (x j + y j) * two_zero (F := F)
  have hbig : (X ^^^ Y ^^^ Z).testBit 32 = false := by
    rw [Nat.testBit_xor, Nat.testBit_xor, hX, hY, hZ, testBit_num_ge le_rfl, testBit_num_ge le_rfl, testBit_num_ge le_rfl]
    rfl
  have hout : ∀ j < 32, (ofBit (((carry.toNat <<< 31) ||| ((X ^^^ Y ^^^ Z) >>> 1)).testBit j) : F) = c (j + 1) := by
    intro j hj
    rw [Nat.testBit_or, Nat.testBit_shiftLeft, Nat.testBit_shiftRight]
    rcases Nat.lt_or_ge j 31 with h | h
    · rw [show decide (31 ≤ j) = false from decide_eq_false (by omega), Bool.false_and, Bool.false_or, Nat.add_comm 1 j]
      exact hin (j + 1) (by omega)
    · have : j = 31 := by omega
      subst this
      rw [show 1 + 31 = 32 from rfl, hbig, Bool.or_false, ← hcarry]
      cases carry <;> simp
  refine ⟨hz j hj, hin j hj, hout j hj, ?_⟩
  rw [Nat.testBit_mod_two_pow, Nat.testBit_shiftLeft]
  rcases Nat.eq_zero_or_pos j with rfl | h
  · simp
  · rw [if_neg (by omega), show decide (j < 32) = true from decide_eq_true hj,
      show decide (1 ≤ j) = true from decide_eq_true h, Bool.true_and, Bool.true_and, hout (j - 1) (by omega),
      Nat.sub_add_cancel h]

/-- The words that `addWord` computes are those of the chain of carries. -/
theorem addWord_bits {x y : Nat → F} {c : F} (hx : ∀ j < 32, IsBit (x j)) (hy : ∀ j < 32, IsBit (y j)) (hc : IsBit c)
    {carryIn : Option Nat} (hin : carryIn.elim 0 id = bit c) :
    (∀ j ≤ 32, IsBit (addChain x y c j)) ∧
    (∀ j < 32,
      ofBit ((addWord (num ((List.range 32).map x)) (num ((List.range 32).map y)) carryIn).1.testBit j) =
        x j + y j + addChain x y c j ∧
      ofBit ((addWord (num ((List.range 32).map x)) (num ((List.range 32).map y)) carryIn).2.1.testBit j) =
        addChain x y c j ∧
      ofBit ((addWord (num ((List.range 32).map x)) (num ((List.range 32).map y)) carryIn).2.2.1.testBit j) =
        addChain x y c (j + 1) ∧
      ofBit ((((addWord (num ((List.range 32).map x)) (num ((List.range 32).map y)) carryIn).2.2.1 <<< 1) % 2 ^ 32).testBit j) =
        if j = 0 then 0 else addChain x y c j) ∧
    ofBit (addWord (num ((List.range 32).map x)) (num ((List.range 32).map y)) carryIn).2.2.2 = addChain x y c 32 := by
  obtain ⟨h1, h2⟩ := add_chain (c := addChain x y c) (n := 32) hx hy hc fun j _ => rfl
  set X := num ((List.range 32).map x) with hX
  set Y := num ((List.range 32).map y) with hY
  have hXlt : X < 2 ^ 32 := num_range_lt x 32
  have hYlt : Y < 2 ^ 32 := num_range_lt y 32
  have hZlt := num_range_lt (fun j => x j + y j + addChain x y c j) 32
  obtain ⟨z, carry, hw, hz, hcarry⟩ : ∃ (z : Nat) (carry : Bool), addWord X Y carryIn =
      (z, X ^^^ Y ^^^ z, (carry.toNat <<< 31) ||| ((X ^^^ Y ^^^ z) >>> 1), carry) ∧
      z = num ((List.range 32).map fun j => x j + y j + addChain x y c j) ∧ carry.toNat = bit (addChain x y c 32) := by
    have hb := bit_le (addChain x y c 32)
    have hb0 := bit_le c
    have hc0 : addChain x y c 0 = c := rfl
    rw [hc0] at h2
    cases carryIn with
    | none =>
      refine ⟨(X + Y) % 2 ^ 32, decide (2 ^ 32 ≤ X + Y), rfl, ?_, ?_⟩
      · have hin : 0 = bit c := hin
        omega
      · have hin : 0 = bit c := hin
        rw [toNat_decide']; split <;> omega
    | some v =>
      have hin : v = bit c := hin
      subst hin
      refine ⟨((X + Y) % 2 ^ 32 + bit c) % 2 ^ 32,
        decide (2 ^ 32 ≤ X + Y) || decide (2 ^ 32 ≤ (X + Y) % 2 ^ 32 + bit c), rfl, ?_, ?_⟩
      · omega
      · rw [← Bool.decide_or, toNat_decide']
        split <;> omega
  have hcarry' : (ofBit carry : F) = addChain x y c 32 := by
    rcases h1 32 le_rfl with h | h <;> rw [h] at hcarry ⊢ <;> cases carry <;> simp at hcarry ⊢
  rw [hw]
  exact ⟨h1, fun j hj => word_bits hX hY hz hx hy h1 hcarry' hj, hcarry'⟩

/-- The words that `subWord` computes are those of the chain of borrows. -/
theorem subWord_bits {x y : Nat → F} {b : F} (hx : ∀ j < 32, IsBit (x j)) (hy : ∀ j < 32, IsBit (y j)) (hb : IsBit b)
    {borrowIn : Option Nat} (hin : borrowIn.elim 0 id = bit b) :
    (∀ j ≤ 32, IsBit (subChain x y b j)) ∧
    (∀ j < 32,
      ofBit ((subWord (num ((List.range 32).map x)) (num ((List.range 32).map y)) borrowIn).1.testBit j) =
        x j + y j + subChain x y b j ∧
      ofBit ((subWord (num ((List.range 32).map x)) (num ((List.range 32).map y)) borrowIn).2.1.testBit j) =
        subChain x y b j ∧
      ofBit ((subWord (num ((List.range 32).map x)) (num ((List.range 32).map y)) borrowIn).2.2.1.testBit j) =
        subChain x y b (j + 1) ∧
      ofBit ((((subWord (num ((List.range 32).map x)) (num ((List.range 32).map y)) borrowIn).2.2.1 <<< 1) % 2 ^ 32).testBit j) =
        if j = 0 then 0 else subChain x y b j) ∧
    ofBit (subWord (num ((List.range 32).map x)) (num ((List.range 32).map y)) borrowIn).2.2.2 = subChain x y b 32 := by
  obtain ⟨h1, h2⟩ := sub_chain (b := subChain x y b) (n := 32) hx hy hb fun j _ => rfl
  set X := num ((List.range 32).map x) with hX
  set Y := num ((List.range 32).map y) with hY
  have hXlt : X < 2 ^ 32 := num_range_lt x 32
  have hYlt : Y < 2 ^ 32 := num_range_lt y 32
  have hZlt := num_range_lt (fun j => x j + y j + subChain x y b j) 32
  obtain ⟨z, carry, hw, hz, hcarry⟩ : ∃ (z : Nat) (carry : Bool), subWord X Y borrowIn =
      (z, X ^^^ Y ^^^ z, (carry.toNat <<< 31) ||| ((X ^^^ Y ^^^ z) >>> 1), carry) ∧
      z = num ((List.range 32).map fun j => x j + y j + subChain x y b j) ∧ carry.toNat = bit (subChain x y b 32) := by
    have hb1 := bit_le (subChain x y b 32)
    have hb0 := bit_le b
    have hc0 : subChain x y b 0 = b := rfl
    rw [hc0] at h2
    cases borrowIn with
    | none =>
      refine ⟨(X + 2 ^ 32 - Y) % 2 ^ 32, decide (X < Y), rfl, ?_, ?_⟩
      · have hin : 0 = bit b := hin
        omega
      · have hin : 0 = bit b := hin
        rw [toNat_decide']; split <;> omega
    | some v =>
      have hin : v = bit b := hin
      subst hin
      refine ⟨((X + 2 ^ 32 - Y) % 2 ^ 32 + 2 ^ 32 - bit b) % 2 ^ 32,
        decide (X < Y) || decide ((X + 2 ^ 32 - Y) % 2 ^ 32 < bit b), rfl, ?_, ?_⟩
      · omega
      · rw [← Bool.decide_or, toNat_decide']
        split <;> omega
  have hcarry' : (ofBit carry : F) = subChain x y b 32 := by
    rcases h1 32 le_rfl with h | h <;> rw [h] at hcarry ⊢ <;> cases carry <;> simp at hcarry ⊢
  rw [hw]
  exact ⟨h1, fun j hj => word_bits hX hY hz hx hy h1 hcarry' hj, hcarry'⟩

end CharTwo

end Verif.M3
