import Verif.M3.ModelGroestl
import Verif.Field.LemmasTables
import Verif.Hash.LemmasGroestlTable
import Mathlib.Tactic.Ring

/-! The gadget for the permutations of Grøstl. -/

set_option linter.dupNamespace false

namespace Verif.M3.Groestl

open Verif.Field Verif.Hash.Groestl

set_option maxRecDepth 100000

/-- The element of the field. -/
abbrev el (x : B8) : T 3 := toT (k := 3) x

theorem el_add (a b : B8) : el (Scalar.add (k := 3) a b) = el a + el b := Scalar.toT_add a b
theorem el_xor (a b : B8) : el (a ^^^ b) = el a + el b := Scalar.toT_add a b
theorem el_mul (a b : B8) : el (mulB8 a b) = el a * el b := Scalar.toT_mul a b
theorem el_zero : el 0 = 0 := Scalar.toT_zero
theorem el_one : el 1 = 1 := Scalar.toT_one
theorem el_inj {a b : B8} (h : el a = el b) : a = b := toT_injective h

theorem fromAes_xor (x y : BitVec 8) : fromAes (x ^^^ y) = Scalar.add (k := 3) (fromAes x) (fromAes y) := Aes.φ8_xor x y
theorem fromAes_zero : fromAes 0 = 0 := by decide
theorem fromAes_one : fromAes 1 = 1 := by decide

theorem fromAes_xtime : ∀ x : BitVec 8, fromAes (xtime x) = mulB8 (fromAes 2) (fromAes x) := by decide +kernel

theorem mul_one_right : ∀ c : BitVec 8, mul c 1 = c := by decide +kernel

theorem el_step (acc a : BitVec 8) (b : Bool) : el (fromAes (xtime acc ^^^ (if b = true then a else 0))) =
    el (fromAes 2) * el (fromAes acc) + (if b = true then 1 else 0) * el (fromAes a) := by
  rw [fromAes_xor, el_add, fromAes_xtime, el_mul]
  cases b
  · rw [if_neg (by decide), if_neg (by decide), fromAes_zero, el_zero, zero_mul]
  · rw [if_pos rfl, if_pos rfl, one_mul]

/-- The conversion is multiplicative. -/
theorem el_mulAes (c a : BitVec 8) : el (fromAes (mul c a)) = el (fromAes c) * el (fromAes a) := by
  have h : ∀ a, el (fromAes (mul c a)) = el (fromAes (mul c 1)) * el (fromAes a) := by
    intro a
    have key : ∀ (l : List Nat) (acc acc1 : BitVec 8), el (fromAes acc) = el (fromAes acc1) * el (fromAes a) →
        el (fromAes (l.foldl (fun acc i => xtime acc ^^^ (if c.getLsbD i = true then a else 0)) acc)) =
        el (fromAes (l.foldl (fun acc i => xtime acc ^^^ (if c.getLsbD i = true then 1 else 0)) acc1)) * el (fromAes a) := by
      intro l
      induction l with
      | nil => intro acc acc1 h; exact h
      | cons i l ih =>
        intro acc acc1 h
        rw [List.foldl_cons, List.foldl_cons]
        apply ih
        rw [el_step, el_step, h, fromAes_one, el_one]
        ring
    exact key _ 0 0 (by rw [fromAes_zero, el_zero, zero_mul])
  rw [h a, mul_one_right]

theorem inv_zero_aes : inv 0 = 0 := by decide

theorem el_inv (a : BitVec 8) : el (fromAes (inv a)) = (el (fromAes a))⁻¹ := by
  by_cases ha : a = 0
  · rw [ha, inv_zero_aes, fromAes_zero, el_zero, inv_zero]
  · have h := el_mulAes a (inv a)
    rw [sbox_inv a ha, fromAes_one, el_one] at h
    exact eq_inv_of_mul_eq_one_right h.symm

theorem affine_ok : ∀ b : BitVec 8, Scalar.add (k := 3) (Aes.transform8 sboxCols (fromAes b)) sboxOffset =
    fromAes (b ^^^ b.rotateLeft 1 ^^^ b.rotateLeft 2 ^^^ b.rotateLeft 3 ^^^ b.rotateLeft 4 ^^^ 0x63) := by decide +kernel

/-! ### The S-box -/

theorem mul_upcast (b : Bool) (x : B8) : mulB8 (upcast b) x = if b = true then x else 0 := by
  apply el_inj
  rw [el_mul]
  cases b
  · rw [upcast, if_neg (by decide), if_neg (by decide), el_zero, zero_mul]
  · rw [upcast, if_pos rfl, if_pos rfl, el_one, one_mul]

theorem pack_bits : ∀ x : BitVec 8, packB8 (fun i => x.getLsbD i.val) = x := by
  intro x
  simp only [packB8, mul_upcast]
  revert x
  decide +kernel

theorem bits_pack (bits : Fin 8 → Bool) : ∀ i, (packB8 bits : BitVec 8).getLsbD i.val = bits i := by
  have h : ∀ b0 b1 b2 b3 b4 b5 b6 b7 : Bool, ∀ i : Fin 8,
      (reduceAdd ((List.finRange 8).map fun i : Fin 8 =>
        if ([b0, b1, b2, b3, b4, b5, b6, b7].getD i.val false) = true then (1 : B8) <<< i.val else 0) : BitVec 8).getLsbD i.val =
        [b0, b1, b2, b3, b4, b5, b6, b7].getD i.val false := by decide +kernel
  intro i
  have hb : ∀ i : Fin 8, [bits 0, bits 1, bits 2, bits 3, bits 4, bits 5, bits 6, bits 7].getD i.val false = bits i := by
    intro i
    match i with | 0 => rfl | 1 => rfl | 2 => rfl | 3 => rfl | 4 => rfl | 5 => rfl | 6 => rfl | 7 => rfl
  have := h (bits 0) (bits 1) (bits 2) (bits 3) (bits 4) (bits 5) (bits 6) (bits 7) i
  simp only [hb] at this
  simp only [packB8, mul_upcast]
  exact this

theorem linear_ok (x : BitVec 8) :
    reduceAdd ((List.finRange 8).map fun i : Fin 8 => mulB8 (upcast (x.getLsbD i.val)) (sboxCols.getD i.val 0)) =
      Aes.transform8 sboxCols x := by
  simp only [mul_upcast]
  revert x
  decide +kernel

/-- The constraints force the inverse. -/
theorem inv_forced {x y : B8} (h1 : Scalar.add (k := 3) (mulB8 x (mulB8 y y)) y = 0)
    (h2 : Scalar.add (k := 3) (mulB8 (mulB8 x x) y) x = 0) : el y = (el x)⁻¹ := by
  have h1 := congrArg el h1
  have h2 := congrArg el h2
  rw [el_add, el_mul, el_mul, el_zero] at h1
  rw [el_add, el_mul, el_mul, el_zero] at h2
  have two : ∀ a b : T 3, a + b = 0 → a = b := fun a b h => by
    have hb : b + b = 0 := CharTwo.add_self_eq_zero b
    calc a = a + (b + b) := by rw [hb, add_zero]
      _ = (a + b) + b := by ring
      _ = b := by rw [h, zero_add]
  have h1 := two _ _ h1
  have h2 := two _ _ h2
  by_cases hx : el x = 0
  · rw [hx, zero_mul] at h1
    rw [← h1, hx, inv_zero]
  · refine eq_inv_of_mul_eq_one_right ?_
    have : el x * (el x * el y) = el x * 1 := by rw [← mul_assoc, h2, mul_one]
    exact mul_left_cancel₀ hx this

theorem sbox_sound {input : Column} {s : SBox} (h : s.Holds input) (j : Fin 8) (a : BitVec 8) (ha : input j = fromAes a) :
    s.output j = fromAes (sbox a) := by
  obtain ⟨h1, h2, h3, h4⟩ := h j
  have hinv : s.inv j = fromAes (inv a) := el_inj (by rw [inv_forced h2 h3, ha, el_inv])
  have hbits : ∀ i : Fin 8, s.invBits i j = (fromAes (inv a) : BitVec 8).getLsbD i.val := by
    intro i
    rw [← hinv, h1, bits_pack]
  rw [h4]
  simp only [hbits]
  rw [linear_ok, affine_ok]
  rfl

theorem sbox_complete (input : Column) : (SBox.populate input).Holds input := by
  intro j
  have hi : el (Scalar.invertOrZero (k := 3) (input j)) = (el (input j))⁻¹ := Scalar.toT_inv _
  refine ⟨?_, ?_, ?_, ?_⟩
  · exact (pack_bits _).symm
  · apply el_inj
    show el (Scalar.add (k := 3) (mulB8 (input j) (mulB8 (Scalar.invertOrZero (k := 3) (input j)) (Scalar.invertOrZero (k := 3) (input j))))
      (Scalar.invertOrZero (k := 3) (input j))) = el 0
    rw [el_add, el_mul, el_mul, hi, el_zero]
    by_cases hx : el (input j) = 0
    · rw [hx, inv_zero]; ring
    · rw [← mul_assoc, mul_inv_cancel₀ hx, one_mul, CharTwo.add_self_eq_zero]
  · apply el_inj
    show el (Scalar.add (k := 3) (mulB8 (mulB8 (input j) (input j)) (Scalar.invertOrZero (k := 3) (input j))) (input j)) = el 0
    rw [el_add, el_mul, el_mul, hi, el_zero]
    by_cases hx : el (input j) = 0
    · rw [hx]; ring
    · rw [mul_assoc, mul_inv_cancel₀ hx, mul_one, CharTwo.add_self_eq_zero]
  · show Scalar.add (k := 3) sboxOffset _ = Scalar.add (k := 3) (reduceAdd ((List.finRange 8).map fun i : Fin 8 =>
      mulB8 (upcast ((Scalar.invertOrZero (k := 3) (input j) : BitVec 8).getLsbD i.val)) (sboxCols.getD i.val 0))) sboxOffset
    rw [linear_ok]
    exact BitVec.xor_comm _ _

/-! ### The rounds -/

theorem byte_rotate (c : Column) (o : Fin 8) (j : Fin 8) :
    ofU64 ((asU64 c).rotateLeft (o.val * 8)) j = circularLeft o.val c j := by
  have hw : ∀ (k : Fin 8) (t : Nat), t < 8 → (asU64 c).getLsbD (8 * k.val + t) = (c k : BitVec 8).getLsbD t := by
    intro k t ht
    unfold asU64
    match k with
    | 0 => simp (disch := omega) only [BitVec.getLsbD_append, Fin.val_zero]; rw [if_pos (by omega)]; congr 1; omega
    | 1 =>
      show BitVec.getLsbD _ (8 * 1 + t) = _
      rw [BitVec.getLsbD_append, if_neg (by omega), BitVec.getLsbD_append, if_pos (by omega)]; congr 1; omega
    | 2 =>
      show BitVec.getLsbD _ (8 * 2 + t) = _
      rw [BitVec.getLsbD_append, if_neg (by omega), BitVec.getLsbD_append, if_neg (by omega), BitVec.getLsbD_append,
        if_pos (by omega)]; congr 1; omega
    | 3 =>
      show BitVec.getLsbD _ (8 * 3 + t) = _
      rw [BitVec.getLsbD_append, if_neg (by omega), BitVec.getLsbD_append, if_neg (by omega), BitVec.getLsbD_append,
        if_neg (by omega), BitVec.getLsbD_append, if_pos (by omega)]; congr 1; omega
    | 4 =>
      show BitVec.getLsbD _ (8 * 4 + t) = _
      rw [BitVec.getLsbD_append, if_neg (by omega), BitVec.getLsbD_append, if_neg (by omega), BitVec.getLsbD_append,
        if_neg (by omega), BitVec.getLsbD_append, if_neg (by omega), BitVec.getLsbD_append, if_pos (by omega)]; congr 1; omega
    | 5 =>
      show BitVec.getLsbD _ (8 * 5 + t) = _
      rw [BitVec.getLsbD_append, if_neg (by omega), BitVec.getLsbD_append, if_neg (by omega), BitVec.getLsbD_append,
        if_neg (by omega), BitVec.getLsbD_append, if_neg (by omega), BitVec.getLsbD_append, if_neg (by omega),
        BitVec.getLsbD_append, if_pos (by omega)]; congr 1; omega
    | 6 =>
      show BitVec.getLsbD _ (8 * 6 + t) = _
      rw [BitVec.getLsbD_append, if_neg (by omega), BitVec.getLsbD_append, if_neg (by omega), BitVec.getLsbD_append,
        if_neg (by omega), BitVec.getLsbD_append, if_neg (by omega), BitVec.getLsbD_append, if_neg (by omega),
        BitVec.getLsbD_append, if_neg (by omega), BitVec.getLsbD_append, if_pos (by omega)]; congr 1; omega
    | 7 =>
      show BitVec.getLsbD _ (8 * 7 + t) = _
      rw [BitVec.getLsbD_append, if_neg (by omega), BitVec.getLsbD_append, if_neg (by omega), BitVec.getLsbD_append,
        if_neg (by omega), BitVec.getLsbD_append, if_neg (by omega), BitVec.getLsbD_append, if_neg (by omega),
        BitVec.getLsbD_append, if_neg (by omega), BitVec.getLsbD_append, if_neg (by omega)]; congr 1; omega
  refine BitVec.eq_of_getLsbD_eq fun t ht => ?_
  have ht : t < 8 := ht
  have ho := o.isLt
  have hj := j.isLt
  show ((((asU64 c).rotateLeft (o.val * 8)) >>> (8 * j.val)).setWidth 8 : BitVec 8).getLsbD t = _
  rw [BitVec.getLsbD_setWidth, decide_eq_true ht, Bool.true_and, BitVec.getLsbD_ushiftRight, BitVec.getLsbD_rotateLeft,
    Nat.mod_eq_of_lt (by omega : o.val * 8 < 64)]
  unfold circularLeft
  by_cases h : j.val < o.val
  · rw [decide_eq_true (by omega), cond_true, show 64 - o.val * 8 + (8 * j.val + t) = 8 * (j.val + 8 - o.val) + t by omega,
      hw ⟨j.val + 8 - o.val, by omega⟩ t ht]
    simp only [Nat.mod_eq_of_lt (by omega : j.val + 8 - o.val < 8)]
  · rw [decide_eq_false (by omega), cond_false, show 8 * j.val + t - o.val * 8 = 8 * (j.val - o.val) + t by omega,
      decide_eq_true (by omega),
      Bool.true_and, hw ⟨j.val - o.val, by omega⟩ t ht]
    simp only [show (j.val + 8 - o.val) % 8 = j.val - o.val by omega]

/-- The shifts of the variants. -/
def shifts : Variant → Fin 8 → Fin 8
  | .P => shiftsP
  | .Q => shiftsQ

theorem offset_P : ∀ i j : Fin 8, (if shiftBytesOffset .P i = 0 then j else ⟨(j.val + 8 - shiftBytesOffset .P i) % 8, Nat.mod_lt _ (by decide)⟩) =
    j + shiftsP i := by decide +kernel
theorem offset_Q : ∀ i j : Fin 8, (if shiftBytesOffset .Q i = 0 then j else ⟨(j.val + 8 - shiftBytesOffset .Q i) % 8, Nat.mod_lt _ (by decide)⟩) =
    j + shiftsQ i := by decide +kernel

theorem offset_lt (pq : Variant) (i : Fin 8) : shiftBytesOffset pq i < 8 := Nat.mod_lt _ (by decide)

theorem shift_ok (pq : Variant) (i j : Fin 8) (c : Column) :
    (if shiftBytesOffset pq i = 0 then c else circularLeft (shiftBytesOffset pq i) c) j = c (j + shifts pq i) := by
  have h : (if shiftBytesOffset pq i = 0 then j else ⟨(j.val + 8 - shiftBytesOffset pq i) % 8, Nat.mod_lt _ (by decide)⟩) =
      j + shifts pq i := by
    cases pq
    · exact offset_P i j
    · exact offset_Q i j
  rw [← h]
  split <;> rfl

theorem roundConsts_ok : ∀ (r : Fin 10) (j : Fin 8), roundConsts r.val j = Scalar.add (k := 3) (fromAes (high j)) (fromAes (BitVec.ofNat 8 r.val)) := by
  decide +kernel

theorem mixScalar_ok : ∀ i j : Fin 8, mixScalar ((8 + i.val - j.val) % 8) = fromAes (circ (i - j)) := by decide +kernel

/-- One round of a variant. -/
def roundOf : Variant → BitVec 8 → State → State
  | .P => roundP
  | .Q => roundQ

def addOf : Variant → BitVec 8 → State → State
  | .P => addP
  | .Q => addQ

theorem roundOf_eq (pq : Variant) (r : BitVec 8) (s : State) : roundOf pq r s = mix (shift (shifts pq) (sub (addOf pq r s))) := by
  cases pq <;> rfl

theorem sboxIn_ok (pq : Variant) {stateIn : Fin 8 → Column} {s : State} (h : ∀ i j, stateIn i j = fromAes (s i j)) (r : Fin 10)
    (i j : Fin 8) : sboxIn pq stateIn (roundConsts r.val) i j = fromAes (addOf pq (BitVec.ofNat 8 r.val) s i j) := by
  cases pq with
  | P =>
    unfold sboxIn addOf addP
    dsimp only
    by_cases hi : i = 0
    · rw [if_pos hi, if_pos hi, roundConsts_ok, fromAes_xor, fromAes_xor, h, hi]
      exact (BitVec.xor_assoc _ _ _).symm
    · rw [if_neg hi, if_neg hi, h]
  | Q =>
    unfold sboxIn addOf addQ
    dsimp only
    by_cases hi : i = 7
    · rw [if_pos hi, if_pos hi, roundConsts_ok, fromAes_xor, fromAes_xor, fromAes_xor, h, hi]
      apply el_inj
      simp only [el_add]
      ring
    · rw [if_neg hi, if_neg hi, h, fromAes_xor]

theorem reduceAdd_map (l : List (Fin 8)) (f : Fin 8 → B8) (g : Fin 8 → BitVec 8) (h : ∀ i, f i = fromAes (g i)) :
    reduceAdd (l.map f) = fromAes (l.foldl (fun acc i => acc ^^^ g i) 0) := by
  have key : ∀ (l : List (Fin 8)) (a : B8) (b : BitVec 8), a = fromAes b →
      (l.map f).foldl (fun a b => Scalar.add (k := 3) a b) a = fromAes (l.foldl (fun acc i => acc ^^^ g i) b) := by
    intro l
    induction l with
    | nil => intro a b h; exact h
    | cons i l ih =>
      intro a b hab
      rw [List.map_cons, List.foldl_cons, List.foldl_cons]
      exact ih _ _ (by rw [fromAes_xor, hab, h])
  cases l with
  | nil => exact fromAes_zero.symm
  | cons i l =>
    rw [List.map_cons, List.foldl_cons]
    exact key l _ _ (by rw [h]; congr 1; exact (BitVec.zero_xor).symm)

theorem round_sound {pq : Variant} {stateIn : Fin 8 → Column} {s : State} (h : ∀ i j, stateIn i j = fromAes (s i j)) (r : Fin 10)
    {w : Round} (hw : w.Holds pq stateIn r.val) (i j : Fin 8) :
    w.stateOut i j = fromAes (roundOf pq (BitVec.ofNat 8 r.val) s i j) := by
  obtain ⟨h1, h2, h3, h4⟩ := hw
  rw [h4, roundOf_eq]
  refine reduceAdd_map _ _ _ fun k => ?_
  rw [h3, shift_ok, mixScalar_ok]
  apply el_inj
  rw [el_mul, el_mulAes, mul_comm]
  congr 1
  have := sbox_sound (h2 k) (j + shifts pq k) _ (by rw [h1]; exact sboxIn_ok pq h r k _)
  rw [this]
  rfl

theorem round_complete (pq : Variant) (stateIn : Fin 8 → Column) (r : Nat) : (Round.populate pq stateIn r).Holds pq stateIn r := by
  refine ⟨rfl, fun i => sbox_complete _, fun i => ?_, fun j k => ?_⟩
  · show (if _ then _ else _) = _
    split
    · rfl
    · funext j
      exact byte_rotate _ ⟨shiftBytesOffset pq i, offset_lt pq i⟩ j
  · have key : ∀ (f : Fin 8 → B8), (List.finRange 8).foldl (fun acc i => Scalar.add (k := 3) acc (f i)) 0 = reduceAdd ((List.finRange 8).map f) := by
      intro f
      rw [show List.finRange 8 = 0 :: [1, 2, 3, 4, 5, 6, 7] from rfl, List.map_cons, reduceAdd, List.foldl_cons, List.foldl_map]
      congr 1
      exact BitVec.zero_xor
    show (List.finRange 8).foldl (fun acc i => Scalar.add (k := 3) acc
      (mulB8 ((Round.populate pq stateIn r).shift i k) (mixScalar ((8 + i.val - j.val) % 8)))) 0 = _
    exact key fun i => mulB8 ((Round.populate pq stateIn r).shift i k) (mixScalar ((8 + i.val - j.val) % 8))

end Verif.M3.Groestl
