import Verif.Field.ModelScalar
import Verif.Field.LemmasPacked
import Mathlib.Algebra.BigOperators.Intervals
import Mathlib.Algebra.Ring.Hom.Defs
import Batteries.Data.BitVec.Lemmas

open Finset

namespace Verif.Field

namespace T

/-- Inclusion of level `k` in level `k + d`: low half recursively, other halves zero. -/
def incl {k : Nat} : (d : Nat) → T k → T (k + d)
  | 0, a => a
  | d + 1, a => (incl d a, (0 : T (k + d)))

/-- `i`-th coordinate over level `k`. -/
def coord {k : Nat} : (d : Nat) → T (k + d) → Nat → T k
  | 0, a, _ => a
  | d + 1, (a0, a1), i => if i < 2 ^ d then coord d a0 i else coord d a1 (i - 2 ^ d)

/-- `i`-th basis element over level `k`. -/
def basis {k : Nat} : (d : Nat) → Nat → T (k + d)
  | 0, _ => (1 : T k)
  | d + 1, i => if i < 2 ^ d then (basis d i, (0 : T (k + d))) else ((0 : T (k + d)), basis d (i - 2 ^ d))

theorem incl_zero {k : Nat} : (d : Nat) → incl d (0 : T k) = 0
  | 0 => rfl
  | d + 1 => Prod.ext (incl_zero d) rfl

theorem incl_one {k : Nat} : (d : Nat) → incl d (1 : T k) = 1
  | 0 => rfl
  | d + 1 => Prod.ext (incl_one d) rfl

theorem incl_add {k : Nat} : (d : Nat) → (a b : T k) → incl d (a + b) = incl d a + incl d b
  | 0, _, _ => rfl
  | d + 1, a, b => Prod.ext (incl_add d a b) (zero_add (0 : T (k + d))).symm

theorem incl_mul_mk {k d : Nat} (c : T k) (x0 x1 : T (k + d)) :
    incl (d + 1) c * (show T (k + (d + 1)) from (x0, x1)) = (incl d c * x0, incl d c * x1) := by
  refine (mk_mul_mk (incl d c) (0 : T (k + d)) x0 x1).trans ?_
  refine Prod.ext ?_ ?_
  · show incl d c * x0 + 0 * x1 = _
    ring
  · show incl d c * x1 + 0 * x0 + alpha (k + d) * (0 * x1) = _
    ring

theorem incl_mul {k : Nat} : (d : Nat) → (a b : T k) → incl d (a * b) = incl d a * incl d b
  | 0, _, _ => rfl
  | d + 1, a, b => by
    refine Eq.trans ?_ (incl_mul_mk a (incl d b) 0).symm
    exact Prod.ext (incl_mul d a b) (mul_zero _).symm

theorem incl_injective {k : Nat} : (d : Nat) → Function.Injective (incl (k := k) d)
  | 0, _, _, h => h
  | d + 1, _, _, h => incl_injective d (congrArg Prod.fst h)

/-- The inclusion as a ring homomorphism. -/
def inclHom (k d : Nat) : T k →+* T (k + d) where
  toFun := incl d
  map_zero' := incl_zero d
  map_one' := incl_one d
  map_add' := incl_add d
  map_mul' := incl_mul d

theorem incl_inv {k : Nat} (d : Nat) (a : T k) : incl d a⁻¹ = (incl d a)⁻¹ :=
  map_inv₀ (inclHom k d) a

theorem coord_incl_mul {k : Nat} : (d : Nat) → (c : T k) → (x : T (k + d)) → (i : Nat) →
    coord d (incl d c * x) i = c * coord d x i
  | 0, _, _, _ => rfl
  | d + 1, c, (x0, x1), i => by
    rw [incl_mul_mk]
    show (if i < 2 ^ d then coord d (incl d c * x0) i else coord d (incl d c * x1) (i - 2 ^ d)) =
      c * (if i < 2 ^ d then coord d x0 i else coord d x1 (i - 2 ^ d))
    split <;> exact coord_incl_mul d _ _ _

theorem coord_add {k : Nat} : (d : Nat) → (x y : T (k + d)) → (i : Nat) →
    coord d (x + y) i = coord d x i + coord d y i
  | 0, _, _, _ => rfl
  | d + 1, (x0, x1), (y0, y1), i => by
    show (if i < 2 ^ d then coord d (x0 + y0) i else coord d (x1 + y1) (i - 2 ^ d)) =
      (if i < 2 ^ d then coord d x0 i else coord d x1 (i - 2 ^ d)) +
      (if i < 2 ^ d then coord d y0 i else coord d y1 (i - 2 ^ d))
    split <;> exact coord_add d _ _ _

theorem coord_ext {k : Nat} : (d : Nat) → {x y : T (k + d)} →
    (∀ i, i < 2 ^ d → coord d x i = coord d y i) → x = y
  | 0, _, _, h => h 0 (by simp)
  | d + 1, (x0, x1), (y0, y1), h => by
    have hp : 2 ^ (d + 1) = 2 ^ d + 2 ^ d := by rw [Nat.pow_succ]; ring
    refine Prod.ext (coord_ext d fun i hi => ?_) (coord_ext d fun i hi => ?_)
    · have := h i (by omega)
      change (if i < 2 ^ d then coord d x0 i else _) = (if i < 2 ^ d then coord d y0 i else _) at this
      rwa [if_pos hi, if_pos hi] at this
    · have := h (2 ^ d + i) (by omega)
      change (if 2 ^ d + i < 2 ^ d then _ else coord d x1 (2 ^ d + i - 2 ^ d)) =
        (if 2 ^ d + i < 2 ^ d then _ else coord d y1 (2 ^ d + i - 2 ^ d)) at this
      rwa [if_neg (by omega), if_neg (by omega), Nat.add_sub_cancel_left] at this

theorem mk_zero_sum {n : Nat} (s : Finset Nat) (f : Nat → T n) :
    ((∑ i ∈ s, f i, (0 : T n)) : T n × T n) = (∑ i ∈ s, (show T (n+1) from (f i, 0)) : T (n+1)) := by
  classical
  induction s using Finset.induction_on with
  | empty => rfl
  | insert a s ha ih =>
    rw [sum_insert ha, sum_insert ha, ← ih]
    exact Prod.ext rfl (add_zero (0 : T n)).symm

theorem zero_mk_sum {n : Nat} (s : Finset Nat) (f : Nat → T n) :
    (((0 : T n), ∑ i ∈ s, f i) : T n × T n) = (∑ i ∈ s, (show T (n+1) from (0, f i)) : T (n+1)) := by
  classical
  induction s using Finset.induction_on with
  | empty => rfl
  | insert a s ha ih =>
    rw [sum_insert ha, sum_insert ha, ← ih]
    exact Prod.ext (add_zero (0 : T n)).symm rfl

/-- Every element is the combination of its coordinates with the basis. -/
theorem eq_sum_basis {k : Nat} : (d : Nat) → (x : T (k + d)) →
    x = ∑ i ∈ range (2 ^ d), incl d (coord d x i) * basis d i
  | 0, x => by
    show x = ∑ i ∈ range 1, (x : T k) * 1
    rw [sum_range_one, mul_one]
  | d + 1, (x0, x1) => by
    have hp : 2 ^ (d + 1) = 2 ^ d + 2 ^ d := by rw [Nat.pow_succ]; ring
    rw [hp, sum_range_add]
    have h0 : ∑ i ∈ range (2 ^ d), incl (d + 1) (coord (d + 1) (x0, x1) i) * basis (d + 1) i =
        ((x0, 0) : T (k + d) × T (k + d)) := by
      conv_rhs => rw [eq_sum_basis d x0]
      rw [mk_zero_sum]
      refine sum_congr rfl fun i hi => ?_
      have hi := mem_range.mp hi
      have e1 : coord (d + 1) (x0, x1) i = coord d x0 i := if_pos hi
      have e2 : (basis (d + 1) i : T (k + (d + 1))) = (basis d i, 0) := if_pos hi
      exact (congrArg₂ (· * ·) (congrArg (incl (d + 1)) e1) e2).trans
        ((incl_mul_mk _ _ _).trans (Prod.ext rfl (mul_zero _)))
    have h1 : ∑ i ∈ range (2 ^ d), incl (d + 1) (coord (d + 1) (x0, x1) (2 ^ d + i)) *
        basis (d + 1) (2 ^ d + i) = ((0, x1) : T (k + d) × T (k + d)) := by
      conv_rhs => rw [eq_sum_basis d x1]
      rw [zero_mk_sum]
      refine sum_congr rfl fun i hi => ?_
      have hn : ¬ (2 ^ d + i < 2 ^ d) := by omega
      have e1 : coord (d + 1) (x0, x1) (2 ^ d + i) = coord d x1 i := by
        refine (if_neg hn).trans ?_
        rw [Nat.add_sub_cancel_left]
      have e2 : (basis (d + 1) (2 ^ d + i) : T (k + (d + 1))) = (0, basis d i) := by
        refine (if_neg hn).trans ?_
        rw [Nat.add_sub_cancel_left]
      exact (congrArg₂ (· * ·) (congrArg (incl (d + 1)) e1) e2).trans
        ((incl_mul_mk _ _ _).trans (Prod.ext (mul_zero _) rfl))
    refine Eq.trans ?_ (congrArg₂ (fun a b : T (k + (d + 1)) => a + b) h0 h1).symm
    exact Prod.ext (add_zero x0).symm (zero_add x1).symm

theorem coord_sum_basis {k : Nat} (d : Nat) (f : Nat → T k) (j : Nat) (hj : j < 2 ^ d) :
    coord d (∑ i ∈ range (2 ^ d), incl d (f i) * basis d i) j = f j := by
  -- build the element with coordinates `f` and use `eq_sum_basis`
  have key : ∀ d (f : Nat → T k), ∃ x : T (k + d), ∀ i, i < 2 ^ d → coord d x i = f i := by
    intro d
    induction d with
    | zero =>
      intro f
      exact ⟨f 0, fun i hi => by
        have : i = 0 := by simpa using hi
        subst this; rfl⟩
    | succ d ih =>
      intro f
      obtain ⟨x0, h0⟩ := ih f
      obtain ⟨x1, h1⟩ := ih (fun i => f (2 ^ d + i))
      refine ⟨(x0, x1), fun i hi => ?_⟩
      have hp : 2 ^ (d + 1) = 2 ^ d + 2 ^ d := by rw [Nat.pow_succ]; ring
      show (if i < 2 ^ d then coord d x0 i else coord d x1 (i - 2 ^ d)) = f i
      split
      · exact h0 i ‹_›
      · rw [h1 _ (by omega)]; congr 1; omega
  obtain ⟨x, hx⟩ := key d f
  have : ∑ i ∈ range (2 ^ d), incl d (f i) * basis d i = x := by
    conv_rhs => rw [eq_sum_basis d x]
    exact sum_congr rfl fun i hi => by rw [hx i (mem_range.mp hi)]
  rw [this, hx j hj]

theorem bit_coord {k : Nat} : (d : Nat) → (x : T (k + d)) → (i : Nat) → i < 2 ^ d → (j : Nat) →
    j < 2 ^ k → bit k (coord d x i) j = bit (k + d) x (i * 2 ^ k + j)
  | 0, x, i, hi, j, hj => by
    have : i = 0 := by simpa using hi
    subst this
    simp only [Nat.zero_mul, Nat.zero_add]; rfl
  | d + 1, (x0, x1), i, hi, j, hj => by
    have hp : 2 ^ (d + 1) = 2 ^ d + 2 ^ d := by rw [Nat.pow_succ]; ring
    have hkd : 2 ^ (k + d) = 2 ^ d * 2 ^ k := by rw [Nat.pow_add]; ring
    show bit k (if i < 2 ^ d then coord d x0 i else coord d x1 (i - 2 ^ d)) j =
      if i * 2 ^ k + j < 2 ^ (k + d) then bit (k + d) x0 (i * 2 ^ k + j)
      else bit (k + d) x1 (i * 2 ^ k + j - 2 ^ (k + d))
    by_cases h : i < 2 ^ d
    · have : (i + 1) * 2 ^ k ≤ 2 ^ d * 2 ^ k := Nat.mul_le_mul_right _ h
      rw [Nat.add_mul] at this
      rw [if_pos h, if_pos (by omega), bit_coord d x0 i h j hj]
    · obtain ⟨m, rfl⟩ : ∃ m, i = 2 ^ d + m := ⟨i - 2 ^ d, by omega⟩
      have : (2 ^ d + m) * 2 ^ k + j = 2 ^ (k + d) + (m * 2 ^ k + j) := by rw [hkd]; ring
      rw [if_neg h, if_neg (by omega), this, Nat.add_sub_cancel_left, Nat.add_sub_cancel_left,
        bit_coord d x1 m (by omega) j hj]

theorem bit_incl {k : Nat} : (d : Nat) → (a : T k) → (j : Nat) → bit (k + d) (incl d a) j = bit k a j
  | 0, _, _ => rfl
  | d + 1, a, j => by
    show (if j < 2 ^ (k + d) then bit (k + d) (incl d a) j else bit (k + d) (0 : T (k+d)) (j - 2 ^ (k + d))) = _
    split
    · exact bit_incl d a j
    · rw [bit_zero, bit_ge]
      have : 2 ^ k ≤ 2 ^ (k + d) := Nat.pow_le_pow_right (by omega) (by omega)
      omega

theorem bit_basis {k : Nat} : (d : Nat) → (i : Nat) → i < 2 ^ d → (j : Nat) →
    bit (k + d) (basis d i) j = decide (j = i * 2 ^ k)
  | 0, i, hi, j => by
    have : i = 0 := by simpa using hi
    subst this
    rw [Nat.zero_mul]
    exact bit_one k j
  | d + 1, i, hi, j => by
    have hp : 2 ^ (d + 1) = 2 ^ d + 2 ^ d := by rw [Nat.pow_succ]; ring
    have hkd : 2 ^ (k + d) = 2 ^ d * 2 ^ k := by rw [Nat.pow_add]; ring
    have hk := Nat.two_pow_pos k
    by_cases h : i < 2 ^ d
    · have e : (basis (d + 1) i : T (k + (d + 1))) = (basis d i, (0 : T (k + d))) := if_pos h
      rw [e]
      show (if j < 2 ^ (k + d) then bit (k + d) (basis d i) j else bit (k + d) (0 : T (k+d)) (j - 2 ^ (k + d))) = _
      have : (i + 1) * 2 ^ k ≤ 2 ^ d * 2 ^ k := Nat.mul_le_mul_right _ h
      rw [Nat.add_mul] at this
      rw [bit_basis d i h, bit_zero]
      split
      · rfl
      · symm; simp; omega
    · have e : (basis (d + 1) i : T (k + (d + 1))) = ((0 : T (k + d)), basis d (i - 2 ^ d)) := if_neg h
      rw [e]
      obtain ⟨m, rfl⟩ : ∃ m, i = 2 ^ d + m := ⟨i - 2 ^ d, by omega⟩
      show (if j < 2 ^ (k + d) then bit (k + d) (0 : T (k+d)) j else
        bit (k + d) (basis d (2 ^ d + m - 2 ^ d)) (j - 2 ^ (k + d))) = _
      have e2 : (2 ^ d + m) * 2 ^ k = 2 ^ (k + d) + m * 2 ^ k := by rw [hkd]; ring
      rw [Nat.add_sub_cancel_left, bit_basis d m (by omega), bit_zero, e2]
      split
      · symm; simp; omega
      · rw [decide_eq_decide]; omega

theorem incl_alpha {k d : Nat} (j : Nat) :
    bit (k + 1 + d) (incl d (alpha (k + 1))) j = decide (j = 2 ^ k) := by
  rw [bit_incl, Packed.bit_alpha]; rfl

end T

/-! ## From integers to abstract elements -/

theorem bit_toT {k : Nat} (x : U k) (j : Nat) : T.bit k (toT x) j = x.getLsbD j := by
  by_cases h : j < 2 ^ k
  · rw [toT, bit_lane h]; simp
  · rw [T.bit_ge _ _ _ (by omega), BitVec.getLsbD_of_ge _ _ (by omega)]

theorem toT_injective {k : Nat} : Function.Injective (toT (k := k)) := by
  intro x y h
  apply BitVec.eq_of_getLsbD_eq
  intro i _
  rw [← bit_toT, ← bit_toT, h]

/-- The integer denoting an abstract element. -/
def ofT {k : Nat} (a : T k) : U k := BitVec.ofFnLE (fun i : Fin (2 ^ k) => T.bit k a i)

theorem getLsbD_ofT {k : Nat} (a : T k) (j : Nat) : (ofT a).getLsbD j = T.bit k a j := by
  by_cases h : j < 2 ^ k
  · simp [ofT, BitVec.getLsbD_ofFnLE, h]
  · rw [T.bit_ge _ _ _ (by omega), BitVec.getLsbD_of_ge _ _ (by omega)]

theorem toT_ofT {k : Nat} (a : T k) : toT (ofT a) = a :=
  T.bit_inj fun j _ => by rw [bit_toT, getLsbD_ofT]

theorem ofT_toT {k : Nat} (x : U k) : ofT (toT x) = x := toT_injective (toT_ofT _)

namespace Scalar
variable {k d : Nat}

theorem toT_add (a b : U k) : toT (add a b) = toT a + toT b := lane_xor _ _ _ _

theorem toT_mul (a b : U k) : toT (mul a b) = toT a * toT b :=
  Packed.lane_mul k le_rfl 0 (Nat.two_pow_pos _) a b

theorem toT_square (a : U k) : toT (square a) = T.square k (toT a) :=
  Packed.lane_square k le_rfl 0 (Nat.two_pow_pos _) a

theorem toT_inv (a : U k) : toT (invertOrZero a) = (toT a)⁻¹ :=
  Packed.lane_invertOrZero k le_rfl 0 (Nat.two_pow_pos _) a

theorem toT_zero : toT (0#_ : U k) = 0 := T.bit_inj fun j _ => by rw [bit_toT, T.bit_zero]; simp

theorem toT_one : toT (1#_ : U k) = 1 := T.bit_inj fun j hj => by
  have := Nat.two_pow_pos k
  rw [bit_toT, T.bit_one, BitVec.getLsbD_one]; simp
  
theorem toT_embed (x : U k) : toT (embed d x) = T.incl d (toT x) := T.bit_inj fun j hj => by
  rw [bit_toT, T.bit_incl, bit_toT, embed, BitVec.getLsbD_setWidth]
  simp [hj]

theorem toT_getBase (x : U (k + d)) (i : Nat) (hi : i < 2 ^ d) :
    toT (getBase x i) = T.coord d (toT x) i := T.bit_inj fun j hj => by
  rw [bit_toT, T.bit_coord d _ i hi j hj, bit_toT, getBase, BitVec.getLsbD_setWidth,
    BitVec.getLsbD_ushiftRight]
  simp [hj]

theorem toT_basis (i : Nat) (hi : i < 2 ^ d) :
    toT (1#(2 ^ (k + d)) <<< (i * 2 ^ k)) = T.basis d i := T.bit_inj fun j hj => by
  rw [bit_toT, T.bit_basis d i hi, BitVec.getLsbD_shiftLeft, BitVec.getLsbD_one, Bool.eq_iff_iff]
  have := Nat.two_pow_pos (k + d)
  simp
  omega

theorem split_eq (x : U (k + 1)) : toT x = (toT (split x).1, toT (split x).2) := by
  refine T.bit_inj fun j hj => ?_
  rw [bit_toT]
  show _ = if j < 2 ^ k then T.bit k (toT (split x).1) j else T.bit k (toT (split x).2) (j - 2 ^ k)
  rw [bit_toT, bit_toT]
  simp only [split, BitVec.getLsbD_setWidth, BitVec.getLsbD_ushiftRight]
  rw [Nat.pow_succ] at hj
  split
  · simp [*]
  · rw [show 2 ^ k + (j - 2 ^ k) = j by omega]
    have : j - 2 ^ k < 2 ^ k := by omega
    simp [this]

theorem toT_join (a b : U k) : toT (join a b) = (toT a, toT b) := by
  refine T.bit_inj fun j hj => ?_
  rw [bit_toT]
  show _ = if j < 2 ^ k then T.bit k (toT a) j else T.bit k (toT b) (j - 2 ^ k)
  rw [bit_toT, bit_toT, join, BitVec.getLsbD_or, BitVec.getLsbD_shiftLeft, BitVec.getLsbD_setWidth,
    BitVec.getLsbD_setWidth]
  have hj' := hj
  rw [Nat.pow_succ] at hj'
  have h3 : j - 2 ^ k < 2 ^ (k + 1) := by omega
  split
  · simp [*]
  · have : a.getLsbD j = false := BitVec.getLsbD_of_ge _ _ (by omega)
    simp [*]

end Scalar
end Verif.Field
