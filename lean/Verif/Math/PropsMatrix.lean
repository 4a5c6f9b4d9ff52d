import Verif.Math.ModelMatrix
import Mathlib.LinearAlgebra.Matrix.NonsingularInverse
import Mathlib.Tactic.LinearCombination
import Mathlib.Data.Rat.Defs

/-! C20: matrix inversion. -/

set_option linter.unusedSectionVars false

namespace Verif.Matrix

open Finset

variable {F : Type*} [Field F] [DecidableEq F]

/-- The `n × n` matrix (in Mathlib's sense) with the given entries. -/
def toMatrix (n : Nat) (a : Nat → Nat → F) : Matrix (Fin n) (Fin n) F := Matrix.of fun i j => a i j

theorem findPivot_some {n i p : Nat} {tmp : Mat F} (h : findPivot n i tmp = some p) :
    i ≤ p ∧ p < n ∧ tmp.at' p i ≠ 0 := by
  unfold findPivot at h
  have h1 := List.find?_some h
  have h2 := List.mem_of_find?_eq_some h
  rw [List.mem_range'_1] at h2
  exact ⟨h2.1, by omega, by simpa using h1⟩

theorem findPivot_none {n i : Nat} {tmp : Mat F} (h : findPivot n i tmp = none) :
    ∀ p, i ≤ p → p < n → tmp.at' p i = 0 := by
  unfold findPivot at h
  rw [List.find?_eq_none] at h
  intro p h1 h2
  have := h p (by rw [List.mem_range'_1]; omega)
  simpa using this

theorem clear_fold (i : Nat) (l : List Nat) (hl : l.Nodup) (hi : i ∉ l) (s : Mat F × Mat F) :
    (∀ r c, (l.foldl (clearRow i) s).1.at' r c =
      if r ∈ l then s.1.at' r c - s.1.at' i c * s.1.at' r i else s.1.at' r c) ∧
    (∀ r c, (l.foldl (clearRow i) s).2.at' r c =
      if r ∈ l then s.2.at' r c - s.2.at' i c * s.1.at' r i else s.2.at' r c) := by
  induction l generalizing s with
  | nil => simp
  | cons j l ih =>
    rw [List.nodup_cons] at hl
    rw [List.mem_cons, not_or] at hi
    obtain ⟨h1, h2⟩ := ih hl.2 hi.2 (clearRow i s j)
    rw [List.foldl_cons]
    have e1 : ∀ r c, (clearRow i s j).1.at' r c =
        if r = j then s.1.at' j c - s.1.at' i c * s.1.at' j i else s.1.at' r c := fun _ _ => rfl
    have e2 : ∀ r c, (clearRow i s j).2.at' r c =
        if r = j then s.2.at' j c - s.2.at' i c * s.1.at' j i else s.2.at' r c := fun _ _ => rfl
    constructor
    · intro r c
      rw [h1, e1, e1, e1, if_neg hi.1]
      by_cases hr : r = j
      · subst hr
        rw [if_neg hl.1, if_pos rfl, if_pos List.mem_cons_self]
      · rw [if_neg hr, if_neg hr]
        simp [hr]
    · intro r c
      rw [h2, e2, e2, e1, if_neg hi.1]
      by_cases hr : r = j
      · subst hr
        rw [if_neg hl.1, if_pos rfl, if_pos List.mem_cons_self]
      · rw [if_neg hr, if_neg hr]
        simp [hr]

/-- The invariant of the elimination of `a`, `i` columns being done. -/
structure Inv (n : Nat) (a : Nat → Nat → F) (i : Nat) (s : Mat F × Mat F) : Prop where
  prod : ∀ r < n, ∀ c, s.1.at' r c = ∑ k ∈ range n, s.2.at' r k * a k c
  ker : ∀ v : Nat → F, (∀ r < n, ∑ c ∈ range n, s.1.at' r c * v c = 0) →
    ∀ r < n, ∑ c ∈ range n, a r c * v c = 0
  cols : ∀ r < n, ∀ c < i, s.1.at' r c = if r = c then 1 else 0

theorem Inv.swap {n i p : Nat} {a : Nat → Nat → F} {s : Mat F × Mat F} (h : Inv n a i s) (hi : i < n)
    (hip : i ≤ p) (hp : p < n) : Inv n a i (s.1.swapRows i p, s.2.swapRows i p) := by
  refine ⟨fun r hr c => ?_, fun v hv => h.ker v fun r hr => ?_, fun r hr c hc => ?_⟩
  · simp only [Mat.swapRows]
    by_cases h1 : r = i
    · simp only [if_pos h1]; exact h.prod p hp c
    · simp only [if_neg h1]
      by_cases h2 : r = p
      · simp only [if_pos h2]; exact h.prod i hi c
      · simp only [if_neg h2]; exact h.prod r hr c
  · by_cases h1 : r = i
    · by_cases h3 : i = p
      · have := hv r hr
        simp only [Mat.swapRows, if_pos h1] at this
        rw [h1, h3]; exact this
      · have := hv p hp
        simp only [Mat.swapRows, if_neg (Ne.symm h3), if_true] at this
        rw [h1]; exact this
    · by_cases h2 : r = p
      · have := hv i hi
        simp only [Mat.swapRows, if_true] at this
        rw [h2]; exact this
      · have := hv r hr
        simp only [Mat.swapRows, if_neg h1, if_neg h2] at this
        exact this
  · simp only [Mat.swapRows]
    by_cases h1 : r = i
    · rw [if_pos h1, h.cols p hp c hc, if_neg (by omega), if_neg (by omega)]
    · rw [if_neg h1]
      by_cases h2 : r = p
      · rw [if_pos h2, h.cols i hi c hc, if_neg (by omega), if_neg (by omega)]
      · rw [if_neg h2, h.cols r hr c hc]

theorem Inv.scale {n i : Nat} {a : Nat → Nat → F} {s : Mat F × Mat F} (h : Inv n a i s)
    {x : F} (hx : x ≠ 0) : Inv n a i (s.1.scaleRow i x, s.2.scaleRow i x) := by
  refine ⟨fun r hr c => ?_, fun v hv => h.ker v fun r hr => ?_, fun r hr c hc => ?_⟩
  · simp only [Mat.scaleRow]
    by_cases h1 : r = i
    · simp only [if_pos h1]
      rw [h.prod r hr c, sum_mul]
      exact sum_congr rfl fun k _ => by ring
    · simp only [if_neg h1]; exact h.prod r hr c
  · have := hv r hr
    by_cases h1 : r = i
    · simp only [Mat.scaleRow, if_pos h1] at this
      have e : ∑ c ∈ range n, s.1.at' r c * x * v c = x * ∑ c ∈ range n, s.1.at' r c * v c := by
        rw [mul_sum]; exact sum_congr rfl fun k _ => by ring
      rw [e] at this
      exact (mul_eq_zero.1 this).resolve_left hx
    · simp only [Mat.scaleRow, if_neg h1] at this
      exact this
  · simp only [Mat.scaleRow]
    by_cases h1 : r = i
    · rw [if_pos h1, h.cols r hr c hc, if_neg (by omega), zero_mul]
    · rw [if_neg h1, h.cols r hr c hc]

theorem Inv.clear {n i : Nat} {a : Nat → Nat → F} {s : Mat F × Mat F} (h : Inv n a i s) (hi : i < n)
    (hpiv : s.1.at' i i = 1) :
    Inv n a (i + 1) ((List.range i ++ List.range' (i + 1) (n - (i + 1))).foldl (clearRow i) s) := by
  set l := List.range i ++ List.range' (i + 1) (n - (i + 1)) with hl
  have hmem : ∀ r < n, r ∈ l ↔ r ≠ i := fun r hr => by
    rw [hl, List.mem_append, List.mem_range, List.mem_range'_1]; omega
  have hnd : l.Nodup := by
    rw [hl, List.nodup_append]
    refine ⟨List.nodup_range, List.nodup_range', fun x hx y hy => ?_⟩
    rw [List.mem_range] at hx
    rw [List.mem_range'_1] at hy
    omega
  obtain ⟨e1, e2⟩ := clear_fold i l hnd (fun hmi => (hmem i hi).1 hmi rfl) s
  refine ⟨fun r hr c => ?_, fun v hv => h.ker v fun r hr => ?_, fun r hr c hc => ?_⟩
  · rw [e1]
    simp only [e2]
    by_cases hri : r = i
    · simp only [if_neg (fun hm => (hmem r hr).1 hm hri)]
      exact h.prod r hr c
    · simp only [if_pos ((hmem r hr).2 hri)]
      rw [h.prod r hr c, h.prod i hi c, sum_mul, ← sum_sub_distrib]
      exact sum_congr rfl fun k _ => by ring
  · have hvi := hv i hi
    simp only [e1, if_neg (fun hm => (hmem i hi).1 hm rfl)] at hvi
    by_cases hri : r = i
    · rw [hri]; exact hvi
    · have := hv r hr
      simp only [e1, if_pos ((hmem r hr).2 hri)] at this
      have e : ∑ c ∈ range n, (s.1.at' r c - s.1.at' i c * s.1.at' r i) * v c =
          ∑ c ∈ range n, s.1.at' r c * v c - s.1.at' r i * ∑ c ∈ range n, s.1.at' i c * v c := by
        rw [mul_sum, ← sum_sub_distrib]
        exact sum_congr rfl fun k _ => by ring
      rw [e, hvi, mul_zero, sub_zero] at this
      exact this
  · rw [e1]
    by_cases hri : r = i
    · rw [if_neg (fun hm => (hmem r hr).1 hm hri)]
      by_cases hci : c = i
      · rw [hri, hci, hpiv, if_pos rfl]
      · exact h.cols r hr c (by omega)
    · rw [if_pos ((hmem r hr).2 hri)]
      by_cases hci : c = i
      · rw [hci, hpiv, if_neg hri]; ring
      · rw [h.cols r hr c (by omega), h.cols i hi c (by omega), if_neg (by omega : ¬ i = c)]
        ring

theorem elimStep_inv {n i : Nat} {a : Nat → Nat → F} {s : Mat F × Mat F} (h : Inv n a i s) (hi : i < n) :
    (∃ s', elimStep n i s = .ok s' ∧ Inv n a (i + 1) s') ∨
    (elimStep n i s = .error .matrixIsSingular ∧
      ∃ v : Nat → F, v i = 1 ∧ ∀ r < n, ∑ c ∈ range n, a r c * v c = 0) := by
  unfold elimStep
  cases hp : findPivot n i s.1 with
  | none =>
    right
    refine ⟨rfl, fun c => if c = i then 1 else if c < i then - s.1.at' c i else 0, if_pos rfl, ?_⟩
    refine h.ker _ fun r hr => ?_
    have hz := findPivot_none hp
    have hterm : ∀ c ∈ range n, s.1.at' r c * (if c = i then 1 else if c < i then - s.1.at' c i else 0) =
        (if c = i then s.1.at' r i else 0) + (if c = r then (if r < i then - s.1.at' r i else 0) else 0) := by
      intro c _
      by_cases h1 : c = i
      · rw [if_pos h1, if_pos h1, mul_one, h1]
        by_cases h2 : i = r
        · rw [if_pos h2, if_neg (by omega), add_zero]
        · rw [if_neg h2, add_zero]
      · rw [if_neg h1, if_neg h1]
        by_cases h2 : c < i
        · rw [if_pos h2, h.cols r hr c h2]
          by_cases h3 : c = r
          · rw [if_pos h3.symm, if_pos h3, if_pos (by omega), h3]; ring
          · rw [if_neg (Ne.symm h3), if_neg h3]; ring
        · rw [if_neg h2]
          by_cases h3 : c = r
          · rw [if_pos h3, if_neg (by omega)]; ring
          · rw [if_neg h3]; ring
    rw [sum_congr rfl hterm, sum_add_distrib, sum_ite_eq' (range n), sum_ite_eq' (range n),
      if_pos (mem_range.2 hi), if_pos (mem_range.2 hr)]
    by_cases h1 : r < i
    · rw [if_pos h1]; ring
    · rw [if_neg h1, hz r (by omega) hr]; ring
  | some p =>
    left
    obtain ⟨h1, h2, h3⟩ := findPivot_some hp
    dsimp only
    have hsw : Inv n a i (if p ≠ i then (s.1.swapRows i p, s.2.swapRows i p) else s) ∧
        (if p ≠ i then (s.1.swapRows i p, s.2.swapRows i p) else s).1.at' i i ≠ 0 := by
      by_cases hpi : p ≠ i
      · rw [if_pos hpi]
        refine ⟨h.swap hi h1 h2, ?_⟩
        simpa [Mat.swapRows] using h3
      · rw [if_neg hpi]
        rw [not_not] at hpi
        rw [hpi] at h3
        exact ⟨h, h3⟩
    obtain ⟨g1, g2⟩ := hsw
    refine ⟨_, rfl, (g1.scale (inv_ne_zero g2)).clear hi ?_⟩
    simp only [Mat.scaleRow, if_true]
    exact mul_inv_cancel₀ g2

theorem elimLoop_inv {n : Nat} {a : Nat → Nat → F} (k : Nat) (hk : k ≤ n) {s : Mat F × Mat F}
    (h : Inv n a 0 s) :
    (∃ s', elimLoop n k s = .ok s' ∧ Inv n a k s') ∨
    (elimLoop n k s = .error .matrixIsSingular ∧
      ∃ v : Nat → F, (∃ i < n, v i ≠ 0) ∧ ∀ r < n, ∑ c ∈ range n, a r c * v c = 0) := by
  induction k with
  | zero => exact Or.inl ⟨s, rfl, h⟩
  | succ k ih =>
    rcases ih (by omega) with ⟨s', e, h'⟩ | ⟨e, hv⟩
    · have : elimLoop n (k + 1) s = elimStep n k s' := by rw [elimLoop, e]
      rw [this]
      rcases elimStep_inv h' (by omega) with h1 | ⟨h1, v, h2, h3⟩
      · exact Or.inl h1
      · exact Or.inr ⟨h1, v, ⟨k, by omega, by rw [h2]; exact one_ne_zero⟩, h3⟩
    · right
      refine ⟨?_, hv⟩
      rw [elimLoop, e]

theorem inv_start (a : Mat F) : Inv a.n a.at' 0 (a, Mat.identity a.n) := by
  refine ⟨fun r hr c => ?_, fun v hv => hv, fun r hr c hc => by omega⟩
  simp only [Mat.identity, ite_mul, one_mul, zero_mul]
  rw [sum_ite_eq (range a.n), if_pos (mem_range.2 hr)]

/-- The outcome of the inversion in terms of sums. -/
theorem inverseInto_cases (a out : Mat F) (hsq : a.m = a.n) (hm : a.m = out.m) (hn : a.n = out.n) :
    (∃ b : Mat F, a.inverseInto out = some (.ok b) ∧
      toMatrix a.n b.at' * toMatrix a.n a.at' = 1) ∨
    (a.inverseInto out = some (.error .matrixIsSingular) ∧
      ∃ v : Nat → F, (∃ i < a.n, v i ≠ 0) ∧ ∀ r < a.n, ∑ c ∈ range a.n, a.at' r c * v c = 0) := by
  unfold Mat.inverseInto
  rw [if_neg (by simp [hm, hn]), if_neg (by simp [hsq])]
  rcases elimLoop_inv a.n le_rfl (inv_start a) with ⟨s, e, h⟩ | ⟨e, h⟩
  · left
    refine ⟨s.2, by rw [e], ?_⟩
    ext i j
    rw [Matrix.mul_apply]
    have h1 := h.prod i i.2 j
    rw [h.cols i i.2 j j.2] at h1
    rw [Matrix.one_apply, Finset.sum_range] at *
    simp only [toMatrix, Matrix.of_apply]
    rw [← h1]
    simp [Fin.ext_iff]
  · right
    exact ⟨by rw [e], h⟩

/-- C20.  `inverse_into` on a square matrix (with an output of the same dimensions) never panics.  It
either returns the two-sided inverse, or `MatrixIsSingular`, and then the determinant is zero. -/
theorem C20_inverse (a out : Mat F) (hsq : a.m = a.n) (hm : a.m = out.m) (hn : a.n = out.n) :
    (∃ b : Mat F, a.inverseInto out = some (.ok b) ∧
      toMatrix a.n b.at' * toMatrix a.n a.at' = 1 ∧ toMatrix a.n a.at' * toMatrix a.n b.at' = 1) ∨
    (a.inverseInto out = some (.error .matrixIsSingular) ∧ (toMatrix a.n a.at').det = 0) := by
  rcases inverseInto_cases a out hsq hm hn with ⟨b, h1, h2⟩ | ⟨h1, v, ⟨i, hi, hvi⟩, h3⟩
  · exact Or.inl ⟨b, h1, h2, mul_eq_one_comm.1 h2⟩
  · refine Or.inr ⟨h1, ?_⟩
    by_contra hdet
    have hu : IsUnit (toMatrix a.n a.at') := (Matrix.isUnit_iff_isUnit_det _).2 (isUnit_iff_ne_zero.2 hdet)
    have hk : (toMatrix a.n a.at').mulVec (fun c : Fin a.n => v c) = 0 := by
      ext r
      have := h3 r r.2
      rw [Finset.sum_range] at this
      simpa [Matrix.mulVec, dotProduct, toMatrix] using this
    have h0 : (fun c : Fin a.n => v c) = 0 := by
      have := Matrix.mulVec_injective_of_isUnit hu
      exact this (by rw [hk, Matrix.mulVec_zero])
    exact hvi (congrFun h0 ⟨i, hi⟩)

/-- C20 (exactly the invertible matrices).  The result is `Ok` if and only if the determinant is non-zero. -/
theorem C20_ok_iff (a out : Mat F) (hsq : a.m = a.n) (hm : a.m = out.m) (hn : a.n = out.n) :
    (∃ b, a.inverseInto out = some (.ok b)) ↔ (toMatrix a.n a.at').det ≠ 0 := by
  rcases C20_inverse a out hsq hm hn with ⟨b, h1, h2, -⟩ | ⟨h1, h2⟩
  · refine ⟨fun _ hdet => ?_, fun _ => ⟨b, h1⟩⟩
    have := congrArg Matrix.det h2
    rw [Matrix.det_mul, hdet, mul_zero, Matrix.det_one] at this
    exact zero_ne_one this
  · exact ⟨fun ⟨b, hb⟩ => absurd (h1.symm.trans hb) (by simp), fun h => absurd h2 h⟩

/-- C20 (other shapes).  Non-square matrices are refused, an output of other dimensions is a panic. -/
theorem C20_shapes (a out : Mat F) :
    (a.m = out.m → a.n = out.n → a.m ≠ a.n → a.inverseInto out = some (.error .matrixNotSquare)) ∧
    (¬ (a.m = out.m ∧ a.n = out.n) → a.inverseInto out = none) := by
  unfold Mat.inverseInto
  constructor
  · intro h1 h2 h3
    rw [if_neg (by simp [h1, h2]), if_pos h3]
  · intro h
    rw [if_pos h]

/-- C20 (product).  `mul_into` is the matrix product. -/
theorem C20_mul (a b : Mat F) (n : Nat) (ha : a.m = n ∧ a.n = n) (hb : b.m = n ∧ b.n = n) :
    ∃ c, a.mulInto b = some c ∧ c.m = n ∧ c.n = n ∧
      toMatrix n c.at' = toMatrix n a.at' * toMatrix n b.at' := by
  refine ⟨_, if_pos (by rw [ha.2, hb.1]), ha.1, hb.2, ?_⟩
  ext i j
  rw [Matrix.mul_apply]
  simp only [toMatrix, Matrix.of_apply]
  rw [ha.2, Finset.sum_range]

/-- A matrix that needs a row swap, over the rationals. -/
def exampleMat : Mat ℚ := ⟨2, 2, fun i j => if i = 0 ∧ j = 0 then 0 else (i : ℚ) + j⟩

example : ∃ b, exampleMat.inverseInto (Mat.zeros 2 2) = some (.ok b) ∧
    toMatrix 2 b.at' * toMatrix 2 exampleMat.at' = 1 := by
  rcases C20_inverse exampleMat (Mat.zeros 2 2) rfl rfl rfl with ⟨b, h1, h2, -⟩ | ⟨-, h⟩
  · exact ⟨b, h1, h2⟩
  · exfalso
    have h' : (toMatrix 2 exampleMat.at').det = 0 := h
    rw [Matrix.det_fin_two] at h'
    simp [toMatrix, exampleMat] at h'

example : (⟨2, 2, fun _ _ => 1⟩ : Mat ℚ).inverseInto (Mat.zeros 2 2) = some (.error .matrixIsSingular) := by
  rcases C20_inverse (⟨2, 2, fun _ _ => 1⟩ : Mat ℚ) (Mat.zeros 2 2) rfl rfl rfl with ⟨b, h1, -⟩ | ⟨h, -⟩
  · have := (C20_ok_iff (⟨2, 2, fun _ _ => 1⟩ : Mat ℚ) (Mat.zeros 2 2) rfl rfl rfl).1 ⟨b, h1⟩
    exfalso; apply this
    show (toMatrix 2 _).det = 0
    rw [Matrix.det_fin_two]
    simp [toMatrix]
  · exact h

end Verif.Matrix
