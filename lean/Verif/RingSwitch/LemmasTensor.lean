import Verif.RingSwitch.SpecRingSwitch
import Verif.Math.PropsTensor

/-! Lemmas about the tensor algebra. -/

set_option linter.dupNamespace false
set_option linter.unusedSectionVars false

namespace Verif.RingSwitch

open Finset Verif.Mle
open Verif.Field (T)

variable {F : Type} [Field F] [DecidableEq F]

namespace Coords.Lawful

variable {c : Coords F} {kappa : Nat} (hc : c.Lawful kappa)
include hc

theorem coord_zero (i : Nat) : c.coord 0 i = 0 := by
  have h := hc.coord_add 0 0 i
  rw [add_zero] at h
  exact left_eq_add.1 h

theorem coord_sum {ι : Type} (s : Finset ι) (f : ι → F) (i : Nat) :
    c.coord (∑ x ∈ s, f x) i = ∑ x ∈ s, c.coord (f x) i := by
  classical
  induction s using Finset.induction_on with
  | empty => simpa using hc.coord_zero i
  | insert a s ha ih => rw [sum_insert ha, sum_insert ha, hc.coord_add, ih]

theorem coord_transpose (t : Nat → F) {v w : Nat} (hw : w < 2 ^ kappa) :
    c.coord (transpose c kappa t v) w = c.coord (t w) v := by
  unfold transpose
  rw [hc.coord_sum]
  rw [sum_eq_single w]
  · rw [hc.coord_mul, hc.coord_basis w hw w hw, if_pos rfl, mul_one]
  · intro b hb hne
    rw [hc.coord_mul, hc.coord_basis b (mem_range.1 hb) w hw, if_neg hne, mul_zero]
  · intro h
    exact absurd (mem_range.2 hw) h

theorem transpose_transpose (t : Nat → F) {v : Nat} (hv : v < 2 ^ kappa) :
    transpose c kappa (transpose c kappa t) v = t v := by
  conv_rhs => rw [← hc.sum_basis (t v)]
  unfold transpose
  refine sum_congr rfl fun w _ => ?_
  rw [show c.coord (∑ w' ∈ range (2 ^ kappa), c.coord (t w') w * c.basis w') v = c.coord (t v) w from
    hc.coord_transpose t hv]

end Coords.Lawful

theorem transpose_congr (c : Coords F) (kappa : Nat) {t u : Nat → F} (h : ∀ w < 2 ^ kappa, t w = u w) (v : Nat) :
    transpose c kappa t v = transpose c kappa u v :=
  sum_congr rfl fun w hw => by rw [h w (mem_range.1 hw)]

/-- The tensor product of a vertical and a horizontal element. -/
def pureTensor (c : Coords F) (x y : F) : Nat → F := fun w => x * c.coord y w

/-- The fold of the rows with coefficients given as a function. -/
def foldFun (c : Coords F) (kappa : Nat) (t coeffs : Nat → F) : F :=
  ∑ v ∈ range (2 ^ kappa), transpose c kappa t v * coeffs v

theorem zipWith_sum (f : Nat → F) : ∀ (n : Nat) (l : List F), n ≤ l.length →
    (List.zipWith (· * ·) ((List.range n).map f) l).sum = ∑ v ∈ range n, f v * l[v]?.getD 0
  | 0, _, _ => by simp
  | n + 1, l, h => by
    have e : l = l.take n ++ l.drop n := (List.take_append_drop n l).symm
    have hd : l.drop n = l[n] :: l.drop (n + 1) := List.drop_eq_getElem_cons (by omega)
    rw [List.range_succ, List.map_append, sum_range_succ]
    conv_lhs => rw [e, hd]
    rw [List.zipWith_append (by simp; omega), List.sum_append]
    have ih := zipWith_sum f n (l.take n) (by simp; omega)
    rw [ih]
    congr 1
    · refine sum_congr rfl fun v hv => ?_
      rw [List.getElem?_take_of_lt (mem_range.1 hv)]
    · rw [List.map_singleton, List.zipWith_cons_cons, List.zipWith_nil_left, List.sum_singleton]
      simp [List.getElem?_eq_getElem (show n < l.length by omega)]

theorem foldVertical_eq (c : Coords F) (kappa : Nat) (t : Nat → F) (l : List F) (h : 2 ^ kappa ≤ l.length) :
    foldVertical c kappa t l = foldFun c kappa t fun v => l[v]?.getD 0 :=
  zipWith_sum _ _ _ h

theorem foldFun_congr (c : Coords F) (kappa : Nat) {t u : Nat → F} (h : ∀ w < 2 ^ kappa, t w = u w) (k : Nat → F) :
    foldFun c kappa t k = foldFun c kappa u k :=
  sum_congr rfl fun v _ => by rw [transpose_congr c kappa h]

namespace Coords.Lawful

variable {c : Coords F} {kappa : Nat} (hc : c.Lawful kappa)
include hc

theorem transpose_sum {ι : Type} (s : Finset ι) (f : ι → Nat → F) (v : Nat) :
    transpose c kappa (fun w => ∑ x ∈ s, f x w) v = ∑ x ∈ s, transpose c kappa (f x) v := by
  unfold transpose
  rw [sum_comm]
  refine sum_congr rfl fun w _ => ?_
  rw [hc.coord_sum, sum_mul]

theorem transpose_add (t u : Nat → F) (v : Nat) :
    transpose c kappa (fun w => t w + u w) v = transpose c kappa t v + transpose c kappa u v := by
  unfold transpose
  rw [← sum_add_distrib]
  exact sum_congr rfl fun w _ => by rw [hc.coord_add, add_mul]

theorem foldFun_sum {ι : Type} (s : Finset ι) (f : ι → Nat → F) (k : Nat → F) :
    foldFun c kappa (fun w => ∑ x ∈ s, f x w) k = ∑ x ∈ s, foldFun c kappa (f x) k := by
  unfold foldFun
  rw [sum_comm]
  refine sum_congr rfl fun v _ => ?_
  rw [hc.transpose_sum, sum_mul]

theorem foldFun_add (t u : Nat → F) (k : Nat → F) :
    foldFun c kappa (fun w => t w + u w) k = foldFun c kappa t k + foldFun c kappa u k := by
  unfold foldFun
  rw [← sum_add_distrib]
  exact sum_congr rfl fun v _ => by rw [hc.transpose_add, add_mul]

theorem transpose_pure (x y : F) (v : Nat) : transpose c kappa (pureTensor c x y) v = y * c.coord x v := by
  unfold transpose pureTensor
  conv_rhs => rw [← hc.sum_basis y, sum_mul]
  refine sum_congr rfl fun w _ => ?_
  rw [mul_comm x, hc.coord_mul]
  ring

theorem foldFun_pure (x y : F) (k : Nat → F) :
    foldFun c kappa (pureTensor c x y) k = (∑ v ∈ range (2 ^ kappa), c.coord x v * k v) * y := by
  unfold foldFun
  rw [sum_mul]
  exact sum_congr rfl fun v _ => by rw [hc.transpose_pure]; ring

theorem pure_add_left (x x' y : F) (w : Nat) :
    pureTensor c (x + x') y w = pureTensor c x y w + pureTensor c x' y w := add_mul _ _ _

theorem pure_add_right (x y y' : F) (w : Nat) :
    pureTensor c x (y + y') w = pureTensor c x y w + pureTensor c x y' w := by
  unfold pureTensor
  rw [hc.coord_add, mul_add]

theorem scaleHorizontal_pure (x y q : F) (v : Nat) :
    scaleHorizontal c kappa (pureTensor c x y) q v = pureTensor c x (y * q) v := by
  unfold scaleHorizontal
  have e : ∀ w < 2 ^ kappa, scaleVertical (transpose c kappa (pureTensor c x y)) q w = pureTensor c (y * q) x w := by
    intro w _
    unfold scaleVertical
    rw [hc.transpose_pure]
    unfold pureTensor
    ring
  rw [transpose_congr c kappa e, hc.transpose_pure]
  rfl

theorem scaleHorizontal_add (t u : Nat → F) (q : F) (v : Nat) :
    scaleHorizontal c kappa (fun w => t w + u w) q v =
      scaleHorizontal c kappa t q v + scaleHorizontal c kappa u q v := by
  unfold scaleHorizontal
  rw [← hc.transpose_add]
  refine transpose_congr c kappa (fun w _ => ?_) v
  unfold scaleVertical
  rw [hc.transpose_add, add_mul]

theorem evalStep_add (t u : Nat → F) (zq : F × F) (v : Nat) :
    evalStep c kappa (fun w => t w + u w) zq v = evalStep c kappa t zq v + evalStep c kappa u zq v := by
  unfold evalStep addElems
  rw [hc.scaleHorizontal_add]
  unfold scaleVertical
  ring

end Coords.Lawful

theorem scaleHorizontal_congr (c : Coords F) (kappa : Nat) {t u : Nat → F} (h : ∀ w < 2 ^ kappa, t w = u w) (q : F)
    (v : Nat) : scaleHorizontal c kappa t q v = scaleHorizontal c kappa u q v := by
  unfold scaleHorizontal
  refine transpose_congr c kappa (fun w _ => ?_) v
  unfold scaleVertical
  rw [transpose_congr c kappa h]

theorem evalStep_congr (c : Coords F) (kappa : Nat) {t u : Nat → F} (h : ∀ w < 2 ^ kappa, t w = u w) (zq : F × F) :
    ∀ w < 2 ^ kappa, evalStep c kappa t zq w = evalStep c kappa u zq w := by
  intro w hw
  unfold evalStep addElems scaleVertical
  rw [scaleHorizontal_congr c kappa h, h w hw]

theorem evalFold_congr (c : Coords F) (kappa : Nat) : ∀ (l : List (F × F)) {t u : Nat → F},
    (∀ w < 2 ^ kappa, t w = u w) → ∀ w < 2 ^ kappa, l.foldl (evalStep c kappa) t w = l.foldl (evalStep c kappa) u w
  | [], _, _, h => h
  | zq :: l, _, _, h => evalFold_congr c kappa l (evalStep_congr c kappa h zq)

namespace Coords.Lawful

variable {c : Coords F} {kappa : Nat} (hc : c.Lawful kappa)
include hc

theorem evalFold_add : ∀ (l : List (F × F)) (t u : Nat → F) (w : Nat),
    l.foldl (evalStep c kappa) (fun w => t w + u w) w =
      l.foldl (evalStep c kappa) t w + l.foldl (evalStep c kappa) u w
  | [], _, _, _ => rfl
  | zq :: l, t, u, w => by
    rw [List.foldl_cons, List.foldl_cons, List.foldl_cons, ← evalFold_add l]
    have e : evalStep c kappa (fun w => t w + u w) zq =
        fun w => evalStep c kappa t zq w + evalStep c kappa u zq w := funext (hc.evalStep_add t u zq)
    rw [e]

/-- What the fold of `evaluate` computes on a tensor product. -/
theorem evalFold_pure (h2 : ∀ x : F, x + x = 0) : ∀ (z q : List F), z.length = q.length → ∀ x y : F,
    ∀ w < 2 ^ kappa, (z.zip q).foldl (evalStep c kappa) (pureTensor c x y) w =
      ∑ u ∈ range (2 ^ z.length), pureTensor c (x * eqWeight z u) (y * eqWeight q u) w
  | [], [], _, x, y, w, _ => by simp [eqWeight]
  | [], b :: q, h, _, _, _, _ => by simp at h
  | a :: z, [], h, _, _, _, _ => by simp at h
  | a :: z, b :: q, h, x, y, w, hw => by
    have hl : z.length = q.length := by simpa using h
    have hstep : ∀ v < 2 ^ kappa, evalStep c kappa (pureTensor c x y) (a, b) v =
        pureTensor c (x * (1 - a)) (y * (1 - b)) v + pureTensor c (x * a) (y * b) v := by
      intro v hv
      unfold evalStep addElems
      rw [hc.scaleHorizontal_pure x y b v]
      have e1 : y * (1 - b) = y + y * b := by
        rw [mul_sub, mul_one, sub_eq_add_neg, ← eq_neg_of_add_eq_zero_left (h2 (y * b))]
      have e2 : x * (1 - a) = x + x * a := by
        rw [mul_sub, mul_one, sub_eq_add_neg, ← eq_neg_of_add_eq_zero_left (h2 (x * a))]
      rw [e1, e2, hc.pure_add_right, hc.pure_add_left, hc.pure_add_left]
      have e3 : scaleVertical (pureTensor c x y) a v = pureTensor c (x * a) y v := by
        unfold scaleVertical pureTensor
        ring
      show pureTensor c x y v + scaleVertical (pureTensor c x y) a v + pureTensor c x (y * b) v = _
      rw [e3]
      linear_combination -(h2 (pureTensor c (x * a) (y * b) v))
    rw [List.zip_cons_cons, List.foldl_cons, evalFold_congr c kappa _ hstep w hw, hc.evalFold_add,
      evalFold_pure h2 z q hl _ _ w hw, evalFold_pure h2 z q hl _ _ w hw, List.length_cons, Nat.pow_succ', sum_range_mul,
      ← sum_add_distrib]
    refine sum_congr rfl fun u _ => ?_
    rw [sum_range_succ, sum_range_one, eqWeight_cons, eqWeight_cons, eqWeight_cons, eqWeight_cons,
      if_neg (by omega), if_neg (by omega), if_pos (by omega), if_pos (by omega),
      show (0 + 2 * u) / 2 = u by omega, show (1 + 2 * u) / 2 = u by omega,
      mul_assoc, mul_assoc, mul_assoc, mul_assoc]

end Coords.Lawful

end Verif.RingSwitch
