import Verif.RingSwitch.LemmasTensor

/-! Lemmas about the transparent polynomials, and the tower of the code. -/

set_option linter.dupNamespace false
set_option linter.unusedSectionVars false

namespace Verif.RingSwitch

open Finset Verif.Mle
open Verif.Field (T)

/-! ## The tower -/

theorem basis_zero_eq (k : Nat) : ∀ d : Nat, (T.basis (k := k) d 0 : T (k + d)) = 1
  | 0 => rfl
  | d + 1 => by
    have e : (T.basis (k := k) (d + 1) 0 : T (k + (d + 1))) = (T.basis d 0, 0) := if_pos (Nat.two_pow_pos d)
    rw [e, basis_zero_eq k d]
    rfl

theorem coordsAt_lawful (k d : Nat) : (coordsAt k d).Lawful d where
  coord_add x y i := by
    show T.incl d (T.coord d (x + y) i) = _
    rw [T.coord_add, T.incl_add]
    rfl
  coord_mul x y i j := by
    show T.incl d (T.coord d (T.incl d (T.coord d x i) * y) j) = _
    rw [T.coord_incl_mul, T.incl_mul]
    rfl
  sum_basis x := (T.eq_sum_basis d x).symm
  coord_basis i hi j hj := by
    show T.incl d (T.coord d (T.basis d i) j) = _
    have e : (T.basis d i : T (k + d)) =
        ∑ m ∈ range (2 ^ d), T.incl d (if i = m then (1 : T k) else 0) * T.basis d m := by
      rw [sum_eq_single i]
      · rw [if_pos rfl, T.incl_one, one_mul]
      · intro b _ hne
        rw [if_neg (Ne.symm hne), T.incl_zero, zero_mul]
      · intro h
        exact absurd (mem_range.2 hi) h
    rw [e, T.coord_sum_basis d (fun m => if i = m then (1 : T k) else 0) j hj]
    split
    · exact T.incl_one d
    · exact T.incl_zero d
  basis_zero := basis_zero_eq k d

theorem tower128_lawful : tower128.Lawful := fun l => match l with
  | .b1 => coordsAt_lawful 0 7
  | .b8 => coordsAt_lawful 3 4
  | .b16 => coordsAt_lawful 4 3
  | .b32 => coordsAt_lawful 5 2
  | .b64 => coordsAt_lawful 6 1
  | .b128 => coordsAt_lawful 7 0

variable {F : Type} [Field F] [DecidableEq F]

/-! ## Evaluation -/

/-- The values of the transparent polynomial on the hypercube. -/
def eqIndTable (tw : Tower F) (p : EqInd F) : Nat → F := fun u =>
  ∑ v ∈ range (2 ^ p.level.kappa), (tw p.level).coord (p.mix * eqWeight p.z u) v * p.coeffs[v]?.getD 0

theorem fromVertical_eq {c : Coords F} {kappa : Nat} (hc : c.Lawful kappa) (m : F) (w : Nat) (hw : w < 2 ^ kappa) :
    fromVertical m w = pureTensor c m 1 w := by
  unfold fromVertical pureTensor
  rw [← hc.basis_zero, hc.coord_basis 0 (Nat.two_pow_pos _) w hw]
  by_cases h : w = 0
  · rw [if_pos h, if_pos h.symm, mul_one]
  · rw [if_neg h, if_neg (Ne.symm h), mul_zero]

theorem evaluate_eq (h2 : ∀ x : F, x + x = 0) {tw : Tower F} (hl : tw.Lawful) (p : EqInd F)
    (hco : 2 ^ p.level.kappa ≤ p.coeffs.length) (q : List F) (hq : q.length = p.z.length) :
    p.evaluate tw q = .ok (mle (eqIndTable tw p) q) := by
  have hc := hl p.level
  unfold EqInd.evaluate
  rw [if_neg (by simpa using hq), foldVertical_eq _ _ _ _ hco]
  congr 1
  have e : ∀ w < 2 ^ p.level.kappa, (p.z.zip q).foldl (evalStep (tw p.level) p.level.kappa) (fromVertical p.mix) w =
      ∑ u ∈ range (2 ^ p.z.length), pureTensor (tw p.level) (p.mix * eqWeight p.z u) (1 * eqWeight q u) w := by
    intro w hw
    rw [evalFold_congr _ _ _ (fromVertical_eq hc p.mix) w hw]
    exact hc.evalFold_pure h2 p.z q hq.symm _ _ w hw
  rw [foldFun_congr _ _ e, hc.foldFun_sum]
  unfold mle
  rw [hq]
  refine sum_congr rfl fun u _ => ?_
  rw [hc.foldFun_pure, one_mul, mul_comm]
  rfl

/-! ## The CPU layer -/

theorem expandStep_eq (a k : Nat) (r : F) (P : List F) (hP : P.length = 2 ^ a) :
    expandStep (2 ^ a) r (P ++ List.replicate (2 ^ (a + (k + 1)) - 2 ^ a) 0) =
      (P.map (fun x => x - x * r) ++ P.map (fun x => x * r)) ++
        List.replicate (2 ^ (a + 1 + k) - 2 ^ (a + 1)) 0 := by
  have hp : 2 ^ (a + 1) = 2 ^ a + 2 ^ a := by rw [Nat.pow_succ]; omega
  have hle : 2 ^ (a + 1) ≤ 2 ^ (a + 1 + k) := Nat.pow_le_pow_right (by decide) (by omega)
  have he : a + (k + 1) = a + 1 + k := by omega
  rw [he]
  have hsplit : List.replicate (2 ^ (a + 1 + k) - 2 ^ a) (0 : F) =
      List.replicate (2 ^ a) 0 ++ List.replicate (2 ^ (a + 1 + k) - 2 ^ (a + 1)) 0 := by
    rw [List.replicate_append_replicate]
    congr 1
    omega
  rw [hsplit]
  unfold expandStep
  rw [List.take_left' hP, List.drop_left' hP, List.take_left' (by simp), ← List.append_assoc,
    List.drop_left' (by simp [hP]; omega)]
  dsimp only
  congr 1
  congr 1
  · refine List.ext_getElem (by simp [hP]) fun i h1 h2 => by simp
  · refine List.ext_getElem (by simp [hP]) fun i h1 h2 => by simp

theorem expandLoop_eq : ∀ (rs : List F) (a : Nat) (P : List F), P.length = 2 ^ a →
    expandLoop a rs (P ++ List.replicate (2 ^ (a + rs.length) - 2 ^ a) 0) =
      (List.range (2 ^ (a + rs.length))).map fun x => P[x % 2 ^ a]?.getD 0 * eqWeight rs (x / 2 ^ a)
  | [], a, P, hP => by
    rw [expandLoop]
    refine List.ext_getElem (by simp [hP]) fun i h1 h2 => ?_
    have hi : i < 2 ^ a := by simpa using h2
    simp [Nat.mod_eq_of_lt hi, List.getElem?_eq_getElem (show i < P.length by omega)]
  | r :: rs, a, P, hP => by
    have hp : 2 ^ (a + 1) = 2 ^ a + 2 ^ a := by rw [Nat.pow_succ]; omega
    have hpos := Nat.two_pow_pos a
    rw [expandLoop, List.length_cons, expandStep_eq a rs.length r P hP,
      expandLoop_eq rs (a + 1) _ (by simp [hP]; omega), show a + 1 + rs.length = a + (rs.length + 1) by omega]
    refine List.map_congr_left fun x _ => ?_
    have hm : x % 2 ^ (a + 1) = x % 2 ^ a + 2 ^ a * (x / 2 ^ a % 2) := by
      rw [Nat.pow_succ, Nat.mod_mul]
    have hd : x / 2 ^ (a + 1) = x / 2 ^ a / 2 := by rw [Nat.pow_succ, Nat.div_div_eq_div_mul]
    have hlt : x % 2 ^ a < P.length := by rw [hP]; exact Nat.mod_lt _ hpos
    rw [eqWeight_cons, hd, List.getElem?_eq_getElem hlt]
    rcases Nat.mod_two_eq_zero_or_one (x / 2 ^ a) with h | h
    · rw [hm, h, Nat.mul_zero, Nat.add_zero, if_neg (by omega),
        List.getElem?_append_left (by simpa using hlt), List.getElem?_map, List.getElem?_eq_getElem hlt]
      simp only [Option.map_some, Option.getD_some]
      ring
    · rw [hm, h, Nat.mul_one, if_pos rfl,
        List.getElem?_append_right (by simp [hP]), List.length_map, hP, Nat.add_sub_cancel, List.getElem?_map,
        List.getElem?_eq_getElem hlt]
      simp only [Option.map_some, Option.getD_some]
      ring

theorem flatMap_getElem? (f : F → Nat → F) (m : Nat) : ∀ (l : List F) (i j : Nat), j < m →
    (l.flatMap fun x => (List.range m).map (f x))[i * m + j]? = l[i]?.map fun x => f x j
  | [], i, j, _ => by simp
  | x :: l, 0, j, h => by
    rw [List.flatMap_cons, List.getElem?_append_left (by simpa using h)]
    simp [h]
  | x :: l, i + 1, j, h => by
    rw [List.flatMap_cons, List.getElem?_append_right (by simp; rw [Nat.add_mul]; omega), List.length_map,
      List.length_range, show (i + 1) * m + j - m = i * m + j by rw [Nat.add_mul]; omega,
      flatMap_getElem? f m l i j h, List.getElem?_cons_succ]

theorem flatMap_length (f : F → Nat → F) (m : Nat) (l : List F) :
    (l.flatMap fun x => (List.range m).map (f x)).length = l.length * m := by
  induction l with
  | nil => simp
  | cons x l ih => rw [List.flatMap_cons, List.length_append, ih]; simp [Nat.add_mul]; omega

theorem rightFold_eq (c : Coords F) (kappa n : Nat) (mat query : List F) (hm : mat.length = 2 ^ n)
    (hq : query.length = 2 ^ kappa) :
    rightFold c kappa mat query mat.length = .ok (mat.map fun x =>
      ∑ v ∈ range (2 ^ kappa), c.coord x v * query[v]?.getD 0) := by
  unfold rightFold
  have hl : ∀ m, Nat.log2 (2 ^ m) = m := fun m => Nat.log2_two_pow
  simp only [hm, hq, hl, flatMap_length]
  rw [if_neg (by
    have := Nat.two_pow_pos n; have := Nat.two_pow_pos kappa; omega)]
  rw [show n + kappa - kappa = n by omega, if_neg (by simp)]
  congr 1
  refine List.ext_getElem (by simp [hm]) fun i h1 h2 => ?_
  have hi : i < mat.length := by simpa using h2
  simp only [List.getElem_map, List.getElem_range]
  refine sum_congr rfl fun v hv => ?_
  rw [flatMap_getElem? c.coord (2 ^ kappa) mat i v (mem_range.1 hv), List.getElem?_eq_getElem hi, mul_comm]
  rfl

theorem multilinearExtension_eq (tw : Tower F) (p : EqInd F) (hco : 2 ^ p.level.kappa ≤ p.coeffs.length) (mem : List F)
    (hm : mem.tail = List.replicate (2 ^ p.z.length - 1) 0) (hm' : mem.length = 2 ^ p.z.length) :
    p.multilinearExtension tw mem = .ok ((List.range (2 ^ p.z.length)).map (eqIndTable tw p)) := by
  have hpos := Nat.two_pow_pos p.z.length
  unfold EqInd.multilinearExtension tensorExpand
  rw [if_neg (by omega), if_neg (by simpa using hm'), hm, if_neg (by simp; omega)]
  have e := expandLoop_eq p.z 0 [p.mix] rfl
  rw [Nat.zero_add, Nat.pow_zero] at e
  have e' : p.mix :: List.replicate (2 ^ p.z.length - 1) 0 =
      [p.mix] ++ List.replicate (2 ^ p.z.length - 1) 0 := rfl
  rw [e', e]
  show rightFold _ _ _ _ _ = _
  rw [rightFold_eq (tw p.level) p.level.kappa p.z.length _ _ (by simp) (by simp; omega), List.map_map]
  congr 1
  refine List.map_congr_left fun u _ => ?_
  unfold eqIndTable
  refine sum_congr rfl fun v hv => ?_
  rw [List.getElem?_take_of_lt (mem_range.1 hv)]
  simp [Nat.mod_one]

end Verif.RingSwitch
