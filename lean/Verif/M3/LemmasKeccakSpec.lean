import Verif.M3.ModelKeccak
import Verif.M3.SpecKeccak
import Mathlib.Tactic.FinCases

/-! The trace of the model is the permutation of the specification. -/

set_option linter.dupNamespace false
set_option linter.unusedSectionVars false

namespace Verif.M3.Keccak

open Verif.Keccak (State)

/-- The bits of a matrix of lanes. -/
def bitsOf (m : Mat (BitVec 64)) : State := fun x y z => (m.at x y).getLsbD z

theorem Mat.at_fromFn {α : Type} (f : Nat → Nat → α) {x y : Nat} (hx : x < 5) (hy : y < 5) :
    (Mat.fromFn f).at x y = f x y := by
  show f ((x % 5 + y % 5 * 5) % 5) ((x % 5 + y % 5 * 5) / 5) = _
  rw [Nat.mod_eq_of_lt hx, Nat.mod_eq_of_lt hy, Nat.add_mul_mod_self_right, Nat.mod_eq_of_lt hx,
    Nat.add_mul_div_right _ _ (by norm_num), Nat.div_eq_of_lt hx, Nat.zero_add]

theorem pos_surj (i : Fin 25) : pos (i.val % 5) (i.val / 5) = i := by
  refine Fin.ext ?_
  show i.val % 5 % 5 + i.val / 5 % 5 * 5 = i.val
  omega

theorem Mat.at_fin {α : Type} (m : Mat α) (x : Fin 5) (y k : Nat) :
    m.at (x.val + k) y = m.at (x + Fin.ofNat 5 k).val y := by
  unfold Mat.at pos
  congr 2
  rw [Fin.val_add, Fin.val_ofNat]
  omega

theorem gatherTheta_apply (s : Mat (BitVec 64)) (d : Line (BitVec 64)) (i : Fin 25) :
    gatherTheta s d i = s i ^^^ d.at i.val := by
  fin_cases i <;> rfl

theorem gatherB_apply (a : Mat (BitVec 64)) (i : Fin 25) :
    gatherB a i = (a.at (3 * ((i.val / 5 + 2 * (i.val % 5)) % 5) % 5) (i.val % 5)).rotateLeft
      ((rho.at (3 * ((i.val / 5 + 2 * (i.val % 5)) % 5) % 5)).at (i.val % 5)) := by
  fin_cases i <;> rfl

theorem rot_bit (v : BitVec 64) {r : Nat} (hr : r < 64) (z : Fin 64) :
    (v.rotateLeft r).getLsbD z = v.getLsbD (z - Fin.ofNat 64 r).val := by
  rw [BitVec.getLsbD_rotateLeft, Nat.mod_eq_of_lt hr, Fin.sub_def]
  simp only [Fin.val_ofNat, Nat.mod_eq_of_lt hr]
  have hz := z.isLt
  by_cases h : z.val < r
  · rw [decide_eq_true h, cond_true]
    congr 1; omega
  · rw [decide_eq_false h, cond_false, decide_eq_true hz, Bool.true_and]
    congr 1; omega

theorem rho_lt : ∀ x y : Fin 5, rho x y < 64 := by decide

theorem rho_bits (A : State) (x y : Fin 5) (z : Fin 64) : Verif.Keccak.rho A x y z = A x y (z - Fin.ofNat 64 (rho x y)) := by
  fin_cases x <;> fin_cases y <;> first | rfl | (show A 0 0 z = A 0 0 (z - 0); rw [sub_zero])

theorem roundConstant_bits : ∀ (r : Fin 24) (z : Fin 64), Verif.Keccak.roundConstant r z = (rc r).getLsbD z := by
  decide +kernel

theorem theta_bits (s : Mat (BitVec 64)) : bitsOf (gatherTheta s (gatherD (gatherC s))) = Verif.Keccak.theta (bitsOf s) := by
  funext x y z
  show (gatherTheta s _ (pos x y)).getLsbD z = _
  rw [gatherTheta_apply]
  have hd : (gatherD (gatherC s)).at (pos x y).val = (gatherC s).at (x.val + 4) ^^^ ((gatherC s).at (x.val + 1)).rotateLeft 1 := by
    show (gatherC s).at ((x.val % 5 + y.val % 5 * 5) % 5 + 4) ^^^ ((gatherC s).at ((x.val % 5 + y.val % 5 * 5) % 5 + 1)).rotateLeft 1 = _
    rw [show (x.val % 5 + y.val % 5 * 5) % 5 = x.val by have := x.isLt; omega]
  have hc : ∀ x : Fin 5, ∀ z : Fin 64, ((gatherC s).at x.val).getLsbD z =
      (bitsOf s x 0 z ^^ bitsOf s x 1 z ^^ bitsOf s x 2 z ^^ bitsOf s x 3 z ^^ bitsOf s x 4 z) := by
    intro x z
    have : (gatherC s).at x.val = s.at x 0 ^^^ s.at x 1 ^^^ s.at x 2 ^^^ s.at x 3 ^^^ s.at x 4 := by
      show s.at (x.val % 5) 0 ^^^ s.at (x.val % 5) 1 ^^^ s.at (x.val % 5) 2 ^^^ s.at (x.val % 5) 3 ^^^ s.at (x.val % 5) 4 = _
      rw [Nat.mod_eq_of_lt x.isLt]
    rw [this]
    simp only [BitVec.getLsbD_xor]
    rfl
  have h4 : (gatherC s).at (x.val + 4) = (gatherC s).at (x - 1).val := by
    unfold Line.at; congr 2; fin_cases x <;> rfl
  have h1 : (gatherC s).at (x.val + 1) = (gatherC s).at (x + 1).val := by
    unfold Line.at; congr 2; fin_cases x <;> rfl
  rw [hd, h4, h1, BitVec.getLsbD_xor, BitVec.getLsbD_xor, rot_bit _ (by norm_num), hc, hc]
  rfl

theorem b_bits (a : Mat (BitVec 64)) : bitsOf (gatherB a) = Verif.Keccak.pi (Verif.Keccak.rho (bitsOf a)) := by
  funext x y z
  show (gatherB a (pos x y)).getLsbD z = Verif.Keccak.rho (bitsOf a) (x + 3 * y) x z
  rw [gatherB_apply, rho_bits]
  have h1 : (pos x y).val % 5 = x.val := by show (x.val % 5 + y.val % 5 * 5) % 5 = _; have := x.isLt; omega
  have h2 : (pos x y).val / 5 = y.val := by
    show (x.val % 5 + y.val % 5 * 5) / 5 = _; have := x.isLt; have := y.isLt; omega
  have h3 : 3 * ((y.val + 2 * x.val) % 5) % 5 = (x + 3 * y).val := by revert x y; decide
  rw [h1, h2, h3]
  have h4 : ((rho.at (x + 3 * y).val).at x.val) = rho (x + 3 * y) x := by
    have e : ∀ i : Fin 5, (⟨i.val % 5, by omega⟩ : Fin 5) = i := fun i => Fin.ext (Nat.mod_eq_of_lt i.isLt)
    unfold Line.at
    rw [e, e]
  rw [h4, rot_bit _ (rho_lt _ _)]
  rfl

theorem out_bits (b : Mat (BitVec 64)) (r : Fin 24) :
    bitsOf (gatherOut b (rc r)) = Verif.Keccak.iota (Verif.Keccak.chi (bitsOf b)) r := by
  funext x y z
  unfold bitsOf gatherOut
  rw [Mat.at_fromFn _ x.isLt y.isLt]
  have e1 : b.at (x.val + 1) y.val = b.at (x + 1).val y.val := b.at_fin x y 1
  have e2 : b.at (x.val + 2) y.val = b.at (x + 2).val y.val := b.at_fin x y 2
  dsimp only
  rw [e1, e2]
  have hx : (x.val = 0 ∧ y.val = 0) ↔ (x = 0 ∧ y = 0) := by rw [Fin.ext_iff, Fin.ext_iff]; rfl
  unfold Verif.Keccak.iota Verif.Keccak.chi
  by_cases h : x = 0 ∧ y = 0
  · rw [if_pos h, if_pos (hx.2 h), roundConstant_bits]
    simp [BitVec.getLsbD_xor, BitVec.getLsbD_and, BitVec.getLsbD_not]
  · rw [if_neg h, if_neg (fun h' => h (hx.1 h'))]
    simp [BitVec.getLsbD_xor, BitVec.getLsbD_and, BitVec.getLsbD_not]

/-- A round of the trace is a round of the specification. -/
theorem gather_bits (s : Mat (BitVec 64)) (r : Fin 24) : bitsOf (gather s r).stateOut = Verif.Keccak.rnd (bitsOf s) r := by
  show bitsOf (gatherOut (gatherB (gatherTheta s (gatherD (gatherC s)))) (rc r)) = _
  rw [out_bits, b_bits, theta_bits]
  rfl

/-- The state before the round number `n`. -/
def before (s : Mat (BitVec 64)) : Nat → Mat (BitVec 64)
  | 0 => s
  | n + 1 => if h : n < 24 then (gather (before s n) ⟨n, h⟩).stateOut else before s n

theorem before_succ (s : Mat (BitVec 64)) (r : Fin 24) : before s (r.val + 1) = (gather (before s r.val) r).stateOut := by
  rw [before, dif_pos r.isLt]

theorem traces_get : ∀ (rs : List (Fin 24)) (k : Nat), (∀ j (h : j < rs.length), (rs[j]'h).val = k + j) →
    ∀ (s : Mat (BitVec 64)) (j : Nat) (h : j < rs.length) (h' : j < (traces (before s k) rs).length),
      (traces (before s k) rs)[j] = gather (before s (k + j)) rs[j]
  | [], _, _, _, _, h, _ => by simp at h
  | r :: rs, k, hk, s, j, h, h' => by
    cases j with
    | zero => rfl
    | succ j =>
      have hr : r.val = k := hk 0 (by simp)
      have e : (gather (before s k) r).stateOut = before s (k + 1) := by rw [← hr, before_succ]
      have := traces_get rs (k + 1) (fun j hj => by
        have := hk (j + 1) (by simpa using hj)
        rw [List.getElem_cons_succ] at this
        omega) s j (by simpa using h) (by rw [traces_length]; simpa using h)
      simp only [traces, List.getElem_cons_succ, e]
      rw [this]
      congr 2; omega

theorem trace_apply (s : Mat (BitVec 64)) (r : Fin 24) : keccakfTrace s r = gather (before s r.val) r := by
  have := traces_get (List.finRange 24) 0 (fun j hj => by simp) s r.val (by simp) (by rw [traces_length]; simp)
  unfold keccakfTrace
  refine this.trans ?_
  rw [Nat.zero_add]
  congr 1
  simp

theorem before_bits (s : Mat (BitVec 64)) : ∀ n ≤ 24, bitsOf (before s n) = (List.range n).foldl Verif.Keccak.rnd (bitsOf s)
  | 0, _ => rfl
  | n + 1, h => by
    rw [List.range_succ, List.foldl_append, ← before_bits s n (by omega)]
    exact (congrArg bitsOf (before_succ s ⟨n, by omega⟩)).trans (gather_bits _ _)

/-- The state after all rounds is the permutation. -/
theorem before_all (s : Mat (BitVec 64)) : bitsOf (before s 24) = Verif.Keccak.keccakF (bitsOf s) := before_bits s 24 le_rfl

end Verif.M3.Keccak
