import Verif.Sumcheck.LemmasEqSuffix
import Verif.Sumcheck.LemmasRegular
import Verif.Sumcheck.LemmasEqInd
import Verif.Transparent.PropsTransparent

/-! Lemmas for C67: the rounds of the sumcheck prover with an equality indicator. -/

set_option linter.unusedSectionVars false

namespace Verif.Sumcheck

open Verif.Mle Verif.Univariate Verif.Tensor Verif.Fold Finset

variable {F D : Type} [Field F] [DecidableEq F] [Field D] [DecidableEq D]

/-! ## The coordinates that remain -/

/-- The coordinates of the `n` variables that are still to be bound. -/
def rem (order : EvaluationOrder) (n : Nat) (r : List F) : List F :=
  match order with
  | .lowToHigh => r.drop (r.length - n)
  | .highToLow => r.take n

/-- The coordinates of the variables that have been bound. -/
def bound (order : EvaluationOrder) (n : Nat) (r : List F) : List F :=
  match order with
  | .lowToHigh => r.take (r.length - n)
  | .highToLow => r.drop n

/-- The coordinate of the variable that is bound when `n + 1` remain. -/
def nextCoord (order : EvaluationOrder) (n : Nat) (r : List F) : F :=
  match order with
  | .lowToHigh => r.getD (r.length - (n + 1)) 0
  | .highToLow => r.getD n 0

theorem rem_length (order : EvaluationOrder) (n : Nat) (r : List F) (h : n ≤ r.length) : (rem order n r).length = n := by
  cases order with
  | lowToHigh => simp only [rem, List.length_drop]; omega
  | highToLow => simp only [rem, List.length_take]; omega

theorem rem_succ (order : EvaluationOrder) (n : Nat) (r : List F) (h : n < r.length) :
    rem order (n + 1) r = match order with
      | .lowToHigh => nextCoord order n r :: rem order n r
      | .highToLow => rem order n r ++ [nextCoord order n r] := by
  cases order with
  | lowToHigh =>
    simp only [rem, nextCoord]
    rw [List.getD_eq_getElem _ _ (by omega), List.drop_eq_getElem_cons (by omega)]
    congr 2
    omega
  | highToLow =>
    simp only [rem, nextCoord]
    rw [List.getD_eq_getElem _ _ h, List.take_append_getElem]

/-- The sum with the equality indicator over the tables after the challenges `rs`. -/
noncomputable def eqSum (order : EvaluationOrder) (N n : Nat) (r rs : List F) (tables : List (Nat → F)) (p : MvPolynomial ℕ F) : F :=
  mle (fun x => evalAt p (tables.map fun t => cur order N t rs x)) (rem order n r)

theorem mle_rem_succ (order : EvaluationOrder) (n : Nat) (r : List F) (h : n < r.length) (f : Nat → F) :
    mle f (rem order (n + 1) r) = (1 - nextCoord order n r) * mle (fun x => f (half order n 0 x)) (rem order n r) +
      nextCoord order n r * mle (fun x => f (half order n 1 x)) (rem order n r) := by
  rw [rem_succ order n r h]
  cases order with
  | lowToHigh =>
    dsimp only
    rw [mle_cons, mle_add, mle_smul, mle_smul]
    rfl
  | highToLow =>
    dsimp only
    rw [mle_snoc, rem_length _ _ _ h.le]
    simp only [half, Nat.mul_zero, Nat.mul_one, Nat.add_zero]

theorem eqSum_split (order : EvaluationOrder) (N n : Nat) (r rs : List F) (tables : List (Nat → F)) (p : MvPolynomial ℕ F)
    (hn : N = n + 1 + rs.length) (hr : r.length = N) :
    (1 - nextCoord order n r) * eqSum order N n r (rs ++ [0]) tables p + nextCoord order n r * eqSum order N n r (rs ++ [1]) tables p =
      eqSum order N (n + 1) r rs tables p := by
  unfold eqSum
  rw [mle_rem_succ order n r (by omega)]
  congr 2
  · congr 1
    funext x
    congr 1
    refine List.map_congr_left fun t _ => ?_
    rw [cur_snoc order N n t rs hn]
    ring
  · congr 1
    funext x
    congr 1
    refine List.map_congr_left fun t _ => ?_
    rw [cur_snoc order N n t rs hn]
    ring

/-! ## The expanded equality indicator -/

/-- The buffer holds the equality indicator of the `n` remaining variables. -/
def EvalsOk (w : Nat) (order : EvaluationOrder) (n : Nat) (r : List F) (e : Slice F) : Prop :=
  e.size = 2 ^ (n - w) * 2 ^ w ∧ ∀ x < 2 ^ n, e.val x = eqWeight (rem order n r) x

theorem eqWeight_fold (order : EvaluationOrder) (n : Nat) (r : List F) (h : n < r.length) (x : Nat) (hx : x < 2 ^ n) :
    eqWeight (rem order (n + 1) r) (half order n 0 x) + eqWeight (rem order (n + 1) r) (half order n 1 x) = eqWeight (rem order n r) x := by
  rw [rem_succ order n r h]
  cases order with
  | lowToHigh =>
    simp only [half]
    rw [eqWeight_cons, eqWeight_cons, if_neg (by omega), if_pos (by omega), show (2 * x + 0) / 2 = x by omega,
      show (2 * x + 1) / 2 = x by omega]
    ring
  | highToLow =>
    simp only [half]
    have hl := rem_length .highToLow n r h.le
    have e0 := eqWeight_append_split (rem .highToLow n r) [nextCoord .highToLow n r] x 0 (by rw [hl]; exact hx)
    have e1 := eqWeight_append_split (rem .highToLow n r) [nextCoord .highToLow n r] x 1 (by rw [hl]; exact hx)
    rw [hl] at e0 e1
    rw [e0, e1, eqWeight_cons, eqWeight_cons]
    simp
    ring

theorem foldPartialEqInd_ok (w : Nat) (order : EvaluationOrder) (n : Nat) (r : List F) (h : n < r.length) (e : Slice F)
    (he : EvalsOk w order (n + 1) r e) : ∃ e', foldPartialEqInd w order (n + 1) e = some e' ∧ EvalsOk w order n r e' := by
  obtain ⟨h1, h2⟩ := he
  have hp : packedLen w e = 2 ^ (n + 1 - w) := by
    unfold packedLen
    rw [h1, Nat.mul_div_cancel _ (Nat.two_pow_pos w)]
  have hshift : ∀ x : Nat, x <<< 1 = 2 * x + 0 := fun x => by rw [Nat.shiftLeft_eq]; omega
  have hor1 : ∀ x : Nat, x <<< 1 ||| 1 = 2 * x + 1 := fun x => by
    rw [Nat.shiftLeft_eq, Nat.mul_comm, ← Nat.two_pow_add_eq_or_of_lt (i := 1) (by omega)]
  have hval : ∀ x < 2 ^ n, e.val (half order n 0 x) + e.val (half order n 1 x) = eqWeight (rem order n r) x := by
    intro x hx
    rw [h2 _ (half_lt order n 0 x (by omega) hx), h2 _ (half_lt order n 1 x (by omega) hx), eqWeight_fold order n r h x hx]
  unfold foldPartialEqInd
  rw [if_neg (by omega), hp]
  by_cases hw : n + 1 ≤ w
  · rw [show n + 1 - w = 0 by omega, pow_zero, if_pos rfl, if_neg (by omega)]
    refine ⟨_, rfl, ?_, fun x hx => ?_⟩
    · show 2 ^ w = _
      rw [show n - w = 0 by omega, pow_zero, Nat.one_mul]
    · rw [Nat.add_sub_cancel]
      show (if x < 2 ^ n then _ else _) = _
      rw [if_pos hx, ← hval x hx]
      cases order with
      | lowToHigh =>
        dsimp only
        rw [hor1, hshift]
        rfl
      | highToLow =>
        dsimp only
        rw [Nat.or_comm, Nat.shiftLeft_eq, Nat.one_mul]
        have := Nat.two_pow_add_eq_or_of_lt (i := n) hx 1
        rw [Nat.mul_one] at this
        rw [← this]
        simp only [half, Nat.mul_zero, Nat.mul_one, Nat.add_zero, Nat.add_comm]
  · have hne : 2 ^ (n + 1 - w) ≠ 1 := by
      rw [show n + 1 - w = (n - w) + 1 by omega, pow_succ]
      have := Nat.two_pow_pos (n - w)
      omega
    have hlen : 2 ^ (n + 1 - w) / 2 * 2 ^ w = 2 ^ (n - w) * 2 ^ w := by
      rw [show n + 1 - w = (n - w) + 1 by omega, pow_succ, Nat.mul_div_cancel _ (by omega)]
    have hn : 2 ^ (n - w) * 2 ^ w = 2 ^ n := by rw [← pow_add]; congr 1; omega
    rw [if_neg hne]
    dsimp only
    rw [hlen]
    cases order with
    | lowToHigh =>
      refine ⟨_, rfl, rfl, fun x hx => ?_⟩
      dsimp only
      rw [← hval x hx, hor1, hshift]
      rfl
    | highToLow =>
      refine ⟨_, rfl, rfl, fun x hx => ?_⟩
      dsimp only
      rw [← hval x hx, hn]
      simp only [half, Nat.mul_zero, Nat.mul_one, Nat.add_zero, Nat.add_comm]

/-! ## The values of a round -/

theorem stepUp_sum (l : List F) (c : Nat) (hc : c ≤ 2 ^ l.length) :
    (Transparent.stepUp l.length c).evaluate l = .ok (∑ x ∈ Finset.Ico c (2 ^ l.length), eqWeight l x) := by
  have := ((Transparent.C30_step_up (F := F) 0 l.length c).1 hc).2.1.2.1 l rfl
  rw [this]
  congr 1
  rw [mle_eq_sum, ← Finset.sum_range_add_sum_Ico _ hc]
  rw [Finset.sum_eq_zero, zero_add]
  · refine Finset.sum_congr rfl fun x hx => ?_
    have := (Finset.mem_Ico.1 hx).1
    simp [this]
  · intro x hx
    have := Finset.mem_range.1 hx
    simp [Nat.not_le.2 this]

theorem eq_evals {emb : D → F} {pts : Nat → D} {w N n : Nat} {order : EvaluationOrder} {r rs : List F}
    {tables : List (Nat → F)} {ms : List (SumMultilin F)} {q : Query F} {points : List D} {s : Nat} {es : List (Evaluator F)}
    {stale : Nat → Nat → Nat → F} (it : CompItem D F) (hg : it.Good emb pts tables.length)
    (hn : N = n + 1 + rs.length) (hr : r.length = N) (hms : List.Forall₂ (fun t m => Stands w order N (n + 1) t rs m) tables ms)
    (hq : ∀ m ∈ ms, m.switchover? ≠ none → QueryOk w order q rs) (hs : s ≤ n) (hsw : s < w → s = n)
    {k k' : ConstSuffix F} (hk : SuffixOk order N (n + 1) rs tables it.comp k) (hu : k.update order (n + 1) = .ok k')
    {evals : Slice F} (hev : EvalsOk w order n r evals) (ones : Bool)
    (he : eqEvaluator (n + 1) (rem order n r) evals ones it.comp k' ∈ es) (hj : it.comp.degree ≤ points.length + 2) :
    ∃ R : Polynomial F, R.natDegree ≤ it.comp.degree ∧ (∀ x, R.eval x = eqSum order N n r (rs ++ [x]) tables it.poly) ∧
      evaluatorEvals emb w order (n + 1) ms q points s (multilinCount (n + 1) s es) stale (if ones then 2 else 1)
          (eqEvaluator (n + 1) (rem order n r) evals ones it.comp k') =
        .ok ((List.range' (if ones then 2 else 1) (it.comp.degree + 1 - if ones then 2 else 1)).map fun j =>
          if j = 2 then R.coeff it.comp.degree else R.eval (if j = 1 then 1 else emb (points.getD (j - 3) 0))) := by
  obtain ⟨hc, hv, hpos, -⟩ := hg
  obtain ⟨k1, u1, -, -, hk'le, -, -⟩ := update_ok order n k hk.le
  rw [hu] at u1
  cases u1
  have hrl := rem_length order n r (by omega)
  have hline := fun x : Nat => comp_line hc.built hc.degree tables (fun t => ends order N n rs t 0 x)
    (fun t => ends order N n rs t 1 x) (by rw [← hv]; exact hc.nVars)
  choose P hP1 hP2 hP3 using hline
  set wt := eqWeight (rem order n r) with hwt
  refine ⟨∑ x ∈ range (2 ^ n), Polynomial.C (wt x) * P x, ?_, fun x => ?_, ?_⟩
  · exact Polynomial.natDegree_sum_le_of_forall_le _ _ fun x _ => (Polynomial.natDegree_C_mul_le _ _).trans (hP1 x)
  · rw [Polynomial.eval_finsetSum]
    unfold eqSum
    rw [mle_eq_sum, hrl]
    refine Finset.sum_congr rfl fun y _ => ?_
    rw [Polynomial.eval_mul, Polynomial.eval_C]
    have h1 := hP2 y x
    rw [hc.expression _ (by simp [hv])] at h1
    rw [← Option.some.inj h1]
    congr 2
    refine List.map_congr_left fun t _ => ?_
    rw [cur_snoc order N n t rs hn]
    unfold ends
    ring
  · set E := eqEvaluator (n + 1) (rem order n r) evals ones it.comp k' with hE
    set C := evaluatorCount (n + 1) s E * 2 ^ s with hC
    have hCb : 2 ^ n - k'.len ≤ C ∧ C ≤ 2 ^ n := by
      have hb := divCeil_bounds (2 ^ n - k'.len) (2 ^ s) (Nat.two_pow_pos s)
      have hns : 2 ^ (n - s) * 2 ^ s = 2 ^ n := by rw [← pow_add]; congr 1; omega
      have h1 := divCeil_le (a := 2 ^ n - k'.len) (b := 2 ^ s) (c := 2 ^ (n - s)) (Nat.two_pow_pos s) (by omega)
      have h2 := Nat.mul_le_mul_right (2 ^ s) h1
      have h3 : C = divCeil (2 ^ n - k'.len) (2 ^ s) * 2 ^ s := rfl
      omega
    -- the value at a point of a line
    let V : Nat → Nat → F := fun j x => if j = 2 then (P x).coeff it.comp.degree else
        (P x).eval (if j = 1 then 1 else emb (points.getD (j - 3) 0))
    -- where the suffix starts it is constant
    have hconstV : ∀ j x, C ≤ x → x < 2 ^ n → V j x = if j = 2 then k'.atInf else k'.value := by
      intro j x hx1 hx2
      obtain ⟨l1, l2⟩ := hk.line hu x (by omega) hx2
      show (if j = 2 then _ else _) = _
      by_cases h2 : j = 2
      · rw [if_pos h2, if_pos h2]
        obtain ⟨lt, e1, e2⟩ := hP3 x
        refine l2 lt e1 _ (e2 _ (by simp) fun i t _ ht => ?_)
        rw [List.getElem?_map, ht, Option.map_some]
      · rw [if_neg h2, if_neg h2]
        exact l1 _ _ (hP2 x _)
    have hpow := pow_succ 2 n
    have := evaluatorEvals_ok (emb := emb) (points := points) (stale := stale) (first := if ones then 2 else 1) (e := E)
      (k := fun j => (∑ x ∈ Finset.Ico C (2 ^ n), wt x) * if j = 2 then k'.atInf else k'.value)
      (g := fun j x => V j x * wt x)
      hn hms hq hs hsw he (show k'.len ≤ _ from hk'le) (by show it.comp.degree + 1 ≤ _; omega)
      (fun j hj1 _ => by
        have hj1' : (if ones then 2 else 1) ≤ j := hj1
        have hinf : ((if ones then 2 else 1) + (j - E.start) == 2) = (j == 2) := by
          show ((if ones then 2 else 1) + (j - (if ones then 2 else 1)) == 2) = _
          rw [Nat.add_sub_cancel' hj1']
        rw [hinf, Nat.shiftLeft_eq]
        have hcc : 2 ^ (n + 1) - (2 ^ (n + 1) - C) = C := by omega
        show (if 2 ^ (n + 1) - C > 2 ^ (n + 1) ∨ 2 ^ (n + 1) - (2 ^ (n + 1) - C) > 2 ^ (rem order n r).length then _ else _) = _
        rw [hcc, if_neg (by rw [hrl]; omega), stepUp_sum _ _ (by rw [hrl]; omega), hrl]
        by_cases h2 : j = 2 <;> simp [h2, hwt])
      (fun j hj1 hj2 x hx vals hl hu' => by
        have hj1' : 1 ≤ j := by
          have : (if ones then 2 else 1) ≤ j := hj1
          split at this <;> omega
        refine ⟨V j x, wt x, ?_, ?_, rfl⟩
        · show (if (j == 2) = true then (Arith.leadingTerm it.comp.expr).bind fun lt => Arith.evaluate lt vals
            else it.comp.evaluate vals) = some (if j = 2 then _ else _)
          by_cases h2 : j = 2
          · subst h2
            rw [if_pos (by rfl)]
            obtain ⟨lt, e1, e2⟩ := hP3 x
            rw [e1, Option.bind_some]
            exact e2 vals hl hu'
          · rw [if_neg (by simpa using h2), if_neg h2, hc.evaluate _ (by rw [hl, hv]), ← hc.expression _ (by rw [hl, hv])]
            have e := hP2 x (if j = 1 then 1 else emb (points.getD (j - 3) 0))
            refine evaluate_used hc.built.wf.1 (fun i hi => ?_) e
            have hlt : i < tables.length :=
              lt_of_lt_of_le ((Arith.nVars_spec _).1 i hi) (by rw [← hv]; exact hc.nVars)
            rw [hu' i tables[i] ((usage_mem _ i).2 hi) (List.getElem?_eq_getElem hlt), List.getElem?_map,
              List.getElem?_eq_getElem hlt, Option.map_some]
            congr 1
            match j, hj1', h2 with
            | 1, _, _ => unfold zPure; simp
            | j + 3, _, _ => unfold zPure; simp
        · have hx' : x < 2 ^ n := lt_of_lt_of_le hx hCb.2
          show evals.get? x = _
          rw [Slice.get?, if_pos, hev.2 x hx']
          rw [hev.1]
          refine lt_of_lt_of_le hx' ?_
          rw [← pow_add]
          exact Nat.pow_le_pow_right (by omega) (by omega))
    rw [this]
    congr 1
    show (List.range' (if ones then 2 else 1) (it.comp.degree + 1 - if ones then 2 else 1)).map _ = _
    refine List.map_congr_left fun j _ => ?_
    have hsum : ∑ x ∈ range C, V j x * wt x + (∑ x ∈ Finset.Ico C (2 ^ n), wt x) * (if j = 2 then k'.atInf else k'.value) =
        ∑ x ∈ range (2 ^ n), wt x * V j x := by
      rw [← Finset.sum_range_add_sum_Ico _ hCb.2, Finset.sum_mul]
      congr 1
      · exact Finset.sum_congr rfl fun x _ => mul_comm _ _
      · refine Finset.sum_congr rfl fun x hx => ?_
        obtain ⟨x1, x2⟩ := Finset.mem_Ico.1 hx
        rw [hconstV j x x1 x2]
    rw [hsum]
    by_cases h2 : j = 2
    · simp only [h2, if_true, V]
      rw [Polynomial.finset_sum_coeff]
      exact Finset.sum_congr rfl fun x _ => (Polynomial.coeff_C_mul _).symm
    · simp only [h2, if_false, V]
      rw [Polynomial.eval_finsetSum]
      exact Finset.sum_congr rfl fun x _ => by rw [Polynomial.eval_mul, Polynomial.eval_C]

theorem unionRange_eq {A : Type} (n : Nat) (later : List F) (evals : Slice F) (ones : Bool) (f : A → Comp F) (g : A → ConstSuffix F) :
    ∀ cs : List A,
    (unionRange (cs.map fun c => eqEvaluator n later evals ones (f c) (g c))).2 =
        (if cs = [] then 0 else ((cs.map fun c => (f c).degree).max?).getD 0 + 1) ∧
      (cs ≠ [] → (unionRange (cs.map fun c => eqEvaluator n later evals ones (f c) (g c))).1 = if ones then 2 else 1) := by
  intro cs
  induction cs with
  | nil => exact ⟨rfl, by simp⟩
  | cons c cs ih =>
    cases cs with
    | nil => exact ⟨by simp [unionRange, eqEvaluator], fun _ => rfl⟩
    | cons c' cs =>
      obtain ⟨ih1, ih2⟩ := ih
      have ih2 := ih2 (by simp)
      rw [List.map_cons] at ih1 ih2
      rw [List.map_cons, List.map_cons, unionRange]
      · rw [ih1, ih2]
        refine ⟨?_, fun _ => ?_⟩
        · simp only [List.map_cons, reduceCtorEq, if_false]
          obtain ⟨m, hm⟩ : ∃ m, ((f c').degree :: cs.map fun c => (f c).degree).max? = some m := ⟨_, rfl⟩
          rw [List.max?_cons (x := (f c).degree), hm]
          simp only [Option.elim_some, Option.getD_some]
          show max ((f c).degree + 1) (m + 1) = max (f c).degree m + 1
          omega
        · exact min_self _
      · simp

/-! ## The coefficients -/

theorem eq_coeffs {emb : D →+* F} {pts : Nat → D} (h0 : pts 0 = 0) (h1 : pts 1 = 1) {d : Nat} (hd : 1 ≤ d)
    {dom : IDomain D} (hg : GoodDomain emb pts d dom) {points : List D} (hlen : d ≤ points.length + 2)
    (hpts : ∀ k < points.length, points.getD k 0 = pts (k + 2)) (R : Polynomial F) (hR : R.natDegree ≤ d) (α sum : F) (hα : α ≠ 1)
    (hsum : (1 - α) * R.eval 0 + α * R.eval 1 = sum) :
    eqCoeffs emb dom α sum ((List.range' 1 d).map fun j =>
      if j = 2 then R.coeff d else R.eval (if j = 1 then 1 else emb (points.getD (j - 3) 0))) = .ok (coeffs (d + 1) R) := by
  have hreg := regular_coeffs h0 h1 hd hg hlen hpts R hR _ rfl
  obtain ⟨k, rfl⟩ : ∃ k, d = k + 1 := ⟨d - 1, by omega⟩
  rw [List.range'_succ, List.map_cons] at hreg ⊢
  unfold regularCoeffs at hreg
  unfold eqCoeffs
  dsimp only at hreg ⊢
  simp only [if_neg (show (1 : Nat) ≠ 2 by omega), if_true] at hreg ⊢
  have e1 : (sum - R.eval 1 * α) * (1 - α)⁻¹ = R.eval 0 + R.eval 1 - R.eval 1 := by
    have : (1 - α) ≠ 0 := sub_ne_zero.2 (Ne.symm hα)
    rw [← hsum]
    field_simp
    ring
  rw [e1]
  exact hreg

theorem timesEq_eval (α pre : F) (cs : List F) (x : F) :
    evaluateUnivariate (timesEq α pre cs) x = pre * eqFn α x * evaluateUnivariate cs x := by
  have hc : ∀ l : List F, evaluateUnivariate ((0 : F) :: l) x = x * evaluateUnivariate l x := by
    intro l
    simp only [evaluateUnivariate, List.foldr_cons]
    ring
  unfold timesEq
  rw [scaleCoeffs_eval, addCoeffs_eval, scaleCoeffs_eval, hc, eqFn_eq]
  by_cases h2 : (1 + 1 : F) = 0
  · rw [if_pos h2, if_pos h2]
    linear_combination pre * evaluateUnivariate cs x * (α + x - α * x) * h2
  · rw [if_neg h2, if_neg h2, scaleCoeffs_eval]
    ring

theorem timesEq_length (α pre : F) (cs : List F) : (timesEq α pre cs).length = cs.length + 1 := by
  unfold timesEq
  have hs : ∀ (l : List F) (c : F), (scaleCoeffs l c).length = l.length := fun l c => by simp [scaleCoeffs]
  rw [hs, addCoeffs_length, hs, List.length_cons]
  split
  · omega
  · rw [hs]; omega

/-! ## The equality indicator of the variables that have been bound -/

theorem bound_rem (order : EvaluationOrder) (n : Nat) (r : List F) :
    r = match order with
      | .lowToHigh => bound order n r ++ rem order n r
      | .highToLow => rem order n r ++ bound order n r := by
  cases order <;> simp [bound, rem]

theorem cur_eqWeight (order : EvaluationOrder) (N n : Nat) (r rs : List F) (hn : N = n + rs.length) (hr : r.length = N) (x : Nat)
    (hx : x < 2 ^ n) : cur order N (eqWeight r) rs x = eqInd (arrange order rs) (bound order n r) * eqWeight (rem order n r) x := by
  have hrl := rem_length order n r (by omega)
  have hsplit := bound_rem order n r
  cases order with
  | lowToHigh =>
    have hbl : (bound .lowToHigh n r).length = rs.length := by simp only [bound, List.length_take]; omega
    dsimp only at hsplit
    unfold cur arrange
    dsimp only
    rw [← mle_eqWeight _ _ hbl.symm, mul_comm (mle _ _), ← mle_smul]
    refine mle_congr fun i hi => ?_
    have := eqWeight_append_split (bound .lowToHigh n r) (rem .lowToHigh n r) i x (by rw [hbl]; exact hi)
    rw [← hsplit, hbl] at this
    rw [this, mul_comm]
  | highToLow =>
    have hbl : (bound .highToLow n r).length = rs.reverse.length := by simp only [bound, List.length_drop, List.length_reverse]; omega
    dsimp only at hsplit
    unfold cur arrange
    dsimp only
    rw [← mle_eqWeight _ _ hbl.symm, mul_comm (mle _ _), ← mle_smul]
    refine mle_congr fun i hi => ?_
    have := eqWeight_append_split (rem .highToLow n r) (bound .highToLow n r) x i (by rw [hrl]; exact hx)
    rw [← hsplit, hrl] at this
    rw [show N - rs.length = n by omega, this]

theorem eqInd_append (a b c d : List F) (h : a.length = c.length) : eqInd (a ++ b) (c ++ d) = eqInd a c * eqInd b d := by
  unfold eqInd
  rw [List.zipWith_append h, List.prod_append]

theorem eqInd_single (x y : F) : eqInd [x] [y] = x * y + (1 - x) * (1 - y) := by simp [eqInd]

theorem prefix_succ (order : EvaluationOrder) (n : Nat) (r rs : List F) (hr : r.length = n + 1 + rs.length) (x : F) :
    eqInd (arrange order (rs ++ [x])) (bound order n r) =
      eqInd (arrange order rs) (bound order (n + 1) r) * eqFn (nextCoord order n r) x := by
  rw [eqFn_eq]
  cases order with
  | lowToHigh =>
    have : bound .lowToHigh n r = bound .lowToHigh (n + 1) r ++ [nextCoord .lowToHigh n r] := by
      simp only [bound, nextCoord]
      rw [List.getD_eq_getElem _ _ (by omega), List.take_append_getElem]
      congr 1
      omega
    rw [this]
    unfold arrange
    dsimp only
    rw [eqInd_append _ _ _ _ (by simp only [bound, List.length_take]; omega), eqInd_single]
    ring
  | highToLow =>
    have : bound .highToLow n r = [nextCoord .highToLow n r] ++ bound .highToLow (n + 1) r := by
      simp only [bound, nextCoord]
      rw [List.getD_eq_getElem _ _ (by omega), List.singleton_append, List.getElem_cons_drop]
    rw [this]
    unfold arrange
    dsimp only
    rw [List.reverse_append, List.reverse_singleton, eqInd_append _ _ _ _ (by simp), eqInd_single]
    ring

/-- The sum of the product with the equality indicator over what remains of the tables. -/
theorem curSum_eqSum (order : EvaluationOrder) (N n : Nat) (r rs : List F) (tables : List (Nat → F)) (p : MvPolynomial ℕ F)
    (hn : N = n + rs.length) (hr : r.length = N) (hv : p.vars ⊆ range tables.length) :
    curSum order N n rs (tables ++ [eqWeight r]) (p * MvPolynomial.X tables.length) =
      eqInd (arrange order rs) (bound order n r) * eqSum order N n r rs tables p := by
  unfold curSum eqSum
  rw [mle_eq_sum, rem_length order n r (by omega), Finset.mul_sum]
  refine Finset.sum_congr rfl fun x hx => ?_
  rw [List.map_append, List.map_singleton, evalAt_extra p _ hv _ (by simp), cur_eqWeight order N n r rs hn hr x (Finset.mem_range.1 hx)]
  ring

end Verif.Sumcheck
