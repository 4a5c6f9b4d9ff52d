import Verif.Sumcheck.LemmasEqInd2

/-! Property C55: sumchecks with an equality indicator. -/

set_option linter.unusedSectionVars false

namespace Verif.Sumcheck

open Verif.Mle Verif.Protocol Finset

variable {F : Type} [Field F] [DecidableEq F]

/-- The claim that the multilinear extension of `i * (i + 1)` over the two-dimensional hypercube is
`sum` at the point of the challenges. -/
noncomputable def eqProductInstance (sum : F) : EqInstance F :=
  ⟨⟨2, 2, [⟨productComposition, sum⟩]⟩, [MvPolynomial.X 0 * MvPolynomial.X 1],
    [fun i => (i : F), fun i => (i : F) + 1]⟩

theorem eqProductInstance_wf (sum : F) : (eqProductInstance sum).WellFormed := by
  refine ⟨rfl, .cons ⟨⟨?_, ?_⟩, ?_, rfl⟩ .nil⟩
  · intro q hq
    match q, hq with
    | [a, b], _ => simp [productComposition, evalAt]
  · refine (MvPolynomial.totalDegree_mul _ _).trans ?_
    simp [productComposition, MvPolynomial.totalDegree_X]
  · refine (MvPolynomial.vars_mul _ _).trans ?_
    rw [MvPolynomial.vars_X, MvPolynomial.vars_X]
    intro i hi
    simp only [Finset.mem_union, Finset.mem_singleton] at hi
    show i ∈ range 2
    rw [Finset.mem_range]
    omega

theorem eqProductInstance_holds (sum : F) :
    (eqProductInstance sum).Holds [2, 0] ↔ sum = 4 := by
  unfold EqInstance.Holds eqProductInstance
  simp only [List.forall₂_cons, List.forall₂_nil_left_iff]
  simp [mle, evalAt, suffix, Finset.sum_range_succ, eqWeight_cons]
  norm_num

/-- **C55 (construction).** A claim is constructed, unchanged, exactly when every composition takes as
many arguments as there are multilinears. -/
theorem C55_claim_new (nVars nMultilinears : Nat) (sums : List (CompositeSum F)) (c : EqIndClaim F) :
    EqIndClaim.new nVars nMultilinears sums = .ok c ↔
      c = ⟨nVars, nMultilinears, sums⟩ ∧ ∀ s ∈ sums, s.composition.nVars = nMultilinears := by
  unfold EqIndClaim.new
  cases h : sums.find? fun s => s.composition.nVars != nMultilinears with
  | some s =>
    simp only
    refine ⟨fun h => by simp at h, fun hc => ?_⟩
    have h1 := List.find?_some h
    have h2 := hc.2 s (List.mem_of_find?_eq_some h)
    simp [h2] at h1
  | none =>
    simp only
    rw [List.find?_eq_none] at h
    constructor
    · intro hc
      injection hc with hc
      exact ⟨hc.symm, fun s hs => by simpa using h s hs⟩
    · rintro ⟨rfl, -⟩
      rfl

example : EqIndClaim.new 2 2 [⟨productComposition, (5 : ℚ)⟩] = .ok ⟨2, 2, [⟨productComposition, 5⟩]⟩ :=
  (C55_claim_new _ _ _ _).mpr ⟨rfl, by simp [productComposition]⟩

/-- **C55 (reduction to regular claims).** The claims are turned into sumcheck claims about one more
multilinear. With the equality indicator of the challenges as that multilinear, a regular claim is
true exactly when the original one is. -/
theorem C55_reduce (r : List F) (all : List (EqInstance F)) (hwf : ∀ I ∈ all, I.WellFormed)
    (hn : ∀ I ∈ all, I.claim.nVars ≤ r.length) :
    ∃ regular : List (Instance F),
      reduceToRegularSumchecks (all.map fun I => I.claim) = .ok (regular.map fun J => J.claim) ∧
      List.Forall₂ (fun (I : EqInstance F) (J : Instance F) =>
        J.WellFormed ∧ J.claim.nVars = I.claim.nVars ∧
        J.tables = I.tables ++ [eqWeight (suffix I.claim.nVars r)] ∧ (J.Holds ↔ I.Holds r)) all regular := by
  refine ⟨all.map fun I => I.regular r, reduce_ok r all hwf, ?_⟩
  rw [List.forall₂_map_right_iff, List.forall₂_same]
  exact fun I hI => ⟨regular_wf r (hwf I hI), rfl, rfl, regular_holds r (hwf I hI) (hn I hI)⟩

example : ∃ J : Instance ℚ, reduceToRegularSumchecks [(eqProductInstance (4 : ℚ)).claim] = .ok [J.claim] ∧ J.Holds := by
  obtain ⟨l, h1, h2⟩ := C55_reduce [2, 0] [eqProductInstance (4 : ℚ)] (by simp [eqProductInstance_wf])
    (by simp [eqProductInstance])
  obtain ⟨J, l', hJ, h3, rfl⟩ := List.forall₂_cons_left_iff.mp h2
  rw [List.forall₂_nil_left_iff.mp h3] at h1
  exact ⟨J, h1, hJ.2.2.2.mpr ((eqProductInstance_holds 4).mpr rfl)⟩

/-- **C55 (check of the outputs).** An output is accepted exactly when the numbers of claims and of
challenges agree, the claims come in the announced order of size (sizes above the number of challenges
counting as that number), and the evaluations of each claim are those of its multilinears followed by
the equality indicator at the last `n_vars` challenges. These last entries are removed, and nothing
else changes. -/
theorem C55_outputs (sorting : SortingOrder) (claims : List (EqIndClaim F)) (r : List F)
    (out out' : Output F) :
    verifySumcheckOutputs sorting claims r out = .ok out' ↔
      r.length = out.challenges.length ∧ out'.challenges = out.challenges ∧
      (match sorting with
        | .ascendingVars => claims.Pairwise fun c d => min c.nVars r.length ≤ d.nVars
        | .descendingVars => claims.Pairwise fun c d => min d.nVars r.length ≤ c.nVars) ∧
      ∃ (_ : out.multilinearEvals.length = claims.length) (_ : out'.multilinearEvals.length = claims.length),
        ∀ (i : Nat) (_ : i < claims.length),
          EqIndOk out.challenges r claims[i] out.multilinearEvals[i] out'.multilinearEvals[i] := by
  rw [verifyOutputs_iff]
  constructor
  · rintro ⟨h1, h2, h3, h4, h5⟩
    refine ⟨h2, h4, ?_, h1, ?_, ?_⟩
    · rw [h2]
      cases sorting <;> exact h3
    · have := h5.length_eq
      rw [List.length_zip] at this
      omega
    · intro i hi
      have := (List.forall₂_iff_get.mp h5).2 i (by rw [List.length_zip]; omega)
        (by have := h5.length_eq; rw [List.length_zip] at this; omega)
      simpa using this
  · rintro ⟨h1, h2, h3, h4, h5, h6⟩
    refine ⟨h4, h1, ?_, h2, List.forall₂_iff_get.mpr ⟨by rw [List.length_zip]; omega, fun i hi hi' => ?_⟩⟩
    · rw [h1] at h3
      cases sorting <;> exact h3
    · rw [List.length_zip] at hi
      have := h6 i (by omega)
      simpa using this

/-- Two claims, of one and two variables, in ascending order. -/
example : verifySumcheckOutputs .ascendingVars [⟨1, 1, []⟩, ⟨2, 1, []⟩] [3, 5]
    ⟨[0, 1], [[7, 5], [8, -10]]⟩ = .ok (⟨[0, 1], [[7], [8]]⟩ : Output ℚ) := by
  rw [C55_outputs]
  refine ⟨rfl, rfl, by simp, rfl, rfl, fun i hi => ?_⟩
  match i, hi with
  | 0, _ => exact ⟨rfl, by norm_num [eqInd, suffix]⟩
  | 1, _ => exact ⟨rfl, by norm_num [eqInd, suffix]⟩

/-- **C55 (soundness).** If some claim is false, then whatever the prover does, at most a fraction
`(n (D + 1) + k) / |F|` of the challenge vectors makes the verifier accept with correct evaluations
(`n` challenges of the equality indicator, degrees at most `D`, `k` composite sums). Claims of
different sizes may be batched only when the last variable is bound first; one of the claims of full
size has to claim a sum. -/
theorem C55_soundness [Fintype F] (order : EvaluationOrder) (sorting : SortingOrder)
    (all : List (EqInstance F)) (r : List F) (hwf : ∀ I ∈ all, I.WellFormed)
    (big : EqInstance F) (hbig : big ∈ all) (hr : big.claim.nVars = r.length)
    (hsums : big.claim.sums ≠ []) (hmax : ∀ I ∈ all, I.claim.nVars ≤ r.length)
    (ho : order = .highToLow ∨ ∀ I ∈ all, I.claim.nVars = r.length)
    (D : Nat) (hD : ∀ I ∈ all, ∀ s ∈ I.claim.sums, s.composition.degree ≤ D)
    (hfalse : ∃ I ∈ all, ¬ I.Holds r) (msg : List F → Nat → List F) :
    let N := all.length + r.length
    accepting (EqCorrectEvals all) msg (eqIndVerify order sorting (all.map fun I => I.claim) r) [] 0 N
        * Fintype.card F
      ≤ (r.length * (D + 1) + (all.map fun I => I.claim.sums.length).sum) * Fintype.card F ^ N :=
  soundErr_count (eqInd_err order sorting all r hwf big hbig hr hmax ho (Or.inr hsums) D hD hfalse) msg _
    (eqInd_samples order sorting all r hwf big hbig hr hmax) [] 0

/-- A false claim over the field with seven elements. -/
example (msg : List (ZMod 7) → Nat → List (ZMod 7)) :
    accepting (EqCorrectEvals [eqProductInstance (3 : ZMod 7)]) msg
      (eqIndVerify .lowToHigh .ascendingVars [(eqProductInstance (3 : ZMod 7)).claim] [2, 0]) [] 0 3 * 7
      ≤ 7 * 7 ^ 3 := by
  have h := C55_soundness .lowToHigh .ascendingVars [eqProductInstance (3 : ZMod 7)] [2, 0]
    (by simp [eqProductInstance_wf]) (eqProductInstance 3) (by simp) rfl (by simp [eqProductInstance])
    (by simp [eqProductInstance]) (Or.inr (by simp [eqProductInstance])) 2
    (by simp [eqProductInstance, productComposition])
    ⟨_, List.mem_singleton_self _, fun h =>
      absurd ((eqProductInstance_holds (3 : ZMod 7)).mp h) (by decide)⟩ msg
  simpa [eqProductInstance, ZMod.card] using h

/-- **C55 (completeness).** With true claims in ascending order of size and provers that follow the
documentation, the verifier accepts, both sides obtain the same challenges, and the evaluations are
those of the multilinears at the last `n_vars` of them. -/
theorem C55_completeness (order : EvaluationOrder)
    (all : List (SumcheckProver F × EqInstance F)) (r : List F)
    (hwf : ∀ p ∈ all, p.2.WellFormed) (hh : ∀ p ∈ all, p.2.Holds r)
    (hon : ∀ p ∈ all, ∀ J : Instance F, J.claim.nVars = p.2.claim.nVars →
      J.claim.nMultilinears = p.2.claim.nMultilinears + 1 →
      J.claim.sums = p.2.claim.sums.map (fun s => ⟨extraProduct s.composition, s.sum⟩) →
      J.polys = p.2.polys.map (fun q => q * MvPolynomial.X p.2.claim.nMultilinears) →
      J.tables = p.2.tables ++ [eqWeight (suffix p.2.claim.nVars r)] → Honest p.1 J)
    (hord : ∀ p ∈ all, p.1.evaluationOrder = order)
    (hasc : all.Pairwise fun p q => p.2.claim.nVars ≤ q.2.claim.nVars)
    (big : SumcheckProver F × EqInstance F) (hbig : big ∈ all) (hr : big.2.claim.nVars = r.length)
    (hsums : big.2.claim.sums ≠ []) (hmax : ∀ p ∈ all, p.2.claim.nVars ≤ r.length)
    (ho : order = .highToLow ∨ ∀ p ∈ all, p.2.claim.nVars = r.length) (chal : Nat → F) :
    let proof := (eqIndProve order (all.map Prod.fst)).run chal
    ∃ out out', proof.2 = .ok out ∧
      (eqIndVerify order .ascendingVars (all.map fun p => p.2.claim) r).run
        (fun _ i => proof.1.getD i []) [] 0 chal = .ok out' ∧
      out'.challenges = out.challenges ∧ EqCorrectEvals (all.map Prod.snd) out' := by
  intro proof
  obtain ⟨a, b, h1, h2, h3, h4, h5, h6⟩ := agree_run (eqInd_agree order .ascendingVars all r
    (fun p hp => ⟨hon p hp _ rfl rfl rfl rfl rfl, hord p hp⟩) hwf hh hasc (by
      show (all.map _).Pairwise _
      rw [List.pairwise_map]
      exact hasc.imp fun h => by omega) big hbig hr hmax ho (Or.inr hsums)) [] [] chal
  refine ⟨a, b, h1, h2, h3, ?_⟩
  unfold EqCorrectEvals
  rw [h6, h3, List.forall₂_map_left_iff, List.forall₂_map_right_iff, List.forall₂_same]
  exact fun p _ => rfl

example (chal : Nat → ℚ) : ∃ pr : SumcheckProver ℚ, ∃ out',
    (eqIndVerify .highToLow .ascendingVars [(eqProductInstance (4 : ℚ)).claim] [2, 0]).run
      (fun _ i => ((eqIndProve .highToLow [pr]).run chal).1.getD i []) [] 0 chal = .ok out' := by
  obtain ⟨pr, h1, h2⟩ := C29_honest_exists .highToLow ((eqProductInstance (4 : ℚ)).regular [2, 0])
    (regular_wf _ (eqProductInstance_wf _))
  obtain ⟨out, out', g1, g2, _⟩ := C55_completeness .highToLow [(pr, eqProductInstance (4 : ℚ))] [2, 0]
    (by simp [eqProductInstance_wf]) (by simp [eqProductInstance_holds])
    (by
      intro p hp J e1 e2 e3 e4 e5
      obtain rfl := List.mem_singleton.mp hp
      have : J = (eqProductInstance (4 : ℚ)).regular [2, 0] := by
        obtain ⟨⟨a, b, c⟩, d, e⟩ := J
        simp only at e1 e2 e3 e4 e5
        subst e1 e2 e3 e4 e5
        rfl
      rw [this]
      exact h1)
    (by simp [h2]) (by simp) (pr, eqProductInstance (4 : ℚ)) (by simp) rfl (by simp [eqProductInstance])
    (by simp [eqProductInstance]) (Or.inl rfl) chal
  exact ⟨pr, out', g2⟩

end Verif.Sumcheck
