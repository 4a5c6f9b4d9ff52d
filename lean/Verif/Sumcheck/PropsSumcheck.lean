import Verif.Sumcheck.LemmasComplete
import Mathlib.Data.ZMod.Basic
import Mathlib.Algebra.Field.ZMod
import Mathlib.Tactic.NormNum.Prime

/-!
# C28, C29: the sumcheck protocol
-/

namespace Verif.Sumcheck

open Verif.Mle Verif.Protocol Verif.Univariate Finset Polynomial

set_option linter.unusedSectionVars false

variable {F : Type} [Field F] [DecidableEq F]

/-! ## C28 -/

/-- C28 (verifier). The polynomial recovered from any message with at least one coefficient satisfies
`R(0) + R(1) = sum`, has one coefficient more than the message, and agrees with the message.

Missing from the full statement: the empty message, for which it is false
(`C28_empty_message`). -/
theorem C28_consistent_partial (message : List F) (sum : F) (hne : message ≠ []) :
    let R := recover message sum
    (∑ i : Fin R.length, R[i] * 0 ^ (i : Nat)) + (∑ i : Fin R.length, R[i] * 1 ^ (i : Nat)) = sum ∧
    R.length = message.length + 1 ∧ message <+: R := by
  intro R
  rw [← C19_evaluate_univariate, ← C19_evaluate_univariate]
  refine ⟨?_, recover_length _ _, ⟨_, rfl⟩⟩
  cases message with
  | nil => exact absurd rfl hne
  | cons c cs => exact recover_sum c cs sum

example : recover [(3 : ℚ), 5] 4 = [3, 5, -7] := by norm_num [recover]

/-- C28 (the case that fails). From the empty message (a round polynomial of degree 0) the verifier
recovers the constant `sum`, for which `R(0) + R(1) = sum` holds only if the sum is zero. -/
theorem C28_empty_message (sum : F) :
    recover [] sum = [sum] ∧
    ((∑ i : Fin [sum].length, [sum][i] * 0 ^ (i : Nat))
      + (∑ i : Fin [sum].length, [sum][i] * 1 ^ (i : Nat)) = sum ↔ sum = 0) := by
  refine ⟨by simp [recover], ?_⟩
  simp

/-- C28 (prover). If the prover truncates its round polynomial (of degree at least 1, in coefficients)
and the polynomial is consistent with the running sum, the verifier recovers exactly it. -/
theorem C28_honest_recovered (R : List F) (hlen : 2 ≤ R.length) :
    recover (truncate R)
      ((∑ i : Fin R.length, R[i] * 0 ^ (i : Nat)) + (∑ i : Fin R.length, R[i] * 1 ^ (i : Nat))) = R := by
  rw [← C19_evaluate_univariate, ← C19_evaluate_univariate]
  exact recover_truncate R hlen _ rfl

example : recover (truncate [(3 : ℚ), 5, -7]) 4 = [3, 5, -7] := by norm_num [recover, truncate]

/-! ## C29 -/

theorem samplesLe_activate (n N : Nat) (cs : List (Claim F)) (s : St F)
    (k : List (Claim F) × St F → P F (Output F)) (hk : ∀ q, (k q).SamplesLe (q.1.length + N)) :
    ((activate n cs s).bind k).SamplesLe (cs.length + N) := by
  induction cs generalizing s with
  | nil => exact hk _
  | cons c cs ih =>
    rw [activate]
    split
    · exact hk _
    · rw [List.length_cons, show cs.length + 1 + N = (cs.length + N) + 1 by omega]
      exact fun a => ih _

theorem samplesLe_rounds (n N : Nat) (cs : List (Claim F)) (s : St F)
    (k : List (Claim F) × St F → P F (Output F)) (hk : ∀ q, (k q).SamplesLe (q.1.length + N)) :
    ((rounds n cs s).bind k).SamplesLe (cs.length + (n + N)) := by
  induction n generalizing cs s with
  | zero => rw [Nat.zero_add]; exact hk _
  | succ n ih =>
    rw [rounds, bind_assoc]
    refine samplesLe_activate (n + 1) (n + 1 + N) cs s _ fun q => ?_
    intro m
    rw [show q.1.length + (n + 1 + N) = (q.1.length + (n + N)) + 1 by omega]
    exact fun r => ih _ _

theorem samplesLe_rest (cs : List (Claim F)) (s : St F) (k : St F → P F (Output F))
    (hk : ∀ q, (k q).SamplesLe 0) : ((activateRest cs s).bind k).SamplesLe (cs.length + 0) := by
  induction cs generalizing s with
  | nil => exact hk _
  | cons c cs ih =>
    rw [activateRest]
    split
    · trivial
    · exact fun a => ih _

theorem samplesLe_readEvals (cs : List (Claim F)) (k : List (List F) → P F (Output F))
    (hk : ∀ q, (k q).SamplesLe 0) : ((readEvals cs).bind k).SamplesLe 0 := by
  induction cs generalizing k with
  | nil => exact hk _
  | cons c cs ih =>
    rw [readEvals]
    intro m
    show (((readEvals cs).bind fun rest => Prog.ret (m :: rest)).bind k).SamplesLe 0
    rw [bind_assoc]
    exact ih _ fun q => hk _

theorem samplesLe_finish (order : EvaluationOrder) (claims cs : List (Claim F)) (s : St F) :
    (finish order claims cs s).SamplesLe (cs.length + 0) := by
  refine samplesLe_rest cs s _ fun s => samplesLe_readEvals claims _ fun es => ?_
  rw [ofExcept_bind]
  split
  · split <;> trivial
  · trivial

theorem batch_rounds (all : List (Instance F)) (big : Instance F) (hbig : big ∈ all)
    (hmax : ∀ I ∈ all, I.claim.nVars ≤ big.claim.nVars) :
    (((all.map fun I => I.claim).map fun c => c.nVars).max?).getD 0 = big.claim.nVars := by
  have hb : big.claim.nVars ∈ ((all.map fun I => I.claim).map fun c => c.nVars) := by
    rw [List.map_map]; exact List.mem_map.mpr ⟨big, hbig, rfl⟩
  have h := maxVars_spec ((all.map fun I => I.claim).map fun c => c.nVars)
    (List.ne_nil_of_mem hb)
  refine Nat.le_antisymm ?_ (h.2 _ hb)
  obtain ⟨c, hc, he⟩ := List.mem_map.mp h.1
  obtain ⟨I, hI, rfl⟩ := List.mem_map.mp hc
  rw [← he]
  exact hmax I hI

theorem batch_err (order : EvaluationOrder) (all : List (Instance F)) (hwf : ∀ I ∈ all, I.WellFormed)
    (big : Instance F) (hbig : big ∈ all) (hmax : ∀ I ∈ all, I.claim.nVars ≤ big.claim.nVars)
    (hdeg : big.claim.nVars = 0 ∨ 1 ≤ big.claim.maxIndividualDegree)
    (D : Nat) (hD : ∀ I ∈ all, I.claim.maxIndividualDegree ≤ D) (hfalse : ∃ I ∈ all, ¬ I.Holds) :
    SoundErr (CorrectEvals order all) (batchVerify order (all.map fun I => I.claim))
      (big.claim.nVars * D + (all.map fun I => I.claim.sums.length).sum) := by
  unfold batchVerify
  split
  · exact .fail
  · rename_i hsort
    simp only [Bool.not_eq_false] at hsort
    simp only [batch_rounds all big hbig hmax]
    refine rounds_err (nR := big.claim.nVars) D hD hwf big.claim.nVars [] all ⟨[], [], 0, 0⟩
      ⟨by simp, rfl, by simp, sorted_of hsort, hmax, by simp⟩ ?_ (by simp) ?_ (Nat.zero_le _)
    · exact Or.inr hfalse
    · rcases hdeg with h | h
      · exact Or.inl h
      · exact Or.inr (Or.inr ⟨big, hbig, rfl, h⟩)

theorem batch_samples (order : EvaluationOrder) (all : List (Instance F)) (big : Instance F) (hbig : big ∈ all)
    (hmax : ∀ I ∈ all, I.claim.nVars ≤ big.claim.nVars) :
    (batchVerify order (all.map fun I => I.claim)).SamplesLe (all.length + big.claim.nVars) := by
  unfold batchVerify
  split
  · trivial
  · simp only [batch_rounds all big hbig hmax]
    have := samplesLe_rounds big.claim.nVars 0 (all.map fun I => I.claim) ⟨[], [], 0, 0⟩
      (fun q => finish order (all.map fun I => I.claim) q.1 q.2)
      (fun q => samplesLe_finish order _ _ _)
    simpa using this

/-- C29 (soundness). Consider any claims, of which at least one is false, and any prover. Among the
vectors of challenges, at most a fraction `(n * D + k) / |F|` makes the verifier accept with correct
evaluations of the multilinears, where `n` is the number of rounds, `D` bounds the degrees of the
compositions and `k` is the number of composite sums claimed.

Missing from the full statement: it is assumed that one of the claims with the most variables has a
composition of degree at least 1; without it the statement is false (`C29_constant_unsound`). -/
theorem C29_soundness_partial [Fintype F] (order : EvaluationOrder) (all : List (Instance F))
    (hwf : ∀ I ∈ all, I.WellFormed)
    (big : Instance F) (hbig : big ∈ all) (hmax : ∀ I ∈ all, I.claim.nVars ≤ big.claim.nVars)
    (hdeg : big.claim.nVars = 0 ∨ 1 ≤ big.claim.maxIndividualDegree)
    (D : Nat) (hD : ∀ I ∈ all, I.claim.maxIndividualDegree ≤ D)
    (hfalse : ∃ I ∈ all, ¬ I.Holds) (msg : List F → Nat → List F) :
    let N := all.length + big.claim.nVars
    accepting (CorrectEvals order all) msg (batchVerify order (all.map fun I => I.claim)) [] 0 N
        * Fintype.card F
      ≤ (big.claim.nVars * D + (all.map fun I => I.claim.sums.length).sum) * Fintype.card F ^ N := by
  intro N
  exact soundErr_count (batch_err order all hwf big hbig hmax hdeg D hD hfalse) msg N
    (batch_samples order all big hbig hmax) [] 0

theorem batch_agree (order : EvaluationOrder) (all : List (SumcheckProver F × Instance F))
    (hon : ∀ p ∈ all, Honest p.1 p.2 ∧ p.1.evaluationOrder = order)
    (hwf : ∀ p ∈ all, p.2.WellFormed) (hh : ∀ p ∈ all, p.2.Holds)
    (hsort : all.Pairwise fun p q => q.2.claim.nVars ≤ p.2.claim.nVars)
    (hdeg : ∀ p, all.head? = some p → p.2.claim.nVars = 0 ∨
      ∃ q ∈ all, q.2.claim.nVars = p.2.claim.nVars ∧ 1 ≤ q.2.claim.maxIndividualDegree) :
    Agree (fun o o' => o = o' ∧ CorrectEvals order (all.map Prod.snd) o)
      (batchProve (all.map Prod.fst)) (batchVerify order (all.map fun p => p.2.claim)) := by
  have hvars : (all.map Prod.fst).map (fun p => p.nVars) = (all.map fun p => p.2.claim).map fun c => c.nVars := by
    rw [List.map_map, List.map_map]
    exact List.map_congr_left fun p hp => (hon p hp).1.nVars
  have hasc : Verif.Sorting.isSortedAscending
      ((all.map fun p => p.2.claim).map fun c => c.nVars).reverse = true := by
    rw [Verif.Sorting.C03_is_sorted_ascending]
    have : (((all.map fun p => p.2.claim).map fun c => c.nVars).reverse).Pairwise (· ≤ ·) := by
      rw [List.pairwise_reverse, List.map_map, List.pairwise_map]
      exact hsort
    exact fun i j hij hj => List.pairwise_iff_getElem.mp this i j _ hj hij
  cases hall : all with
  | nil =>
    rw [List.map_nil, List.map_nil, List.map_nil]
    have e : batchVerify order ([] : List (Claim F))
        = (if (0 : F) ≠ 0 then .fail .incorrectBatchEvaluation
          else .ret ⟨orderChallenges order [], []⟩) := rfl
    rw [e, if_neg (by simp)]
    refine Agree.ret ⟨by cases order <;> rfl, .nil⟩
  | cons first rest =>
    have hfirst : first ∈ all := by rw [hall]; exact List.mem_cons_self ..
    have hmax : ∀ p ∈ all, p.2.claim.nVars ≤ first.2.claim.nVars := by
      intro p hp
      rw [hall] at hp hsort
      rcases List.mem_cons.mp hp with e | hp
      · rw [e]
      · exact (List.pairwise_cons.mp hsort).1 p hp
    have hn : (((all.map fun p => p.2.claim).map fun c => c.nVars).max?).getD 0
        = first.2.claim.nVars := by
      have hb : first.2.claim.nVars ∈ ((all.map fun I => I.2.claim).map fun c => c.nVars) := by
        rw [List.map_map]; exact List.mem_map.mpr ⟨first, hfirst, rfl⟩
      have h := maxVars_spec _ (List.ne_nil_of_mem hb)
      refine Nat.le_antisymm ?_ (h.2 _ hb)
      obtain ⟨c, hc, he⟩ := List.mem_map.mp h.1
      obtain ⟨I, hI, rfl⟩ := List.mem_map.mp hc
      rw [← he]
      exact hmax I hI
    have hany : ((all.map Prod.fst).any fun p =>
        decide (p.evaluationOrder ≠ first.1.evaluationOrder)) = false := by
      rw [List.any_eq_false]
      intro p hp
      obtain ⟨q, hq, rfl⟩ := List.mem_map.mp hp
      simp [(hon q hq).2, (hon first hfirst).2]
    have e : batchProve (all.map Prod.fst) = (pRounds first.2.claim.nVars (all.map Prod.fst) [] []).bind
        fun q => (pRest q.1 q.2.1).bind fun act =>
          (PProg.ofExcept (collect (act.map fun a => a.prover.finish a.folded))).bind fun evals =>
            pWrite evals (.ret ⟨orderChallenges order q.2.2, evals⟩) := by
      rw [← (hon first hfirst).2, ← hn, ← hvars]
      rw [hall] at hany hasc hvars ⊢
      rw [List.map_cons] at hany ⊢
      rw [batchProve, if_neg (by rw [hany]; simp), if_neg]
      rw [← List.map_cons, hvars, hasc]
      simp
    rw [← hall, e]
    unfold batchVerify
    rw [if_neg (by rw [hasc]; simp)]
    simp only [hn]
    have := rounds_agree (nR := first.2.claim.nVars) hon hwf hh first.2.claim.nVars [] all ⟨[], [], 0, 0⟩
      ⟨by simp, by simp, by simp, hsort, hmax, by simp, by simp, by simp [truth, actOf, cube]⟩
      rfl ?_
    · exact this
    · rcases hdeg first (by rw [hall]; rfl) with h | h
      · exact Or.inl h
      · exact Or.inr (Or.inr h)

/-- C29 (completeness). If all claims are true and the provers are honest, then whatever the
challenges, the prover succeeds, the verifier accepts its messages, both return the same output, and
the evaluations in it are correct. (As for soundness, one of the claims with the most variables has
a composition of degree at least 1, see `C29_constant_incomplete`.) -/
theorem C29_completeness_partial (order : EvaluationOrder) (all : List (SumcheckProver F × Instance F))
    (hon : ∀ p ∈ all, Honest p.1 p.2 ∧ p.1.evaluationOrder = order)
    (hwf : ∀ p ∈ all, p.2.WellFormed) (hh : ∀ p ∈ all, p.2.Holds)
    (hsort : all.Pairwise fun p q => q.2.claim.nVars ≤ p.2.claim.nVars)
    (hdeg : ∀ p, all.head? = some p → p.2.claim.nVars = 0 ∨
      ∃ q ∈ all, q.2.claim.nVars = p.2.claim.nVars ∧ 1 ≤ q.2.claim.maxIndividualDegree)
    (chal : Nat → F) :
    let proof := (batchProve (all.map Prod.fst)).run chal
    ∃ out, proof.2 = .ok out ∧
      (batchVerify order (all.map fun p => p.2.claim)).run (fun _ i => proof.1.getD i []) [] 0 chal
        = .ok out ∧
      CorrectEvals order (all.map Prod.snd) out := by
  intro proof
  obtain ⟨a, b, h1, h2, h3, h4⟩ := agree_run (batch_agree order all hon hwf hh hsort hdeg) [] [] chal
  subst h3
  exact ⟨a, h1, h2, h4⟩

/-! ### The hypotheses can be met -/

theorem PolyIn.finSum {d m : Nat} (f : Fin m → List F → F) (hf : ∀ i, PolyIn d (f i)) :
    PolyIn d fun v => ∑ i, f i v := by
  intro l s
  choose Q hq e using fun i => hf i l s
  refine ⟨∑ i, Q i, natDegree_sum_le_of_forall_le _ _ fun i _ => hq i, fun x => ?_⟩
  rw [eval_finsetSum]
  exact Finset.sum_congr rfl fun i _ => e i x

theorem coeffs_eval (Q : F[X]) (d : Nat) (hd : Q.natDegree ≤ d) (x : F) :
    ∑ i : Fin ((List.range (d + 1)).map Q.coeff).length,
      ((List.range (d + 1)).map Q.coeff)[i] * x ^ (i : Nat) = Q.eval x := by
  rw [← C19_evaluate_univariate]
  rw [eval_eq_sum_range' (n := d + 1) (by omega)]
  have : ∀ (m k : Nat) , evaluateUnivariate ((List.range' k m).map Q.coeff) x * x ^ k
      = ∑ i ∈ range m, Q.coeff (k + i) * x ^ (k + i) := by
    intro m
    induction m with
    | zero => intro k; simp [evaluateUnivariate]
    | succ m ih =>
      intro k
      rw [List.range'_succ, List.map_cons, evaluateUnivariate_cons, Finset.sum_range_succ']
      have := ih (k + 1)
      rw [pow_succ] at this
      simp only [Nat.add_zero]
      rw [add_mul, mul_assoc, mul_comm x, this]
      congr 1
      exact Finset.sum_congr rfl fun i _ => by rw [show k + 1 + i = k + (i + 1) by omega]
  have h := this (d + 1) 0
  rw [pow_zero, mul_one] at h
  rw [List.range_eq_range', h]
  simp only [Nat.zero_add]

/-- C29 (the hypotheses of completeness can be met). Every well-formed instance has an honest
prover. -/
theorem C29_honest_exists (order : EvaluationOrder) (I : Instance F) (hI : I.WellFormed) :
    ∃ pr, Honest pr I ∧ pr.evaluationOrder = order := by
  have hp : ∀ (folded : List F) (α : F), PolyIn I.claim.maxIndividualDegree fun v =>
      ∑ i : Fin I.polys.length, α ^ (i : Nat) * gval order I I.polys[i] (folded ++ v) := by
    intro folded α
    refine PolyIn.finSum _ fun i => PolyIn.smul _ ((gval_polyIn order I _ ?_).prefix folded)
    have hl := hI.compositions.length_eq
    have := (List.forall₂_iff_get.mp hI.compositions).2 i (by omega) i.isLt
    exact this.1.degree.trans (degree_le_max (List.get_mem _ _))
  choose Q hQ hQe using fun (folded : List F) (α : F) =>
    (hp folded α).round (n := I.claim.nVars - folded.length - 1)
  refine ⟨⟨I.claim.nVars, order, fun folded α =>
      .ok ((List.range (I.claim.maxIndividualDegree + 1)).map (Q folded α).coeff),
    fun folded => .ok (I.tables.map fun t => mle t (arrange order folded))⟩, ⟨rfl, ?_, ?_⟩, rfl⟩
  · intro folded α _
    refine ⟨_, rfl, by simp, fun x => ?_⟩
    rw [coeffs_eval _ _ (hQ folded α), ← hQe]
    rfl
  · intro folded _
    rfl

/-- The product of two multilinears. -/
def productComposition : Composition F :=
  ⟨2, 2, fun q => match q with
    | [a, b] => .ok (a * b)
    | _ => .error (.incorrectQuerySize 2 q.length)⟩

/-- The claim that `∑ i * (i + 1)` over the two-dimensional hypercube is `sum`. -/
noncomputable def productInstance (sum : F) : Instance F :=
  ⟨⟨2, 2, [⟨productComposition, sum⟩]⟩, [MvPolynomial.X 0 * MvPolynomial.X 1],
    [fun i => (i : F), fun i => (i : F) + 1]⟩

theorem productInstance_wf (sum : F) : (productInstance sum).WellFormed := by
  refine ⟨rfl, .cons ⟨⟨?_, ?_⟩, rfl⟩ .nil⟩
  · intro q hq
    match q, hq with
    | [a, b], _ => simp [productComposition, evalAt]
  · refine (MvPolynomial.totalDegree_mul _ _).trans ?_
    simp [productComposition, MvPolynomial.totalDegree_X]

theorem productInstance_holds (sum : F) : (productInstance sum).Holds ↔ sum = 20 := by
  unfold Instance.Holds productInstance
  simp only [List.forall₂_cons, List.forall₂_nil_left_iff]
  simp [cubeSum, evalAt, Finset.sum_range_succ]
  norm_num

instance : Fact (Nat.Prime 7) := ⟨by norm_num⟩

/-- Soundness for a false claim over the field with seven elements: of the `7 ^ 3` challenge vectors
at most `5 * 7 ^ 2` are bad. -/
example (msg : List (ZMod 7) → Nat → List (ZMod 7)) :
    accepting (CorrectEvals .lowToHigh [productInstance (3 : ZMod 7)]) msg
      (batchVerify .lowToHigh [(productInstance (3 : ZMod 7)).claim]) [] 0 3 * 7 ≤ 5 * 7 ^ 3 := by
  have h := C29_soundness_partial .lowToHigh [productInstance (3 : ZMod 7)]
    (by simp [productInstance_wf]) (productInstance 3) (by simp) (by simp) (Or.inr (show 1 ≤ 2 by omega)) 2
    (by simp [productInstance, Claim.maxIndividualDegree, productComposition])
    ⟨_, List.mem_singleton_self _, fun h =>
      absurd ((productInstance_holds (3 : ZMod 7)).mp h) (by decide)⟩ msg
  simpa [productInstance, ZMod.card] using h

/-- Completeness for a true claim, with an honest prover. -/
example (chal : Nat → ℚ) : ∃ pr : SumcheckProver ℚ, ∃ out,
    ((batchProve [pr]).run chal).2 = .ok out ∧
    (batchVerify .highToLow [(productInstance (20 : ℚ)).claim]).run
      (fun _ i => ((batchProve [pr]).run chal).1.getD i []) [] 0 chal = .ok out := by
  obtain ⟨pr, h1, h2⟩ := C29_honest_exists .highToLow (productInstance (20 : ℚ)) (productInstance_wf _)
  obtain ⟨out, g1, g2, _⟩ := C29_completeness_partial .highToLow [(pr, productInstance (20 : ℚ))]
    (by simp [h1, h2]) (by simp [productInstance_wf]) (by simp [productInstance_holds])
    (by simp) (fun p hp => Or.inr ⟨p, List.mem_of_mem_head? hp, rfl, by
      simp only [List.head?_cons, Option.some.injEq] at hp
      subst hp
      show 1 ≤ 2
      omega⟩) chal
  exact ⟨pr, out, g1, g2⟩

/-- C29 (construction). A claim is constructed, unchanged, exactly when every composition takes as
many arguments as there are multilinears; this is the condition in `Instance.WellFormed`. -/
theorem C29_claim_new (nVars nMultilinears : Nat) (sums : List (CompositeSum F)) :
    (∀ c, Claim.new nVars nMultilinears sums = .ok c ↔
      c = ⟨nVars, nMultilinears, sums⟩ ∧ ∀ s ∈ sums, s.composition.nVars = nMultilinears) := by
  intro c
  unfold Claim.new
  cases h : sums.find? fun s => s.composition.nVars != nMultilinears with
  | some s =>
    have h1 := List.find?_some h
    have h2 := List.mem_of_find?_eq_some h
    simp only [bne_iff_ne, ne_eq] at h1
    simp only [reduceCtorEq, false_iff, not_and, not_forall]
    exact fun _ => ⟨s, h2, h1⟩
  | none =>
    rw [List.find?_eq_none] at h
    simp only [Except.ok.injEq]
    refine ⟨fun e => ⟨e.symm, fun s hs => by simpa using h s hs⟩, fun e => e.1.symm⟩

example : Claim.new 3 2 [⟨productComposition, (5 : ℚ)⟩] = .ok ⟨3, 2, [⟨productComposition, 5⟩]⟩ := rfl

/-- C29 (order). Claims that are not in descending order of their number of variables are refused
before anything is read or sampled. -/
theorem C29_out_of_order (order : EvaluationOrder) (claims : List (Claim F)) :
    batchVerify order claims = .fail .claimsOutOfOrder ↔
      ¬ claims.Pairwise fun c d => d.nVars ≤ c.nVars := by
  have hs : Verif.Sorting.isSortedAscending (claims.map fun c => c.nVars).reverse = true
      ↔ claims.Pairwise fun c d => d.nVars ≤ c.nVars := by
    rw [Verif.Sorting.C03_is_sorted_ascending]
    have e : claims.Pairwise (fun c d => d.nVars ≤ c.nVars)
        ↔ ((claims.map fun c => c.nVars).reverse).Pairwise (· ≤ ·) := by
      rw [List.pairwise_reverse, List.pairwise_map]
    rw [e, List.pairwise_iff_getElem]
    exact ⟨fun h i j _ hj hij => h i j hij hj, fun h i j hij hj => h i j _ hj hij⟩
  rw [← hs]
  constructor
  · intro h hsort
    unfold batchVerify at h
    rw [if_neg (by rw [hsort]; simp)] at h
    have never : ∀ (n : Nat) (cs : List (Claim F)) (s : St F),
        (rounds n cs s).bind (fun q => finish order claims q.1 q.2) ≠ .fail .claimsOutOfOrder := by
      intro n cs s
      cases n with
      | zero =>
        show finish order claims cs s ≠ _
        cases cs with
        | nil =>
          cases claims with
          | nil =>
            have e : expectedMulti (0 : F) s.batchCoeffs [] [] = .ok 0 := by
              cases s.batchCoeffs <;> rfl
            simp only [finish, activateRest, readEvals, Prog.bind, e, Prog.ofExcept]
            split <;> simp
          | cons c cs => simp [finish, activateRest, readEvals, Prog.bind]
        | cons c cs =>
          unfold finish activateRest
          split <;> simp [Prog.bind]
      | succ n =>
        rw [rounds, Verif.Protocol.bind_assoc]
        cases cs with
        | nil => simp [activate, Prog.bind]
        | cons c cs =>
          rw [activate]
          split <;> simp [Prog.bind]
    exact never _ _ _ h
  · intro h
    unfold batchVerify
    rw [if_pos (by simpa using h)]

/-! ### Constant compositions -/

/-- The constant `c` as a composition of no multilinears, of degree 0. -/
def constComposition (c : F) : Composition F := ⟨0, 0, fun _ => .ok c⟩

/-- The claim that the constant `c` sums to `sum` over the one-dimensional hypercube. -/
noncomputable def constInstance (c sum : F) : Instance F :=
  ⟨⟨1, 0, [⟨constComposition c, sum⟩]⟩, [MvPolynomial.C c], []⟩

theorem constInstance_wf (c sum : F) : (constInstance c sum).WellFormed :=
  ⟨rfl, .cons ⟨⟨fun q _ => by simp [constComposition, evalAt], by simp⟩, rfl⟩ .nil⟩

theorem constInstance_holds (c sum : F) : (constInstance c sum).Holds ↔ sum = c + c := by
  unfold Instance.Holds constInstance
  simp only [List.forall₂_cons, List.forall₂_nil_left_iff]
  simp [cubeSum, evalAt]
  ring_nf

theorem const_run (order : EvaluationOrder) (c sum : F) (msg : List F → Nat → List F)
    (chal : Nat → F) :
    (batchVerify order [(constInstance c sum).claim]).run msg [] 0 chal
      = if chal 0 * sum = chal 0 * c then .ok ⟨[chal 1], [[]]⟩
        else .error (.rejected .incorrectBatchEvaluation) := by
  have hmax : (([(constInstance c sum).claim].map fun c => c.nVars).max?).getD 0 = 1 := rfl
  have hsort : Verif.Sorting.isSortedAscending
    ([(constInstance c sum).claim].map fun c => c.nVars).reverse = true := rfl
  unfold batchVerify
  rw [if_neg (by rw [hsort]; simp)]
  simp only [hmax]
  have hd : (constInstance c sum).claim.maxIndividualDegree = 0 := rfl
  have hv : (constInstance c sum).claim.nVars = 1 := rfl
  have hs : (constInstance c sum).claim.sums = [⟨constComposition c, sum⟩] := rfl
  have hm : (constInstance c sum).claim.nMultilinears = 0 := rfl
  have hbw : ∀ a v : F, batchWeightedValue a [v] = a * v := fun a v => by
    rw [bwv_cons, bwv_nil, add_zero]
  simp only [rounds, activate, hv, Prog.bind, ne_eq, not_true_eq_false, if_false, Prog.run,
    finish, activateRest, readEvals, hm, hd, hs, List.map_cons, List.map_nil, hbw, zero_add,
    Nat.max_self, Nat.not_lt_zero, List.take_zero, List.nil_append, expectedMulti, expectedSingle,
    collect, constComposition, Prog.ofExcept, interpolateRoundProof, recover, List.sum_nil, sub_zero,
    evaluateUnivariate, List.foldr_cons, List.foldr_nil, zero_mul]
  by_cases h : chal 0 * sum = chal 0 * c
  · simp only [h, not_true_eq_false, if_false, if_true, Prog.run]
    cases order <;> rfl
  · simp only [h, not_false_eq_true, if_true, if_false, Prog.run]

/-- C29 (the case that fails, soundness). For a nonzero constant `c` the false claim that its sum
over the one-dimensional hypercube is `c` (it is `2c`) is accepted, for all challenges and provers. -/
theorem C29_constant_unsound (order : EvaluationOrder) (c : F) (hc : c ≠ 0)
    (msg : List F → Nat → List F) (chal : Nat → F) :
    ¬ (constInstance c c).Holds ∧
    ∃ out, (batchVerify order [(constInstance c c).claim]).run msg [] 0 chal = .ok out ∧
      CorrectEvals order [constInstance c c] out := by
  refine ⟨fun h => hc (by simpa using (constInstance_holds c c).mp h), ⟨[chal 1], [[]]⟩, ?_, ?_⟩
  · rw [const_run, if_pos rfl]
  · exact .cons rfl .nil

/-- C29 (the case that fails, completeness). The true claim about the same constant is rejected,
whatever the prover sends, unless the batching coefficient is zero. -/
theorem C29_constant_incomplete (order : EvaluationOrder) (c : F) (hc : c ≠ 0)
    (msg : List F → Nat → List F) (chal : Nat → F) (h0 : chal 0 ≠ 0) :
    (constInstance c (c + c)).Holds ∧
    (batchVerify order [(constInstance c (c + c)).claim]).run msg [] 0 chal
      = .error (.rejected .incorrectBatchEvaluation) := by
  refine ⟨(constInstance_holds c _).mpr rfl, ?_⟩
  rw [const_run, if_neg]
  intro h
  exact hc (by simpa using mul_left_cancel₀ h0 h)

end Verif.Sumcheck
