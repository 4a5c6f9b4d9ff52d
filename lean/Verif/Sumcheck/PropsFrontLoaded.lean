import Verif.Sumcheck.LemmasFrontComplete
import Verif.Sumcheck.PropsSumcheck

/-!
# C52: the front-loaded batched sumcheck
-/

namespace Verif.Sumcheck

open Verif.Mle Verif.Protocol Verif.Univariate Finset Polynomial

set_option linter.unusedSectionVars false

variable {F : Type} [Field F] [DecidableEq F]

/-! ## The initial state -/

theorem spread_claims {R : ClaimWithContext F → F × Instance F → Prop}
    (hR : ∀ c a m, R c a → R { c with maxDegreeRemaining := m } a)
    (cs : List (ClaimWithContext F)) (pend : List (F × Instance F)) (h : List.Forall₂ R cs pend) :
    List.Forall₂ R (spreadMaxDegree cs) pend := by
  induction h with
  | nil => exact .nil
  | @cons c a cs pend h1 h2 ih =>
    rw [spreadMaxDegree]
    cases hs : spreadMaxDegree cs with
    | nil =>
      rw [hs] at ih
      exact .cons h1 ih
    | cons d ds =>
      rw [hs] at ih
      exact .cons (hR _ _ _ h1) ih

theorem spread_deg (D : Nat) (cs : List (ClaimWithContext F))
    (h1 : ∀ c ∈ cs, c.maxDegreeRemaining = c.claim.maxIndividualDegree)
    (h2 : ∀ c ∈ cs, c.claim.maxIndividualDegree ≤ D) : DegOK D (spreadMaxDegree cs) := by
  induction cs with
  | nil => trivial
  | cons c cs ih =>
    have ih := ih (fun d hd => h1 d (List.mem_cons_of_mem _ hd)) fun d hd => h2 d (List.mem_cons_of_mem _ hd)
    have hc := h1 c (List.mem_cons_self ..)
    have hD := h2 c (List.mem_cons_self ..)
    rw [spreadMaxDegree]
    cases hs : spreadMaxDegree cs with
    | nil =>
      refine ⟨fun d hd => ?_, hc.trans_le hD, trivial⟩
      rw [List.mem_singleton.mp hd, hc]
    | cons d ds =>
      rw [hs] at ih
      refine ⟨fun e he => ?_, Nat.max_le.mpr ⟨hc.trans_le hD, ih.2.1⟩, ih⟩
      rcases List.mem_cons.mp he with rfl | he
      · exact (Nat.le_of_eq hc.symm).trans (Nat.le_max_left _ _)
      · exact (ih.1 e he).trans (Nat.le_max_right _ _)

theorem bwv_eq_sum {A : Type} (a : F) (l : List A) (f : A → F) :
    batchWeightedValue a (l.map f) = ∑ k : Fin l.length, a ^ ((k : Nat) + 1) * f l[k] := by
  rw [batchWeightedValue, innerPowers_map, Finset.mul_sum]
  refine Finset.sum_congr rfl fun i _ => ?_
  rw [pow_succ]
  ring

theorem ftruth_nil (order : EvaluationOrder) (pend : List (F × Instance F)) :
    ftruth order pend [] = (pend.map fun a => batchWeightedValue a.1 a.2.trues).sum := by
  unfold ftruth Instance.trues
  congr 1
  refine List.map_congr_left fun a _ => ?_
  congr 1
  refine List.map_congr_left fun p _ => ?_
  exact cube_gval order a.2 p a.2.claim.nVars

theorem batchedTruth_eq (pend : List (F × Instance F)) :
    batchedTruth pend = (pend.map fun a => batchWeightedValue a.1 a.2.trues).sum := by
  unfold batchedTruth Instance.trues
  congr 1
  refine List.map_congr_left fun a _ => ?_
  rw [bwv_eq_sum]

theorem asc_iff (ns : List Nat) :
    Verif.Sorting.isSortedAscending ns = true ↔ ns.Pairwise (· ≤ ·) := by
  rw [Verif.Sorting.C03_is_sorted_ascending, List.pairwise_iff_getElem]
  exact ⟨fun h i j _ hj hij => h i j hij hj, fun h i j hij hj => h i j _ hj hij⟩

theorem getLast_nVars {cs : List (ClaimWithContext F)} {pend : List (F × Instance F)}
    (h : List.Forall₂ (fun (c : ClaimWithContext F) (a : F × Instance F) =>
      c.claim = a.2.claim ∧ c.batchCoeff = a.1) cs pend)
    (hs : pend.Pairwise fun a b => a.2.claim.nVars ≤ b.2.claim.nVars)
    {big : F × Instance F} (hb : big ∈ pend) (hmax : ∀ a ∈ pend, a.2.claim.nVars ≤ big.2.claim.nVars)
    (r : Nat) (l : CoeffsOrSum F) :
    (⟨cs, r, l⟩ : BatchVerifier F).totalRounds = big.2.claim.nVars := by
  have hne : pend ≠ [] := List.ne_nil_of_mem hb
  have hl := h.length_eq
  have hpos := List.length_pos_of_mem hb
  have hcs : cs ≠ [] := by rintro rfl; simp at hl; omega
  unfold BatchVerifier.totalRounds
  simp only
  rw [List.getLast?_eq_some_getLast hcs]
  simp only
  have hg := (List.forall₂_iff_get.mp h).2 (cs.length - 1) (by omega) (by omega)
  rw [List.getLast_eq_getElem]
  rw [List.get_eq_getElem, List.get_eq_getElem] at hg
  rw [hg.1]
  refine Nat.le_antisymm (hmax _ (List.getElem_mem _)) ?_
  obtain ⟨i, hi, rfl⟩ := List.getElem_of_mem hb
  rcases Nat.lt_or_ge i (cs.length - 1) with hlt | hge
  · exact List.pairwise_iff_getElem.mp hs i _ _ _ hlt
  · simp only [show i = cs.length - 1 by omega]; exact Nat.le_refl _

theorem zip_forall₂ (pend : List (F × Instance F)) :
    List.Forall₂ (fun (c : ClaimWithContext F) (a : F × Instance F) =>
      c.claim = a.2.claim ∧ c.batchCoeff = a.1)
      (List.zipWith (fun claim coeff => ⟨claim, coeff, claim.maxIndividualDegree⟩)
        (pend.map fun a => a.2.claim) (pend.map Prod.fst)) pend := by
  induction pend with
  | nil => exact .nil
  | cons a pend ih => exact .cons ⟨rfl, rfl⟩ ih

/-- From any constructed verifier, a wrong batched sum is hard to defend. -/
theorem prebatched_err (order : EvaluationOrder) (pend : List (F × Instance F))
    (hwf : ∀ a ∈ pend, a.2.WellFormed)
    (big : F × Instance F) (hbig : big ∈ pend)
    (hmax : ∀ a ∈ pend, a.2.claim.nVars ≤ big.2.claim.nVars)
    (hdeg : big.2.claim.nVars = 0 ∨ 1 ≤ big.2.claim.maxIndividualDegree)
    (D : Nat) (hD : ∀ a ∈ pend, a.2.claim.maxIndividualDegree ≤ D) (sum : F)
    (hne : sum ≠ (pend.map fun a => batchWeightedValue a.1 a.2.trues).sum) :
    SoundErr (FrontCorrectEvals order (pend.map Prod.snd))
      ((Prog.ofExcept (newPrebatched (pend.map Prod.fst) sum (pend.map fun a => a.2.claim))).bind
        fun v => v.run) (big.2.claim.nVars * D) := by
  rw [ofExcept_bind]
  unfold newPrebatched
  by_cases hs : Verif.Sorting.isSortedAscending ((pend.map fun a => a.2.claim).map fun c => c.nVars) = false
  · rw [if_pos hs]; exact .fail
  · rw [if_neg hs, if_neg (by simp)]
    simp only
    have hsorted : pend.Pairwise fun a b => a.2.claim.nVars ≤ b.2.claim.nVars := by
      rw [Bool.not_eq_false, asc_iff, List.map_map, List.pairwise_map] at hs
      exact hs
    have hcl := spread_claims (fun c a m h => h) _ _ (zip_forall₂ pend)
    unfold BatchVerifier.run
    rw [getLast_nVars hcl hsorted hbig hmax]
    refine runRounds_err (D := D) (nR := big.2.claim.nVars) (order := order) ?_ _ [] pend [] [] sum _
      (by simp) ⟨by simp, rfl, rfl, rfl, hcl, ?_, hsorted, ?_, ?_⟩ (Or.inl ?_)
    · intro I hI
      obtain ⟨a, ha, rfl⟩ := List.mem_map.mp hI
      exact hwf a ha
    · refine spread_deg D _ ?_ ?_
      · intro c hc
        rw [List.zipWith_map] at hc
        obtain ⟨i, hi, rfl⟩ := List.getElem_of_mem hc
        simp
      · intro c hc
        rw [List.zipWith_map] at hc
        obtain ⟨i, hi, rfl⟩ := List.getElem_of_mem hc
        rw [List.getElem_zipWith]
        exact hD _ (List.getElem_mem _)
    · exact fun a ha => ⟨Nat.zero_le _, hmax a ha⟩
    · intro h
      simp only [List.length_nil] at h
      rcases hdeg with e | e
      · omega
      · exact ⟨big, hbig, rfl, e⟩
    · rw [ftruth_nil]; exact hne

/-! ## How many challenges are sampled -/

theorem samplesLe_finishReady {A : Type} (fuel N : Nat) (v : BatchVerifier F)
    (k : List (List F) × BatchVerifier F → P F A) (hk : ∀ q, (k q).SamplesLe N) :
    ((finishReady fuel v).bind k).SamplesLe N := by
  induction fuel generalizing v k with
  | zero => trivial
  | succ fuel ih =>
    rw [finishReady, Verif.Protocol.bind_assoc]
    unfold BatchVerifier.tryFinishClaim
    cases v.claims with
    | nil => exact hk _
    | cons c cs =>
      simp only
      split
      · intro m
        cases v.last with
        | coeffs _ => trivial
        | sum s =>
          simp only
          cases expectedSingle c.batchCoeff c.claim m with
          | error e => trivial
          | ok e =>
            simp only [Prog.bind]
            rw [Verif.Protocol.bind_assoc]
            exact ih _ _ fun q => hk _
      · split
        · trivial
        · exact hk _

theorem samplesLe_runRounds {A : Type} (n N : Nat) (v : BatchVerifier F) (evs : List (List F))
    (chs : List F) (k : BatchVerifier F × List (List F) × List F → P F A)
    (hk : ∀ q, (k q).SamplesLe N) : ((runRounds n v evs chs).bind k).SamplesLe (n + N) := by
  induction n generalizing v evs chs with
  | zero => rw [Nat.zero_add]; exact hk _
  | succ n ih =>
    rw [runRounds, Verif.Protocol.bind_assoc]
    refine samplesLe_finishReady _ _ v _ fun q => ?_
    rw [Verif.Protocol.bind_assoc, show n + 1 + N = (n + N) + 1 by omega]
    have hr : ∀ v : BatchVerifier F, ((Prog.sample fun challenge =>
        (Prog.ofExcept (v.finishRound challenge)).bind fun v =>
          runRounds n v (evs ++ q.1) (chs ++ [challenge])).bind k).SamplesLe (n + N + 1) := by
      intro v x
      show (((Prog.ofExcept (v.finishRound x)).bind fun v =>
          runRounds n v (evs ++ q.1) (chs ++ [x])).bind k).SamplesLe (n + N)
      rw [ofExcept_bind]
      cases v.finishRound x with
      | error e => trivial
      | ok v => exact ih _ _ _
    unfold BatchVerifier.receiveRoundProof
    cases q.2.last with
    | coeffs _ => trivial
    | sum s =>
      simp only
      cases q.2.claims with
      | nil => exact fun m => hr _
      | cons c cs =>
        simp only
        split
        · trivial
        · exact fun m => hr _

theorem samplesLe_run (v : BatchVerifier F) : v.run.SamplesLe v.totalRounds := by
  unfold BatchVerifier.run
  have := samplesLe_runRounds v.totalRounds 0 v [] [] (fun q =>
    (finishReady (q.1.claims.length + 1) q.1).bind fun r =>
      (Prog.ofExcept r.2.finish).bind fun _ =>
        (.ret ⟨q.2.2, q.2.1 ++ r.1⟩ : P F (Output F))) fun q => by
    refine samplesLe_finishReady _ _ _ _ fun r => ?_
    rw [ofExcept_bind]
    cases r.2.finish <;> trivial
  simpa using this

theorem samplesLe_prebatched (pend : List (F × Instance F)) (sum : F)
    (big : F × Instance F) (hbig : big ∈ pend)
    (hmax : ∀ a ∈ pend, a.2.claim.nVars ≤ big.2.claim.nVars) :
    ((Prog.ofExcept (newPrebatched (pend.map Prod.fst) sum (pend.map fun a => a.2.claim))).bind
        fun v => v.run).SamplesLe big.2.claim.nVars := by
  rw [ofExcept_bind]
  unfold newPrebatched
  by_cases hs : Verif.Sorting.isSortedAscending ((pend.map fun a => a.2.claim).map fun c => c.nVars) = false
  · rw [if_pos hs]; trivial
  · rw [if_neg hs, if_neg (by simp)]
    simp only
    have hsorted : pend.Pairwise fun a b => a.2.claim.nVars ≤ b.2.claim.nVars := by
      rw [Bool.not_eq_false, asc_iff, List.map_map, List.pairwise_map] at hs
      exact hs
    have hcl := spread_claims (fun c a m h => h) _ _ (zip_forall₂ pend)
    have h := samplesLe_run (⟨spreadMaxDegree (List.zipWith
        (fun claim coeff => ⟨claim, coeff, claim.maxIndividualDegree⟩)
        (pend.map fun a => a.2.claim) (pend.map Prod.fst)), 0, .sum sum⟩ : BatchVerifier F)
    rw [getLast_nVars hcl hsorted hbig hmax] at h
    exact h

theorem sampleVec_err {A : Type} {good : A → Prop} (ε : Nat) (k : List F → P F A)
    (Is : List (Instance F)) (hwf : ∀ I ∈ Is, I.WellFormed) (sum t : F)
    (hbad : sum ≠ t ∨ ∃ I ∈ Is, ¬ I.Holds)
    (hk : ∀ cs, cs.length = Is.length →
      sum + (List.zipWith (fun (I : Instance F) c => batchWeightedValue c I.claimed) Is cs).sum
        ≠ t + (List.zipWith (fun (I : Instance F) c => batchWeightedValue c I.trues) Is cs).sum →
      SoundErr good (k cs) ε) :
    SoundErr good ((sampleVec Is.length).bind k)
      (ε + (Is.map fun I => I.claim.sums.length).sum) := by
  induction Is generalizing k sum t with
  | nil =>
    rcases hbad with h | ⟨I, hI, _⟩
    · refine hk [] rfl ?_
      simpa using h
    · simp at hI
  | cons I Is ih =>
    rw [List.length_cons, sampleVec]
    simp only [Prog.bind]
    have hwf' : ∀ J ∈ Is, J.WellFormed := fun J hJ => hwf J (List.mem_cons_of_mem _ hJ)
    have hrest : ∀ a, (sum + batchWeightedValue a I.claimed ≠ t + batchWeightedValue a I.trues
          ∨ ∃ J ∈ Is, ¬ J.Holds) →
        SoundErr good (((sampleVec Is.length).bind fun xs => Prog.ret (a :: xs)).bind k)
          (ε + (Is.map fun I => I.claim.sums.length).sum) := by
      intro a ha
      rw [Verif.Protocol.bind_assoc]
      refine ih _ hwf' _ _ ha fun cs hcs hne => hk (a :: cs) (by simp [hcs]) ?_
      rw [List.zipWith_cons_cons, List.zipWith_cons_cons, List.sum_cons, List.sum_cons,
        ← add_assoc, ← add_assoc]
      exact hne
    by_cases hI : sum ≠ t ∨ ¬ I.Holds
    · obtain ⟨bad, hc, hb⟩ := batch_bad (hwf I (List.mem_cons_self ..)) sum t hI
      refine .sample bad hc ?_ fun a ha => hrest a (Or.inl (hb a ha))
      rw [List.map_cons, List.sum_cons]
      omega
    · simp only [not_or, not_not] at hI
      refine (SoundErr.sample0 fun a => hrest a (Or.inr ?_)).mono (by
        rw [List.map_cons, List.sum_cons]; omega)
      rcases hbad with h | ⟨J, hJ, hf⟩
      · exact absurd hI.1 h
      · rcases List.mem_cons.mp hJ with rfl | hJ
        · exact absurd hI.2 hf
        · exact ⟨J, hJ, hf⟩

theorem samplesLe_sampleVec {A : Type} (n N : Nat) (k : List F → P F A)
    (hk : ∀ cs, cs.length = n → (k cs).SamplesLe N) : ((sampleVec n).bind k).SamplesLe (n + N) := by
  induction n generalizing k with
  | zero => rw [Nat.zero_add]; exact hk [] rfl
  | succ n ih =>
    rw [show n + 1 + N = (n + N) + 1 by omega, sampleVec]
    intro a
    show (((sampleVec n).bind fun xs => Prog.ret (a :: xs)).bind k).SamplesLe (n + N)
    rw [Verif.Protocol.bind_assoc]
    exact ih _ fun cs hcs => hk (a :: cs) (by simp [hcs])

/-! ## C52 -/

/-- C52 (soundness, given batching coefficients). If the batched sum handed to the verifier is not
`∑_j ∑_k α_j^(k+1) s_{j,k}` for the true sums `s_{j,k}`, then whatever the prover does, at most a
fraction `n * D / |F|` of the challenge vectors makes the verifier accept with correct evaluations
(`n` rounds, degrees at most `D`). It holds for either convention about the order in which the
coordinates are bound.

Missing from the full statement: one of the claims with the most variables has degree at least 1, see
`C52_constant_unsound`. -/
theorem C52_prebatched_soundness_partial [Fintype F] (order : EvaluationOrder)
    (pairs : List (F × Instance F)) (hwf : ∀ a ∈ pairs, a.2.WellFormed)
    (big : F × Instance F) (hbig : big ∈ pairs)
    (hmax : ∀ a ∈ pairs, a.2.claim.nVars ≤ big.2.claim.nVars)
    (hdeg : big.2.claim.nVars = 0 ∨ 1 ≤ big.2.claim.maxIndividualDegree)
    (D : Nat) (hD : ∀ a ∈ pairs, a.2.claim.maxIndividualDegree ≤ D) (sum : F)
    (hne : sum ≠ batchedTruth pairs) (msg : List F → Nat → List F) :
    let n := big.2.claim.nVars
    accepting (FrontCorrectEvals order (pairs.map Prod.snd)) msg
        ((Prog.ofExcept (newPrebatched (pairs.map Prod.fst) sum (pairs.map fun a => a.2.claim))).bind
          fun v => v.run) [] 0 n * Fintype.card F
      ≤ n * D * Fintype.card F ^ n :=
  soundErr_count (prebatched_err order pairs hwf big hbig hmax hdeg D hD sum
    (by rw [← batchedTruth_eq]; exact hne)) msg _ (samplesLe_prebatched pairs sum big hbig hmax) [] 0

/-- A false claim is hard to defend. -/
theorem frontLoaded_err (order : EvaluationOrder) (all : List (Instance F))
    (hwf : ∀ I ∈ all, I.WellFormed)
    (big : Instance F) (hbig : big ∈ all) (hmax : ∀ I ∈ all, I.claim.nVars ≤ big.claim.nVars)
    (hdeg : big.claim.nVars = 0 ∨ 1 ≤ big.claim.maxIndividualDegree)
    (D : Nat) (hD : ∀ I ∈ all, I.claim.maxIndividualDegree ≤ D)
    (hfalse : ∃ I ∈ all, ¬ I.Holds) :
    SoundErr (FrontCorrectEvals order all)
      ((newBatchVerifier (all.map fun I => I.claim)).bind fun v => v.run)
      (big.claim.nVars * D + (all.map fun I => I.claim.sums.length).sum) := by
  have hpairs : ∀ cs : List F, cs.length = all.length →
      (cs.zip all).map Prod.fst = cs ∧ (cs.zip all).map Prod.snd = all ∧
      ((cs.zip all).map fun a => a.2.claim) = all.map fun I => I.claim := by
    intro cs hcs
    have h2 : (cs.zip all).map Prod.snd = all := List.map_snd_zip (by omega)
    refine ⟨List.map_fst_zip (by omega), h2, ?_⟩
    conv_rhs => rw [← h2, List.map_map]
    rfl
  have hbigp : ∀ cs : List F, cs.length = all.length → ∃ b ∈ cs.zip all, b.2 = big := by
    intro cs hcs
    have := hbig
    rw [← (hpairs cs hcs).2.1] at this
    obtain ⟨b, hb, e⟩ := List.mem_map.mp this
    exact ⟨b, hb, e⟩
  have hin : ∀ cs : List F, ∀ a ∈ cs.zip all, a.2 ∈ all := fun cs a ha => (List.of_mem_zip ha).2
  have hzip : ∀ (f : F → Instance F → F) (cs : List F),
      ((cs.zip all).map fun a => f a.1 a.2).sum = (List.zipWith (fun I c => f c I) all cs).sum := by
    intro f cs
    generalize all = l
    induction cs generalizing l with
    | nil => cases l <;> simp
    | cons c cs ih =>
      cases l with
      | nil => simp
      | cons I l => simp [ih]
  unfold newBatchVerifier
  rw [Verif.Protocol.bind_assoc, List.length_map]
  refine sampleVec_err _ _ all hwf 0 0 (Or.inr hfalse) fun cs hcs hne => ?_
  obtain ⟨h1, h2, h3⟩ := hpairs cs hcs
  obtain ⟨b, hb, he⟩ := hbigp cs hcs
  have := prebatched_err order (cs.zip all) (fun a ha => hwf _ (hin cs a ha)) b hb
    (fun a ha => by rw [he]; exact hmax _ (hin cs a ha)) (by rw [he]; exact hdeg) D
    (fun a ha => hD _ (hin cs a ha))
    (List.zipWith (fun (claim : Claim F) coeff =>
      batchWeightedValue coeff (claim.sums.map fun s => s.sum)) (all.map fun I => I.claim) cs).sum ?_
  · rw [h1, h2, h3, he] at this
    exact this
  · rw [hzip (fun c I => batchWeightedValue c I.trues), List.zipWith_map_left]
    simpa [Instance.claimed] using hne

/-- The number of challenges. -/
theorem frontLoaded_samples (all : List (Instance F)) (big : Instance F) (hbig : big ∈ all)
    (hmax : ∀ I ∈ all, I.claim.nVars ≤ big.claim.nVars) :
    ((newBatchVerifier (all.map fun I => I.claim)).bind fun v => v.run).SamplesLe
      (all.length + big.claim.nVars) := by
  have hpairs : ∀ cs : List F, cs.length = all.length →
      (cs.zip all).map Prod.fst = cs ∧ (cs.zip all).map Prod.snd = all ∧
      ((cs.zip all).map fun a => a.2.claim) = all.map fun I => I.claim := by
    intro cs hcs
    have h2 : (cs.zip all).map Prod.snd = all := List.map_snd_zip (by omega)
    refine ⟨List.map_fst_zip (by omega), h2, ?_⟩
    conv_rhs => rw [← h2, List.map_map]
    rfl
  have hbigp : ∀ cs : List F, cs.length = all.length → ∃ b ∈ cs.zip all, b.2 = big := by
    intro cs hcs
    have := hbig
    rw [← (hpairs cs hcs).2.1] at this
    obtain ⟨b, hb, e⟩ := List.mem_map.mp this
    exact ⟨b, hb, e⟩
  have hin : ∀ cs : List F, ∀ a ∈ cs.zip all, a.2 ∈ all := fun cs a ha => (List.of_mem_zip ha).2
  unfold newBatchVerifier
  rw [Verif.Protocol.bind_assoc, List.length_map]
  refine samplesLe_sampleVec _ _ _ fun cs hcs => ?_
  obtain ⟨h1, h2, h3⟩ := hpairs cs hcs
  obtain ⟨b, hb, he⟩ := hbigp cs hcs
  have := samplesLe_prebatched (cs.zip all) (List.zipWith (fun (claim : Claim F) coeff =>
      batchWeightedValue coeff (claim.sums.map fun s => s.sum)) (all.map fun I => I.claim) cs).sum b hb
    (fun a ha => by rw [he]; exact hmax _ (hin cs a ha))
  rw [h1, h3, he] at this
  exact this

/-- C52 (soundness). If some claim is false, then whatever the prover does, at most a fraction
`(n * D + k) / |F|` of the challenge vectors makes the verifier accept with correct evaluations
(`n` rounds, degrees at most `D`, `k` composite sums claimed).

Missing from the full statement: as for `C52_prebatched_soundness_partial`. -/
theorem C52_soundness_partial [Fintype F] (order : EvaluationOrder) (all : List (Instance F))
    (hwf : ∀ I ∈ all, I.WellFormed)
    (big : Instance F) (hbig : big ∈ all) (hmax : ∀ I ∈ all, I.claim.nVars ≤ big.claim.nVars)
    (hdeg : big.claim.nVars = 0 ∨ 1 ≤ big.claim.maxIndividualDegree)
    (D : Nat) (hD : ∀ I ∈ all, I.claim.maxIndividualDegree ≤ D)
    (hfalse : ∃ I ∈ all, ¬ I.Holds) (msg : List F → Nat → List F) :
    let N := all.length + big.claim.nVars
    accepting (FrontCorrectEvals order all) msg
        ((newBatchVerifier (all.map fun I => I.claim)).bind fun v => v.run) [] 0 N * Fintype.card F
      ≤ (big.claim.nVars * D + (all.map fun I => I.claim.sums.length).sum) * Fintype.card F ^ N :=
  soundErr_count (frontLoaded_err order all hwf big hbig hmax hdeg D hD hfalse) msg _
    (frontLoaded_samples all big hbig hmax) [] 0

/-- Two false claims of different sizes, over the field with seven elements. -/
example (msg : List (ZMod 7) → Nat → List (ZMod 7)) :
    accepting (FrontCorrectEvals .highToLow [constInstance (3 : ZMod 7) 1, productInstance (3 : ZMod 7)])
      msg ((newBatchVerifier ([constInstance (3 : ZMod 7) 1, productInstance 3].map fun I => I.claim)).bind
        fun v => v.run) [] 0 4 * 7 ≤ 6 * 7 ^ 4 := by
  have h := C52_soundness_partial .highToLow [constInstance (3 : ZMod 7) 1, productInstance (3 : ZMod 7)]
    (by simp [productInstance_wf, constInstance_wf]) (productInstance 3) (by simp)
    (by simp [constInstance, productInstance]) (Or.inr (show 1 ≤ 2 by omega)) 2
    (by simp [productInstance, constInstance, constComposition, Claim.maxIndividualDegree, productComposition])
    ⟨_, List.mem_cons_of_mem _ (List.mem_singleton_self _), fun h =>
      absurd ((productInstance_holds (3 : ZMod 7)).mp h) (by decide)⟩ msg
  simpa [productInstance, constInstance, ZMod.card] using h

theorem spread_degEq (cs : List (ClaimWithContext F))
    (h1 : ∀ c ∈ cs, c.maxDegreeRemaining = c.claim.maxIndividualDegree) :
    DegEq (spreadMaxDegree cs) ∧ (spreadMaxDegree cs).map (fun c => c.claim) = cs.map fun c => c.claim := by
  induction cs with
  | nil => exact ⟨trivial, rfl⟩
  | cons c cs ih =>
    obtain ⟨ih1, ih2⟩ := ih fun d hd => h1 d (List.mem_cons_of_mem _ hd)
    have hc := h1 c (List.mem_cons_self ..)
    rw [spreadMaxDegree]
    cases hs : spreadMaxDegree cs with
    | nil =>
      rw [hs] at ih2
      refine ⟨⟨by simp [hc], trivial⟩, ?_⟩
      rw [List.map_cons, List.map_cons, ← ih2]
    | cons d ds =>
      rw [hs] at ih1 ih2
      refine ⟨⟨?_, ih1⟩, ?_⟩
      · show max c.maxDegreeRemaining d.maxDegreeRemaining = _
        rw [hc, ih1.1]
        rfl
      · rw [List.map_cons, List.map_cons (l := cs), ← ih2]

/-- Prover and verifier run in step from the same batching coefficients. -/
theorem prebatched_agree (order : EvaluationOrder) (all : List (Item F))
    (hon : ∀ a ∈ all, Honest a.prover a.inst ∧ a.prover.evaluationOrder = order)
    (hwf : ∀ a ∈ all, a.inst.WellFormed)
    (hsort : all.Pairwise fun a b => a.inst.claim.nVars ≤ b.inst.claim.nVars)
    (big : Item F) (hbig : big ∈ all) (hmax : ∀ a ∈ all, a.inst.claim.nVars ≤ big.inst.claim.nVars)
    (hdeg : big.inst.claim.nVars = 0 ∨ 1 ≤ big.inst.claim.maxIndividualDegree) (sum : F)
    (hsum : sum = (all.map fun a => batchWeightedValue a.coeff a.inst.trues).sum) :
    Agree (fun o o' => o = o' ∧ FrontCorrectEvals order (all.map Item.inst) o)
      (provePrebatched (all.map Item.coeff) (all.map Item.prover))
      ((Prog.ofExcept (newPrebatched (all.map Item.coeff) sum (all.map fun a => a.inst.claim))).bind
        fun v => v.run) := by
  have hasc : Verif.Sorting.isSortedAscending ((all.map fun a => a.inst.claim).map fun c => c.nVars) = true := by
    rw [asc_iff, List.map_map, List.pairwise_map]
    exact hsort
  have hvars : (all.map Item.prover).map (fun p => p.nVars)
      = (all.map fun a => a.inst.claim).map fun c => c.nVars := by
    rw [List.map_map, List.map_map]
    exact List.map_congr_left fun p hp => (hon p hp).1.nVars
  have hne : all ≠ [] := List.ne_nil_of_mem hbig
  have hlast : proverRounds (all.map Item.prover) = big.inst.claim.nVars := by
    unfold proverRounds
    rw [List.getLast?_map, List.getLast?_eq_some_getLast hne]
    simp only [Option.map_some]
    rw [(hon _ (List.getLast_mem hne)).1.nVars]
    refine Nat.le_antisymm (hmax _ (List.getLast_mem hne)) ?_
    obtain ⟨i, hi, rfl⟩ := List.getElem_of_mem hbig
    rw [List.getLast_eq_getElem]
    rcases Nat.lt_or_ge i (all.length - 1) with hlt | hge
    · exact List.pairwise_iff_getElem.mp hsort i _ _ _ hlt
    · simp only [show i = all.length - 1 by omega]; exact Nat.le_refl _
  have hany : mixedOrders (all.map Item.prover) = false := by
    unfold mixedOrders
    rw [List.head?_map, List.head?_eq_some_head hne]
    simp only [Option.map_some]
    rw [List.any_eq_false]
    intro p hp
    obtain ⟨q, hq, rfl⟩ := List.mem_map.mp hp
    simp [(hon q hq).2, (hon _ (List.head_mem hne)).2]
  have hzip : (all.map Item.prover).zip (all.map Item.coeff) = all.map Item.pc := by
    rw [List.zip_map']
    rfl
  have hpc : all.map Item.coeff = (all.map Item.ci).map Prod.fst := by rw [List.map_map]; rfl
  have hic : (all.map fun a => a.inst.claim) = (all.map Item.ci).map fun a => a.2.claim := by
    rw [List.map_map]; rfl
  unfold provePrebatched newPrebatched
  rw [hvars, hasc]
  simp only [Bool.true_eq_false, if_false, List.length_map, ne_eq, not_true_eq_false]
  rw [if_neg (by rw [hany]; simp), hlast, hzip, ofExcept_bind]
  simp only
  have hcl := spread_claims (fun c a m h => h) _ _ (zip_forall₂ (all.map Item.ci))
  rw [← hpc, ← hic] at hcl
  unfold BatchVerifier.run
  have htot := getLast_nVars (big := big.ci) hcl (by rw [List.pairwise_map]; exact hsort)
    (List.mem_map.mpr ⟨big, hbig, rfl⟩) (by
      intro a ha
      obtain ⟨b, hb, rfl⟩ := List.mem_map.mp ha
      exact hmax b hb) 0 (.sum sum)
  rw [htot]
  refine frontRounds_agree (nR := big.inst.claim.nVars) hwf hon big.inst.claim.nVars [] all [] [] _
    (by simp) ⟨rfl, rfl, by simp, ?_, rfl, hcl, ?_, hsort, ?_, ?_⟩
  · rw [ftruth_nil, List.map_map, hsum]
    rfl
  · refine (spread_degEq _ ?_).1
    intro c hc
    rw [List.zipWith_map] at hc
    obtain ⟨i, hi, rfl⟩ := List.getElem_of_mem hc
    simp
  · exact fun a ha => ⟨Nat.zero_le _, hmax a ha⟩
  · intro h
    simp only [List.length_nil] at h
    rcases hdeg with e | e
    · omega
    · exact ⟨big, hbig, rfl, e⟩

theorem sampleVec_agree {A B : Type} {R : A → B → Prop} (n : Nat) (kp : List F → PP F A)
    (kv : List F → P F B) (hk : ∀ cs, cs.length = n → Agree R (kp cs) (kv cs)) :
    Agree R ((pSampleVec n).bind kp) ((sampleVec n).bind kv) := by
  induction n generalizing kp kv with
  | zero => exact hk [] rfl
  | succ n ih =>
    refine .sample fun a => ?_
    rw [Verif.Protocol.bind_assoc]
    have : PProg.bind ((pSampleVec n).bind fun xs => PProg.ret (a :: xs)) kp
        = (pSampleVec n).bind fun xs => kp (a :: xs) := by rw [pbind_assoc]; rfl
    rw [this]
    exact ih _ _ fun cs hcs => hk (a :: cs) (by simp [hcs])

/-- The prover and the verifier run in step. -/
theorem frontLoaded_agree (order : EvaluationOrder) (all : List (SumcheckProver F × Instance F))
    (hon : ∀ p ∈ all, Honest p.1 p.2 ∧ p.1.evaluationOrder = order)
    (hwf : ∀ p ∈ all, p.2.WellFormed) (hh : ∀ p ∈ all, p.2.Holds)
    (hsort : all.Pairwise fun p q => p.2.claim.nVars ≤ q.2.claim.nVars)
    (big : SumcheckProver F × Instance F) (hbig : big ∈ all)
    (hmax : ∀ p ∈ all, p.2.claim.nVars ≤ big.2.claim.nVars)
    (hdeg : big.2.claim.nVars = 0 ∨ 1 ≤ big.2.claim.maxIndividualDegree) :
    Agree (fun o o' => o = o' ∧ FrontCorrectEvals order (all.map Prod.snd) o)
      (proveFrontLoaded (all.map Prod.fst))
      ((newBatchVerifier (all.map fun p => p.2.claim)).bind fun v => v.run) := by
  unfold proveFrontLoaded newBatchVerifier
  rw [Verif.Protocol.bind_assoc, List.length_map, List.length_map]
  refine sampleVec_agree _ _ _ fun cs hcs => ?_
  let items : List (Item F) := List.zipWith (fun p c => ⟨p.1, c, p.2⟩) all cs
  have hil : items.length = all.length := by simp [items, hcs]
  have hget : ∀ i (hi : i < items.length), items[i] = ⟨(all[i]'(by omega)).1, cs[i]'(by omega), (all[i]'(by omega)).2⟩ := by
    intro i hi
    simp [items]
  have hmem : ∀ a ∈ items, (a.prover, a.inst) ∈ all := by
    intro a ha
    obtain ⟨i, hi, rfl⟩ := List.getElem_of_mem ha
    rw [hget i hi]
    exact List.getElem_mem _
  have e1 : items.map Item.coeff = cs := by
    refine List.ext_getElem (by simp [hil, hcs]) fun i h1 h2 => ?_
    rw [List.getElem_map, hget]
  have e2 : items.map Item.prover = all.map Prod.fst := by
    refine List.ext_getElem (by simp [hil]) fun i h1 h2 => ?_
    rw [List.getElem_map, hget, List.getElem_map]
  have e3 : items.map Item.inst = all.map Prod.snd := by
    refine List.ext_getElem (by simp [hil]) fun i h1 h2 => ?_
    rw [List.getElem_map, hget, List.getElem_map]
  have e4 : (items.map fun a => a.inst.claim) = all.map fun p => p.2.claim := by
    refine List.ext_getElem (by simp [hil]) fun i h1 h2 => ?_
    rw [List.getElem_map, hget, List.getElem_map]
  obtain ⟨j, hj, hbj⟩ := List.getElem_of_mem hbig
  have hag := prebatched_agree order items
    (fun a ha => hon _ (hmem a ha)) (fun a ha => hwf _ (hmem a ha)) ?_ (items[j]'(by omega))
    (List.getElem_mem _) ?_ ?_
    (List.zipWith (fun (claim : Claim F) coeff => batchWeightedValue coeff (claim.sums.map fun s => s.sum))
      (all.map fun p => p.2.claim) cs).sum ?_
  · rw [e1, e2, e3, e4] at hag
    exact hag
  · rw [List.pairwise_iff_getElem]
    intro i k hi hk hik
    rw [hget, hget]
    exact List.pairwise_iff_getElem.mp hsort i k _ _ hik
  · intro a ha
    rw [hget, hbj]
    exact hmax _ (hmem a ha)
  · rw [hget, hbj]
    exact hdeg
  · congr 1
    refine List.ext_getElem (by simp [hil, hcs]) fun i h1 h2 => ?_
    have hi : i < all.length := by simp at h1; omega
    have := holds_iff.mp (hh _ (List.getElem_mem hi))
    simp only [List.getElem_zipWith, List.getElem_map, hget]
    rw [← this]
    rfl

/-- C52 (completeness). If all claims are true, in ascending order of size, and the provers are honest, then
whatever the challenges, the prover succeeds, the verifier accepts its messages, both return the same
output, and the evaluations in it are correct. (One of the claims with the most variables has degree
at least 1.) -/
theorem C52_completeness_partial (order : EvaluationOrder) (all : List (SumcheckProver F × Instance F))
    (hon : ∀ p ∈ all, Honest p.1 p.2 ∧ p.1.evaluationOrder = order)
    (hwf : ∀ p ∈ all, p.2.WellFormed) (hh : ∀ p ∈ all, p.2.Holds)
    (hsort : all.Pairwise fun p q => p.2.claim.nVars ≤ q.2.claim.nVars)
    (big : SumcheckProver F × Instance F) (hbig : big ∈ all)
    (hmax : ∀ p ∈ all, p.2.claim.nVars ≤ big.2.claim.nVars)
    (hdeg : big.2.claim.nVars = 0 ∨ 1 ≤ big.2.claim.maxIndividualDegree)
    (chal : Nat → F) :
    let proof := (proveFrontLoaded (all.map Prod.fst)).run chal
    ∃ out, proof.2 = .ok out ∧
      ((newBatchVerifier (all.map fun p => p.2.claim)).bind fun v => v.run).run
        (fun _ i => proof.1.getD i []) [] 0 chal = .ok out ∧
      FrontCorrectEvals order (all.map Prod.snd) out := by
  intro proof
  obtain ⟨a, b, h1, h2, h3, h4⟩ := agree_run (frontLoaded_agree order all hon hwf hh hsort big hbig hmax hdeg)
    [] [] chal
  subst h3
  exact ⟨a, h1, h2, h4⟩

/-- Completeness for a true claim, with an honest prover. -/
example (chal : Nat → ℚ) : ∃ pr : SumcheckProver ℚ, ∃ out,
    ((proveFrontLoaded [pr]).run chal).2 = .ok out ∧
    ((newBatchVerifier [(productInstance (20 : ℚ)).claim]).bind fun v => v.run).run
      (fun _ i => ((proveFrontLoaded [pr]).run chal).1.getD i []) [] 0 chal = .ok out := by
  obtain ⟨pr, h1, h2⟩ := C29_honest_exists .highToLow (productInstance (20 : ℚ)) (productInstance_wf _)
  obtain ⟨out, g1, g2, _⟩ := C52_completeness_partial .highToLow [(pr, productInstance (20 : ℚ))]
    (by simp [h1, h2]) (by simp [productInstance_wf]) (by simp [productInstance_holds])
    (by simp) (pr, productInstance (20 : ℚ)) (by simp) (by simp) (Or.inr (show 1 ≤ 2 by omega)) chal
  exact ⟨pr, out, g1, g2⟩

/-- C52 (order). The verifier is constructed exactly when the claims are in ascending order of their
number of variables and there is one coefficient for each. -/
theorem C52_construct (batchCoeffs : List F) (sum : F) (claims : List (Claim F)) :
    (∃ v, newPrebatched batchCoeffs sum claims = .ok v) ↔
      (claims.Pairwise fun c d => c.nVars ≤ d.nVars) ∧ batchCoeffs.length = claims.length := by
  have hs : Verif.Sorting.isSortedAscending (claims.map fun c => c.nVars) = true
      ↔ claims.Pairwise fun c d => c.nVars ≤ d.nVars := by
    rw [asc_iff, List.pairwise_map]
  rw [← hs]
  unfold newPrebatched
  by_cases h1 : Verif.Sorting.isSortedAscending (claims.map fun c => c.nVars) = false
  · simp [h1]
  · by_cases h2 : batchCoeffs.length = claims.length
    · simp only [Bool.not_eq_false] at h1
      simp [h1, h2]
    · simp only [Bool.not_eq_false] at h1
      simp [h1, h2]

example : ∃ v, newPrebatched [(3 : ℚ), 4] 5 [(constInstance 1 1).claim, (productInstance 1).claim]
    = .ok v :=
  (C52_construct _ _ _).mpr ⟨by simp [constInstance, productInstance], rfl⟩

/-- C52 (round-by-round use). `finish` succeeds exactly when no claim is left and the remaining sum
is zero; `finish_round` succeeds exactly after a round proof has been received. -/
theorem C52_finish (v : BatchVerifier F) :
    (v.finish = .ok () ↔ v.claims = [] ∧ v.last = .sum 0) ∧
    ∀ challenge, (∃ v', v.finishRound challenge = .ok v') ↔ ∃ cs, v.last = .coeffs cs := by
  refine ⟨?_, fun challenge => ?_⟩
  · unfold BatchVerifier.finish
    cases hc : v.claims with
    | cons c cs => simp
    | nil =>
      cases hl : v.last with
      | coeffs cs => simp
      | sum s => by_cases h : s = 0 <;> simp [h]
  · unfold BatchVerifier.finishRound
    cases v.last <;> simp

example : (⟨[], 3, .sum 0⟩ : BatchVerifier ℚ).finish = .ok () := (C52_finish _).1.mpr ⟨rfl, rfl⟩

/-- C52 (round-by-round use). A round proof is refused, without reading anything, while one is
pending, and while a claim can be finished. -/
theorem C52_receive_refused (v : BatchVerifier F) :
    (∃ e, v.receiveRoundProof = .fail e) ↔
      (∃ cs, v.last = .coeffs cs) ∨ ∃ c cs, v.claims = c :: cs ∧ c.claim.nVars = v.round := by
  unfold BatchVerifier.receiveRoundProof
  cases hl : v.last with
  | coeffs cs => simp
  | sum s =>
    cases hc : v.claims with
    | nil => simp
    | cons c cs =>
      by_cases h : c.claim.nVars = v.round
      · simp [h]
      · simp [h]

example : ∃ e, (⟨[], 3, .coeffs [1]⟩ : BatchVerifier ℚ).receiveRoundProof = .fail e :=
  (C52_receive_refused _).mpr (Or.inl ⟨_, rfl⟩)

/-- C52 (the case that fails). For a nonzero constant `c`, the false claim that its sum over the
one-dimensional hypercube is `c` (it is `2c`) is accepted, for all challenges and provers. -/
theorem C52_constant_unsound (order : EvaluationOrder) (c : F) (hc : c ≠ 0)
    (msg : List F → Nat → List F) (chal : Nat → F) :
    ¬ (constInstance c c).Holds ∧
    ∃ out, ((newBatchVerifier [(constInstance c c).claim]).bind fun v => v.run).run msg [] 0 chal = .ok out ∧
      FrontCorrectEvals order [constInstance c c] out := by
  refine ⟨fun h => hc (by simpa using (constInstance_holds c c).mp h), ⟨[chal 1], [[]]⟩, ?_, .cons rfl .nil⟩
  have hbw : ∀ a v : F, batchWeightedValue a [v] = a * v := fun a v => by
    rw [bwv_cons, bwv_nil, add_zero]
  have hsort : ∀ n, Verif.Sorting.isSortedAscending [n] = true := fun _ => rfl
  simp [newBatchVerifier, sampleVec, newPrebatched, constInstance, constComposition, hbw, hsort, Prog.bind,
    Prog.ofExcept, spreadMaxDegree, BatchVerifier.run, BatchVerifier.totalRounds, runRounds, finishReady,
    BatchVerifier.tryFinishClaim, BatchVerifier.receiveRoundProof, BatchVerifier.finishRound, Prog.run,
    Claim.maxIndividualDegree, recover, evaluateUnivariate, expectedSingle, collect, BatchVerifier.finish]


end Verif.Sumcheck
