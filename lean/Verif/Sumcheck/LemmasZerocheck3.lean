import Verif.Sumcheck.LemmasZerocheck2

/-! Lemmas for C57: the whole zerocheck. -/

set_option linter.unusedSectionVars false

namespace Verif.Sumcheck

open Verif.Mle Verif.Protocol Finset Polynomial

variable {F : Type} [Field F] [DecidableEq F]

theorem max_getD_le (l : List Nat) (b : Nat) (h : ∀ x ∈ l, x ≤ b) : (l.max?).getD 0 ≤ b := by
  cases hm : l.max? with
  | none => simp
  | some m => exact h m (List.max?_eq_some_iff.mp hm).1

theorem max_getD_mem (l : List Nat) : (l.max?).getD 0 = 0 ∨ (l.max?).getD 0 ∈ l := by
  cases hm : l.max? with
  | none => exact Or.inl rfl
  | some m => exact Or.inr (List.max?_eq_some_iff.mp hm).1

theorem maxDomainSize_le (skip D : Nat) (claims : List (ZerocheckClaim F))
    (hD : ∀ c ∈ claims, ∀ s ∈ c.zeros, s.degree ≤ D) : maxDomainSize skip claims ≤ D * 2 ^ skip := by
  unfold maxDomainSize
  refine max_getD_le _ _ fun x hx => ?_
  obtain ⟨c, hc, rfl⟩ := List.mem_map.mp hx
  unfold zeroDomainSize
  rw [Nat.shiftLeft_eq]
  refine Nat.mul_le_mul_right _ (max_getD_le _ _ fun y hy => ?_)
  obtain ⟨s, hs, rfl⟩ := List.mem_map.mp hy
  exact hD c hc s hs

theorem maxDomainSize_or (skip : Nat) (claims : List (ZerocheckClaim F)) :
    maxDomainSize skip claims = 0 ∨ 2 ^ skip ≤ maxDomainSize skip claims := by
  unfold maxDomainSize
  rcases max_getD_mem (claims.map fun c => zeroDomainSize c.maxIndividualDegree skip) with h | h
  · exact Or.inl h
  · obtain ⟨c, -, e⟩ := List.mem_map.mp h
    rw [← e]
    unfold zeroDomainSize
    rw [Nat.shiftLeft_eq]
    rcases Nat.eq_zero_or_pos c.maxIndividualDegree with h0 | h0
    · left; rw [h0, Nat.zero_mul]
    · right
      exact Nat.le_mul_of_pos_left _ h0

theorem zero_last (all : List (ZeroInstance F)) (big : ZeroInstance F) (hbig : big ∈ all)
    (hmax : ∀ I ∈ all, I.claim.nVars ≤ big.claim.nVars)
    (hs : Verif.Sorting.isSortedAscending ((all.map fun I => I.claim).map fun c => c.nVars) ≠ false) :
    ∃ c, (all.map fun I => I.claim).getLast? = some c ∧ c.nVars = big.claim.nVars := by
  rw [ne_eq, Bool.not_eq_false, asc_iff, List.map_map, List.pairwise_map] at hs
  have hne : all ≠ [] := List.ne_nil_of_mem hbig
  refine ⟨(all.getLast hne).claim, ?_, ?_⟩
  · rw [List.getLast?_map, List.getLast?_eq_some_getLast hne]
    rfl
  · refine Nat.le_antisymm (hmax _ (List.getLast_mem hne)) ?_
    obtain ⟨i, hi, rfl⟩ := List.getElem_of_mem hbig
    rw [List.getLast_eq_getElem]
    by_cases h : i = all.length - 1
    · subst h; exact le_refl _
    · exact List.pairwise_iff_getElem.mp hs i (all.length - 1) hi (by omega) (by omega)

/-- The batched value, as the Lagrange point moves. -/
theorem foldedTruth_poly (skip : Nat) {ps : List F} (hn : ps.Nodup) (hl : ps.length = 2 ^ skip)
    (all : List (ZeroInstance F)) (hwf : ∀ I ∈ all, I.WellFormed) (D : Nat)
    (hD : ∀ I ∈ all, ∀ c ∈ I.claim.zeros, c.degree ≤ D) (r : List F)
    (hmax : ∀ I ∈ all, I.claim.nVars - skip ≤ r.length) (cs : List F) :
    PolyFun (D * 2 ^ skip - 1) fun z => foldedTruth skip (lagW ps z) r all cs := by
  unfold foldedTruth
  have e : ∀ z, List.zipWith (fun (I : ZeroInstance F) c =>
      batchWeightedValue c ((I.fold skip (lagW ps z)).regular r).trues) all cs
      = (all.zip cs).map fun a => batchWeightedValue a.2 (a.1.polys.map fun p =>
          ∑ v ∈ range (2 ^ (suffix (a.1.claim.nVars - skip) r).length),
            eqWeight (suffix (a.1.claim.nVars - skip) r) v * evalAt p (a.1.tables.map fun t =>
              ∑ u ∈ range (2 ^ skip), lagW ps z u * t ((u + 2 ^ skip * v) % 2 ^ a.1.claim.nVars))) := by
    intro z
    rw [List.zip, List.map_zipWith]
    refine List.ext_getElem (by simp) fun i hi hi' => ?_
    have hia : i < all.length := by rw [List.length_zipWith] at hi; omega
    rw [List.getElem_zipWith, List.getElem_zipWith, regular_trues r (fold_wf skip _ (hwf _ (List.getElem_mem hia)))
      (hmax _ (List.getElem_mem hia))]
    simp only [ZeroInstance.fold, List.map_map]
    rfl
  simp only [e]
  refine PolyFun.listSum _ _ fun a ha => ?_
  have hI : a.1 ∈ all := (List.of_mem_zip ha).1
  refine PolyFun.bwv _ _ _ fun p hp => ?_
  refine PolyFun.finsum _ _ fun v _ => PolyFun.smul _ ?_
  have hpd : p.totalDegree ≤ D := by
    obtain ⟨i, hi, rfl⟩ := List.getElem_of_mem hp
    have hc := (hwf _ hI).compositions
    have h1 := (List.forall₂_iff_get.mp hc).2 i (by rw [hc.length_eq]; exact hi) hi
    exact h1.1.degree.trans (hD _ hI _ (List.getElem_mem _))
  have h := PolyFun.evalAt (e := 2 ^ skip - 1) p hpd a.1.tables
    (fun t z => ∑ u ∈ range (2 ^ skip), lagW ps z u * t ((u + 2 ^ skip * v) % 2 ^ a.1.claim.nVars))
    fun t _ => PolyFun.finsum _ _ fun u _ => by
      have h1 := (lagW_poly hn u).smul (t ((u + 2 ^ skip * v) % 2 ^ a.1.claim.nVars))
      rw [hl] at h1
      simpa only [mul_comm] using h1
  refine h.mono ?_
  rw [Nat.mul_sub, Nat.mul_one]
  rcases Nat.eq_zero_or_pos D with h0 | h0
  · rw [h0]; omega
  · omega

theorem bwv_zeros (a : F) (n : Nat) : batchWeightedValue a (List.replicate n 0) = 0 := by
  induction n with
  | zero => exact bwv_nil a
  | succ n ih => rw [List.replicate_succ, bwv_cons, ih, add_zero, mul_zero]

/-- A false claim shows in one of the slices of the univariate round. -/
theorem false_slice (skip : Nat) {I : ZeroInstance F} (h : ¬ I.Holds) :
    ∃ u < 2 ^ skip, ∃ p ∈ I.polys, ∃ v < 2 ^ (I.claim.nVars - skip),
      evalAt p (I.tables.map fun t => t ((u + 2 ^ skip * v) % 2 ^ I.claim.nVars)) ≠ 0 := by
  unfold ZeroInstance.Holds at h
  push Not at h
  obtain ⟨p, hp, b, hb, hne⟩ := h
  refine ⟨b % 2 ^ skip, Nat.mod_lt _ (Nat.two_pow_pos _), p, hp, b / 2 ^ skip, ?_, ?_⟩
  · rw [Nat.div_lt_iff_lt_mul (Nat.two_pow_pos _), ← Nat.pow_add]
    exact hb.trans_le (Nat.pow_le_pow_right (by omega) (by omega))
  · rw [Nat.mod_add_div, Nat.mod_eq_of_lt hb]
    exact hne

theorem slice_false (skip u : Nat) (hu : u < 2 ^ skip) {I : ZeroInstance F} (hwf : I.WellFormed)
    (p : MvPolynomial ℕ F) (hp : p ∈ I.polys) (r : List F) (hr : I.claim.nVars - skip ≤ r.length)
    (hne : mle (fun v => evalAt p (I.tables.map fun t => t ((u + 2 ^ skip * v) % 2 ^ I.claim.nVars)))
      (suffix (I.claim.nVars - skip) r) ≠ 0) :
    ¬ ((I.fold skip fun i => if i = u then 1 else 0).regular r).Holds := by
  intro h
  rw [holds_iff, regular_trues r (fold_wf skip _ hwf) hr] at h
  apply hne
  have hmem : mle (fun v => evalAt p (I.tables.map fun t => t ((u + 2 ^ skip * v) % 2 ^ I.claim.nVars)))
      (suffix (I.claim.nVars - skip) r) ∈ ((I.fold skip fun i => if i = u then 1 else 0).regular r).claimed := by
    rw [h]
    refine List.mem_map.mpr ⟨p, hp, ?_⟩
    refine congrArg (fun g => mle g _) (funext fun v => congrArg (evalAt p) ?_)
    show (I.tables.map _).map _ = _
    rw [List.map_map]
    refine List.map_congr_left fun t _ => ?_
    show ∑ i ∈ range (2 ^ skip), (if i = u then 1 else 0) * t ((i + 2 ^ skip * v) % 2 ^ I.claim.nVars) = _
    simp only [ite_mul, one_mul, zero_mul]
    rw [Finset.sum_ite_eq' , if_pos (Finset.mem_range.mpr hu)]
  unfold Instance.claimed at hmem
  obtain ⟨s, hs, e⟩ := List.mem_map.mp hmem
  obtain ⟨s', hs', rfl⟩ := List.mem_map.mp hs
  obtain ⟨c, -, rfl⟩ := List.mem_map.mp hs'
  exact e.symm

section

variable {K : Type} [AddCommGroup K]

/-- A false zerocheck claim is hard to defend. -/
theorem zerocheck_err (basisChecked : Nat → Option K) (emb : K → F) (skip : Nat) (hskip : skip ≤ 64)
    (all : List (ZeroInstance F)) (hwf : ∀ I ∈ all, I.WellFormed)
    (big : ZeroInstance F) (hbig : big ∈ all) (hmax : ∀ I ∈ all, I.claim.nVars ≤ big.claim.nVars)
    (hdeg : big.claim.nVars ≤ skip ∨ big.claim.zeros ≠ [])
    (D : Nat) (hD : ∀ I ∈ all, ∀ c ∈ I.claim.zeros, c.degree ≤ D) (hsize : D * 2 ^ skip ≤ 2 ^ 64)
    (hfalse : ∃ I ∈ all, ¬ I.Holds) :
    SoundErr (ZeroCorrectEvals all)
      (zerocheckVerify basisChecked emb (all.map fun I => I.claim) skip)
      ((big.claim.nVars - skip) + ((all.map fun I => I.claim.zeros.length).sum + ((D * 2 ^ skip - 1)
        + ((big.claim.nVars - skip) * (D + 1) + (skip * 2 + (all.map fun I => I.tables.length).sum))))) := by
  unfold zerocheckVerify
  by_cases hs : Verif.Sorting.isSortedAscending ((all.map fun I => I.claim).map fun c => c.nVars) = false
  · rw [if_pos hs]; exact .fail
  rw [if_neg hs]
  obtain ⟨c, hc, hcn⟩ := zero_last all big hbig hmax hs
  simp only [hc, hcn]
  by_cases hlt : big.claim.nVars < skip
  · rw [if_pos hlt]; exact .fail
  rw [if_neg hlt]
  by_cases hno : ¬ ∃ ps d, subspacePoints basisChecked emb skip = .ok ps ∧ zeroDomain ps = .ok d
  · refine soundErr_of_post _ ?_
    refine Post.bind (Post.trivial _) fun r _ => ?_
    refine Post.bind (Post.trivial _) fun cs _ => ?_
    intro evals z
    refine Post.bind (Post.trivial _) fun sum _ => ?_
    refine Post.bind (Post.trivial _) fun eqOut _ => ?_
    exact (reduction_never basisChecked emb skip hskip hno z eqOut).mono fun _ h => h.elim
  push Not at hno
  obtain ⟨ps, d, hps, hd⟩ := hno
  obtain ⟨hnd, -⟩ := zeroDomain_ok hd
  have hpl := subspacePoints_length hskip hps
  obtain ⟨I₀, hI₀, hf⟩ := hfalse
  obtain ⟨u, hu, p, hp, v, hv, hne⟩ := false_slice skip hf
  have hI₀n : I₀.claim.nVars - skip ≤ big.claim.nVars - skip := Nat.sub_le_sub_right (hmax I₀ hI₀) skip
  have hx : ∃ v < 2 ^ (I₀.claim.nVars - skip),
      evalAt p (I₀.tables.map fun t => t ((u + 2 ^ skip * v) % 2 ^ I₀.claim.nVars)) ≠ 0 := ⟨v, hv, hne⟩
  have hsv := (sampleVec_mle_err (F := F) (I₀.claim.nVars - skip) (big.claim.nVars - skip) hI₀n _ hx).mono hI₀n
  refine soundErr_bind hsv (sampleVec_post _) fun r hr hrne => ?_
  have hmax' : ∀ I ∈ all, I.claim.nVars - skip ≤ r.length := fun I hI => by
    have := hmax I hI
    omega
  have hcount : (all.map fun I => I.claim.zeros.length).sum
      = ((all.map fun I => (I.fold skip fun i => if i = u then 1 else 0).regular r).map
          fun I => I.claim.sums.length).sum := by
    rw [List.map_map]
    congr 1
    refine List.map_congr_left fun I _ => ?_
    show _ = (List.map _ (List.map _ _)).length
    rw [List.length_map, List.length_map]
  rw [hcount, Nat.add_comm ((List.map _ _).sum)]
  have hlen : (all.map fun I => I.claim).length
      = (all.map fun I => (I.fold skip fun i => if i = u then 1 else 0).regular r).length := by simp
  rw [hlen]
  refine sampleVec_err _ _ _ ?_ 0 0 (Or.inr ⟨_, List.mem_map.mpr ⟨I₀, hI₀, rfl⟩,
    slice_false skip u hu (hwf I₀ hI₀) p hp r (hmax' I₀ hI₀) hrne⟩) fun cs hcs hcne => ?_
  · intro J hJ
    obtain ⟨I, hI, rfl⟩ := List.mem_map.mp hJ
    exact regular_wf r (fold_wf skip _ (hwf I hI))
  rw [List.length_map] at hcs
  have hcne' : foldedTruth skip (fun i => if i = u then 1 else 0) r all cs ≠ 0 := by
    intro h0
    apply hcne
    rw [zero_add, zero_add, List.zipWith_map_left, List.zipWith_map_left]
    unfold foldedTruth at h0
    rw [h0]
    refine List.sum_eq_zero fun x hx => ?_
    obtain ⟨i, hi, rfl⟩ := List.getElem_of_mem hx
    rw [List.getElem_zipWith]
    have : (((all[i]'(by simp at hi; omega)).fold skip fun i => if i = u then (1 : F) else 0).regular r).claimed
        = List.replicate (all[i]'(by simp at hi; omega)).claim.zeros.length 0 := by
      rw [List.eq_replicate_iff]
      refine ⟨?_, fun b hb => ?_⟩
      · show (List.map _ (List.map _ (List.map _ _))).length = _
        simp
      · obtain ⟨s, hs, rfl⟩ := List.mem_map.mp hb
        obtain ⟨s', hs', rfl⟩ := List.mem_map.mp hs
        obtain ⟨c, -, rfl⟩ := List.mem_map.mp hs'
        rfl
    rw [this, bwv_zeros]
  have hdom := maxDomainSize_le skip D (all.map fun I => I.claim) (by
    intro c hc
    obtain ⟨I, hI, rfl⟩ := List.mem_map.mp hc
    exact hD I hI)
  refine .read fun evals hevals => ?_
  have hul : u < ps.length := by omega
  have hw : (fun i => lagW ps ps[u] i) = fun i => if i = u then (1 : F) else 0 :=
    funext fun i => lagW_point hnd u hul i
  rcases univariateSum_poly basisChecked emb _ skip (hdom.trans hsize) evals hevals
    with ⟨e, he⟩ | ⟨f, hfp, hfe, hf0⟩
  · refine SoundErr.sample0 fun z => ?_
    rw [ofExcept_bind, he z]
    exact .fail
  · obtain ⟨bad, hbc, hb⟩ := PolyFun.bad (hfp.mono (e := D * 2 ^ skip - 1) (by omega))
      (foldedTruth_poly skip hnd hpl all hwf D hD r hmax' cs) ps[u] (by
        rw [hf0 ps hps u hu hul]
        show 0 ≠ foldedTruth skip (fun i => lagW ps ps[u] i) r all cs
        rw [hw]
        exact fun h => hcne' h.symm)
    refine .sample bad hbc (ε := (big.claim.nVars - skip) * (D + 1)
      + (skip * 2 + (all.map fun I => I.tables.length).sum)) (by omega) fun z hz => ?_
    rw [ofExcept_bind, hfe z]
    simp only
    rw [← hr]
    refine soundErr_bind (unskipped_err skip (lagW ps z) all r hwf big hbig hr.symm hmax'
      (hdeg.imp_left fun h => by omega) D hD cs hcs (f z) (hb z hz)) (unskipped_post skip all r hwf cs (f z))
      fun eqOut hsh hng => ?_
    exact reduction_err basisChecked emb skip hskip hps z all r hmax' eqOut hsh hng

/-! ## The number of challenges -/

theorem unskipped_samples (skip : Nat) (all : List (ZeroInstance F)) (r : List F)
    (hwf : ∀ I ∈ all, I.WellFormed) (big : ZeroInstance F) (hbig : big ∈ all)
    (hr : big.claim.nVars - skip = r.length) (hmax : ∀ I ∈ all, I.claim.nVars - skip ≤ r.length)
    (coeffs : List F) (hc : coeffs.length = all.length) (sum : F) :
    (verifyUnskipped skip (all.map fun I => I.claim) r coeffs sum).SamplesLe r.length := by
  unfold verifyUnskipped
  by_cases hs : Verif.Sorting.isSortedAscending ((all.map fun I => I.claim).map fun c => c.nVars) = false
  · rw [ofExcept_bind]
    unfold reduceToEqInd
    rw [if_pos hs]
    trivial
  rw [ofExcept_bind, reduceToEqInd_ok skip (fun _ => 0) all hwf hs]
  simp only
  rw [ofExcept_bind, reduce_ok r _ (by
    intro J hJ
    obtain ⟨I, hI, rfl⟩ := List.mem_map.mp hJ
    exact fold_wf skip _ (hwf I hI))]
  simp only
  let pend : List (F × Instance F) := coeffs.zip (all.map fun I => (I.fold skip fun _ => 0).regular r)
  have h1 : pend.map Prod.fst = coeffs := List.map_fst_zip (by rw [List.length_map]; omega)
  have h2 : pend.map Prod.snd = all.map fun I => (I.fold skip fun _ => 0).regular r :=
    List.map_snd_zip (by rw [List.length_map]; omega)
  have h3 : pend.map (fun a => a.2.claim)
      = ((all.map fun I => I.fold skip fun _ => 0).map fun I => I.regular r).map fun I => I.claim := by
    have := congrArg (List.map fun I : Instance F => I.claim) h2
    rw [List.map_map] at this
    exact this.trans (by rw [List.map_map, List.map_map, List.map_map]; rfl)
  obtain ⟨b, hb, he⟩ : ∃ b ∈ pend, b.2 = (big.fold skip fun _ => 0).regular r := by
    have : (big.fold skip fun _ => 0).regular r ∈ pend.map Prod.snd := by
      rw [h2]; exact List.mem_map.mpr ⟨big, hbig, rfl⟩
    obtain ⟨b, hb, e⟩ := List.mem_map.mp this
    exact ⟨b, hb, e⟩
  have hbn : b.2.claim.nVars = r.length := by rw [he]; exact hr
  have := samplesLe_prebatched pend sum b hb (fun a ha => by
    obtain ⟨I, hI, e⟩ := List.mem_map.mp (List.of_mem_zip ha).2
    rw [hbn, ← e]
    exact hmax I hI)
  rw [h1, h3, hbn] at this
  refine samplesLe_bind (N := r.length) (M := 0) this fun out => ?_
  cases verifySumcheckOutputs .ascendingVars ((all.map fun I => I.fold skip fun _ => 0).map fun J => J.claim) r
    (reverseFor .highToLow out) <;> trivial

theorem reduction_samples (basisChecked : Nat → Option K) (emb : K → F) (skip : Nat) (z : F)
    (eqOut : Output F) : (verifyReduction basisChecked emb skip z eqOut).SamplesLe (1 + skip) := by
  unfold verifyReduction
  rw [ofExcept_bind, reductionClaim_ok skip (fun _ => 0) [] []]
  simp only
  have h := frontLoaded_samples [reductionInstance skip (fun _ => 0) [] [] eqOut.multilinearEvals.flatten] _
    (List.mem_singleton_self _) (fun I hI => by
      obtain rfl := List.mem_singleton.mp hI
      exact le_refl _)
  refine samplesLe_bind (N := 1 + skip) (M := 0) h fun out => ?_
  rw [ofExcept_bind]
  cases verifyReductionOutput basisChecked emb
    (reductionInstance skip (fun _ => 0) [] [] eqOut.multilinearEvals.flatten).claim skip z
    (reverseFor .highToLow out) with
  | error e => trivial
  | ok out' =>
    simp only
    cases out'.multilinearEvals.getLast? <;> trivial

theorem zerocheck_samples (basisChecked : Nat → Option K) (emb : K → F) (skip : Nat)
    (all : List (ZeroInstance F)) (hwf : ∀ I ∈ all, I.WellFormed)
    (big : ZeroInstance F) (hbig : big ∈ all) (hmax : ∀ I ∈ all, I.claim.nVars ≤ big.claim.nVars) :
    (zerocheckVerify basisChecked emb (all.map fun I => I.claim) skip).SamplesLe
      ((big.claim.nVars - skip) + (all.length + ((big.claim.nVars - skip + (1 + skip)) + 1))) := by
  unfold zerocheckVerify
  by_cases hs : Verif.Sorting.isSortedAscending ((all.map fun I => I.claim).map fun c => c.nVars) = false
  · rw [if_pos hs]; trivial
  rw [if_neg hs]
  obtain ⟨c, hc, hcn⟩ := zero_last all big hbig hmax hs
  simp only [hc, hcn]
  by_cases hlt : big.claim.nVars < skip
  · rw [if_pos hlt]; trivial
  rw [if_neg hlt]
  refine samplesLe_sampleVec _ _ _ fun r hr => ?_
  rw [List.length_map]
  refine samplesLe_sampleVec _ _ _ fun cs hcs => ?_
  intro evals z
  beta_reduce
  rw [ofExcept_bind]
  cases univariateSum basisChecked emb (maxDomainSize skip (all.map fun I => I.claim))
    (min (2 ^ skip) (maxDomainSize skip (all.map fun I => I.claim))) evals z with
  | error e => trivial
  | ok sum =>
    simp only
    have h := unskipped_samples skip all r hwf big hbig hr.symm (fun I hI => by
      have := hmax I hI
      omega) cs hcs sum
    rw [hr] at h
    exact samplesLe_bind h fun eqOut => reduction_samples basisChecked emb skip z eqOut

end

end Verif.Sumcheck
