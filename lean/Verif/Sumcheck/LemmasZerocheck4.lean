import Verif.Sumcheck.LemmasZerocheck3

/-! Lemmas for C57: the honest prover. -/

set_option linter.unusedSectionVars false

namespace Verif.Sumcheck

open Verif.Mle Verif.Protocol Finset Polynomial

variable {F : Type} [Field F] [DecidableEq F]

/-- A polynomial of small degree is determined by its values on the domain. -/
theorem PolyFun.interpolate {d : Nat} {f : F → F} (hf : PolyFun d f) {ps : List F} (hn : ps.Nodup)
    (hd : d < ps.length) (z : F) :
    f z = ∑ j ∈ range ps.length, f (ps.getD j 0) * lagW ps z j := by
  obtain ⟨Q, hq, he⟩ := hf
  have hdeg : Q.degree < (univ : Finset (Fin ps.length)).card := by
    rw [Finset.card_univ, Fintype.card_fin]
    exact (natDegree_le_iff_degree_le.mp hq).trans_lt (by exact_mod_cast hd)
  have h := Lagrange.eq_interpolate (nodup_injOn hn) hdeg
  rw [he, congrArg (eval z) h, Lagrange.interpolate_apply, eval_finset_sum, Finset.sum_range]
  refine Finset.sum_congr rfl fun j _ => ?_
  rw [eval_mul, eval_C, List.getD_eq_getElem?_getD, List.getElem?_eq_getElem j.2, Option.getD_some, lagW,
    dif_pos j.2, he]
  rfl

theorem subspacePoints_smaller {K : Type} [AddCommGroup K] {basisChecked : Nat → Option K} {emb : K → F}
    {a b : Nat} {pb : List F} (hab : a ≤ b) (hb : subspacePoints basisChecked emb b = .ok pb) :
    ∃ pa, subspacePoints basisChecked emb a = .ok pa := by
  obtain ⟨s, -, h1, h2, -⟩ := subspacePoints_inv hb
  have : (List.range a).mapM basisChecked = some (s.basis.take a) :=
    (mapM_range_iff _ _ _).mpr ⟨by rw [List.length_take]; omega, fun i hi => by
      rw [List.length_take] at hi
      rw [List.getElem_take]
      exact h2 i (by omega)⟩
  unfold subspacePoints Verif.Subspace.withDim
  rw [this]
  exact ⟨_, rfl⟩

theorem pSampleVec_bind_eq {A : Type} (n : Nat) (k : List F → PP F A) :
    ((pSampleVec (n + 1)).bind k) = .sample fun x => (pSampleVec n).bind fun xs => k (x :: xs) := by
  rw [pSampleVec]
  show PProg.sample _ = _
  congr 1
  funext x
  rw [pbind_assoc]
  rfl

theorem getD_map_range {L j : Nat} (f : Nat → F) (h : j < L) : ((List.range L).map f).getD j 0 = f j := by
  rw [List.getD_eq_getElem?_getD, List.getElem?_map, List.getElem?_range h]
  rfl

/-- The univariate round of honest provers. -/
theorem pUnivariateRound_eq (skip size L : Nat) (ps : List (ZerocheckProver F))
    (g : ZerocheckProver F → F → Nat → F)
    (hg : ∀ p ∈ ps, ∀ c, p.execute skip size c = .ok ((List.range L).map (g p c)))
    (cs₀ : List F) (f₀ : Nat → F) :
    pUnivariateRound skip size ps cs₀ ((List.range L).map f₀)
      = (pSampleVec ps.length).bind fun cs => .ret (cs₀ ++ cs,
          (List.range L).map fun i => f₀ i + (List.zipWith (fun p c => g p c i * c) ps cs).sum) := by
  induction ps generalizing cs₀ f₀ with
  | nil =>
    rw [pUnivariateRound]
    show _ = PProg.ret _
    simp
  | cons p ps ih =>
    rw [pUnivariateRound, List.length_cons, pSampleVec_bind_eq]
    congr 1
    funext c
    rw [hg p (List.mem_cons_self ..) c]
    show (PProg.ofExcept (addAssignLagrange _ _)).bind _ = _
    have : addAssignLagrange ((List.range L).map f₀) (((List.range L).map (g p c)).map fun e => e * c)
        = .ok ((List.range L).map fun i => f₀ i + g p c i * c) := by
      unfold addAssignLagrange
      rw [if_neg (by simp), List.map_map, List.zipWith_map, List.zipWith_self]
      rfl
    rw [this]
    show pUnivariateRound skip size ps (cs₀ ++ [c]) _ = _
    rw [ih (fun q hq => hg q (List.mem_cons_of_mem _ hq))]
    congr 1
    funext cs
    rw [List.append_assoc, List.singleton_append]
    simp only [List.zipWith_cons_cons, List.sum_cons, add_assoc]

theorem roundValue_bwv (skip : Nat) (ps r : List F) {I : ZeroInstance F} (hwf : I.WellFormed)
    (hn : I.claim.nVars - skip ≤ r.length) (α z : F) :
    (List.ofFn fun k : Fin I.polys.length => α ^ (k : Nat) * I.roundValue skip ps r I.polys[k] z).sum * α
      = batchWeightedValue α ((I.fold skip (lagW ps z)).regular r).trues := by
  rw [regular_trues r (fold_wf skip _ hwf) hn]
  show _ = batchWeightedValue α (I.polys.map _)
  rw [bwv_eq_sum, List.sum_ofFn, Finset.sum_mul]
  refine Finset.sum_congr rfl fun k _ => ?_
  rw [pow_succ]
  unfold ZeroInstance.roundValue
  simp only [ZeroInstance.fold, List.map_map]
  show _ * mle _ _ * _ = _ * _ * mle _ _
  rw [mul_right_comm]
  rfl

/-- The batched value vanishes on the points of the skipped variables when the claims are true. -/
theorem foldedTruth_zero (skip : Nat) {ps : List F} (hnd : ps.Nodup) (hl : ps.length = 2 ^ skip)
    (all : List (ZeroInstance F)) (hwf : ∀ I ∈ all, I.WellFormed) (hh : ∀ I ∈ all, I.Holds) (r : List F)
    (hmax : ∀ I ∈ all, I.claim.nVars - skip ≤ r.length) (cs : List F) (u : Nat) (hu : u < ps.length) :
    foldedTruth skip (lagW ps ps[u]) r all cs = 0 := by
  unfold foldedTruth
  refine List.sum_eq_zero fun x hx => ?_
  obtain ⟨i, hi, rfl⟩ := List.getElem_of_mem hx
  rw [List.getElem_zipWith]
  have hia : i < all.length := by rw [List.length_zipWith] at hi; omega
  have hI := List.getElem_mem hia
  rw [regular_trues r (fold_wf skip _ (hwf _ hI)) (hmax _ hI)]
  have e : ((all[i].fold skip (lagW ps ps[u])).polys.map fun p =>
      mle (fun b => evalAt p ((all[i].fold skip (lagW ps ps[u])).tables.map fun t => t b))
        (suffix (all[i].fold skip (lagW ps ps[u])).claim.nVars r))
      = List.replicate all[i].polys.length 0 := by
    rw [List.eq_replicate_iff]
    refine ⟨by simp [ZeroInstance.fold], fun b hb => ?_⟩
    obtain ⟨p, hp, rfl⟩ := List.mem_map.mp hb
    have hz : ∀ v, evalAt p ((all[i].fold skip (lagW ps ps[u])).tables.map fun t => t v) = 0 := by
      intro v
      show evalAt p ((all[i].tables.map _).map _) = 0
      rw [List.map_map]
      refine Eq.trans ?_ (hh _ hI p hp ((u + 2 ^ skip * v) % 2 ^ all[i].claim.nVars)
        (Nat.mod_lt _ (Nat.two_pow_pos _)))
      refine congrArg (evalAt p) (List.map_congr_left fun t _ => ?_)
      show ∑ j ∈ range (2 ^ skip), lagW ps ps[u] j * t ((j + 2 ^ skip * v) % 2 ^ all[i].claim.nVars) = _
      simp only [lagW_point hnd u hu, ite_mul, one_mul, zero_mul]
      rw [Finset.sum_ite_eq', if_pos (Finset.mem_range.mpr (by omega))]
    simp only [hz]
    exact mle_const 0 _
  rw [e, bwv_zeros]

/-- The size of the domain is the largest degree times `2 ^ skip`. -/
theorem maxDomainSize_eq (skip : Nat) (claims : List (ZerocheckClaim F)) :
    ∃ D, maxDomainSize skip claims = D * 2 ^ skip ∧ (∀ c ∈ claims, c.maxIndividualDegree ≤ D) ∧
      ∀ c ∈ claims, ∀ s ∈ c.zeros, s.degree ≤ D := by
  have hmax : ∀ (l : List Nat), ∀ x ∈ l, x ≤ (l.max?).getD 0 := by
    intro l x hx
    cases hm : l.max? with
    | none => rw [List.max?_eq_none_iff] at hm; rw [hm] at hx; simp at hx
    | some m => exact (List.max?_eq_some_iff.mp hm).2 x hx
  refine ⟨((claims.map fun c => c.maxIndividualDegree).max?).getD 0, ?_, ?_, ?_⟩
  · unfold maxDomainSize
    have e : (claims.map fun c => zeroDomainSize c.maxIndividualDegree skip)
        = (claims.map fun c => c.maxIndividualDegree).map fun d => d * 2 ^ skip := by
      rw [List.map_map]
      exact List.map_congr_left fun c _ => Nat.shiftLeft_eq _ _
    rw [e]
    generalize claims.map (fun c => c.maxIndividualDegree) = l
    refine Nat.le_antisymm (max_getD_le _ _ fun x hx => ?_) ?_
    · obtain ⟨d, hd, rfl⟩ := List.mem_map.mp hx
      exact Nat.mul_le_mul_right _ (hmax l d hd)
    · rcases max_getD_mem l with h | h
      · rw [h, Nat.zero_mul]; exact Nat.zero_le _
      · exact hmax _ _ (List.mem_map.mpr ⟨_, h, rfl⟩)
  · intro c hc
    exact hmax _ _ (List.mem_map.mpr ⟨c, hc, rfl⟩)
  · intro c hc s hs
    exact (hmax _ s.degree (List.mem_map.mpr ⟨s, hs, rfl⟩)).trans
      (hmax _ c.maxIndividualDegree (List.mem_map.mpr ⟨c, hc, rfl⟩))

section

variable {K : Type} [AddCommGroup K]

/-- The verifier recovers the batched value from the evaluations of an honest prover. -/
theorem univariateSum_honest (basisChecked : Nat → Option K) (emb : K → F) (skip D : Nat)
    (hpos : 1 ≤ D) (hsize : D * 2 ^ skip ≤ 2 ^ 64)
    {qs ps : List F} (hqs : subspacePoints basisChecked emb (log2CeilUsize (D * 2 ^ skip)) = .ok qs)
    (hqn : qs.Nodup) (hps : subspacePoints basisChecked emb skip = .ok ps) (hpn : ps.Nodup)
    (f : F → F) (hf : PolyFun (D * 2 ^ skip - 1) f) (h0 : ∀ u (hu : u < ps.length), f ps[u] = 0) (z : F) :
    univariateSum basisChecked emb (D * 2 ^ skip) (min (2 ^ skip) (D * 2 ^ skip))
      ((List.range (D * 2 ^ skip - 2 ^ skip)).map fun i => f (qs.getD (2 ^ skip + i) 0)) z = .ok (f z) := by
  have hle : 2 ^ skip ≤ D * 2 ^ skip := Nat.le_mul_of_pos_left _ hpos
  have h2 := Nat.two_pow_pos skip
  generalize hn : D * 2 ^ skip = n at *
  have hdim := log2Ceil_le n 64 hsize
  have hlen := subspacePoints_length hdim hqs
  have hcl := le_log2Ceil n
  have hsk := le_log2Ceil_of n skip hle
  have hpl := subspacePoints_length (hsk.trans hdim) hps
  have htn : (qs.take n).Nodup := hqn.sublist (List.take_sublist _ _)
  have htl : (qs.take n).length = n := by rw [List.length_take]; omega
  obtain ⟨d, hd⟩ := zeroDomain_nodup htn
  obtain ⟨-, hev⟩ := zeroDomain_ok hd
  unfold univariateSum
  rw [hqs]
  simp only [hd, hev z, htl, Nat.min_eq_left hle]
  rw [if_neg (by rw [List.length_map, List.length_range]; omega),
    innerProduct_map_drop _ _ _ _ (by simp)]
  refine congrArg Except.ok ?_
  rw [hf.interpolate htn (by omega) z, htl]
  have hsplit : n = 2 ^ skip + (n - 2 ^ skip) := by omega
  have hrs := Finset.sum_range_add (fun j => f ((qs.take n).getD j 0) * lagW (qs.take n) z j) (2 ^ skip)
    (n - 2 ^ skip)
  rw [← hsplit] at hrs
  rw [hrs]
  have hz : ∑ j ∈ range (2 ^ skip), f ((qs.take n).getD j 0) * lagW (qs.take n) z j = 0 := by
    refine Finset.sum_eq_zero fun j hj => ?_
    rw [Finset.mem_range] at hj
    have hpre := subspacePoints_prefix hsk hdim hps hqs j hj
    have : (qs.take n).getD j 0 = ps[j]'(by omega) := by
      rw [List.getD_eq_getElem?_getD, List.getElem?_take, if_pos (by omega), hpre,
        List.getElem?_eq_getElem (by omega)]
      rfl
    rw [this, h0 j (by omega), zero_mul]
  rw [hz, zero_add]
  refine Finset.sum_congr rfl fun i hi => ?_
  rw [Finset.mem_range] at hi
  congr 1
  rw [List.getD_eq_getElem?_getD, List.getElem?_map, List.getElem?_range hi, Option.map_some, Option.getD_some]
  congr 1
  rw [List.getD_eq_getElem?_getD, List.getD_eq_getElem?_getD, List.getElem?_take, if_pos (by omega)]

theorem collect_folds {basisChecked : Nat → Option K} {emb : K → F} {skip : Nat} {r ps : List F}
    (hps : subspacePoints basisChecked emb skip = .ok ps) (size : Nat) (z : F)
    {provers : List (ZerocheckProver F)} {all : List (ZeroInstance F)}
    (hon : List.Forall₂ (fun pr I => HonestZero basisChecked emb skip r pr I) provers all)
    (cs : List F) (hcs : cs.length = provers.length) :
    ∃ sps, collect (List.zipWith (fun (p : ZerocheckProver F) c => p.fold skip size c z) provers cs) = .ok sps ∧
      List.Forall₂ (fun (sp : SumcheckProver F) I => sp.evaluationOrder = .highToLow ∧
        Honest sp ((I.fold skip (lagW ps z)).regular r)) sps all := by
  induction hon generalizing cs with
  | nil => exact ⟨[], by simp [collect], .nil⟩
  | @cons p I provers all h _ ih =>
    cases cs with
    | nil => simp at hcs
    | cons c cs =>
      obtain ⟨sps, h1, h2⟩ := ih cs (by simpa using hcs)
      obtain ⟨sp, g1, g2, g3⟩ := h.fold size c z ps hps
      refine ⟨sp :: sps, ?_, .cons ⟨g2, g3⟩ h2⟩
      rw [List.zipWith_cons_cons, g1, collect, h1]

theorem collect_projections {basisChecked : Nat → Option K} {emb : K → F} {skip : Nat} {r : List F}
    {provers : List (ZerocheckProver F)} {all : List (ZeroInstance F)}
    (hon : List.Forall₂ (fun pr I => HonestZero basisChecked emb skip r pr I) provers all)
    (y : List F) (hy : y.length = r.length) :
    collect (provers.map fun p => p.project skip y) = .ok (all.map fun I => I.projected skip y) := by
  induction hon with
  | nil => rfl
  | cons h _ ih => rw [List.map_cons, h.project y hy, collect, ih]; rfl

/-- The rounds after the univariate one. -/
theorem unskipped_agree (skip : Nat) (w : Nat → F) (all : List (ZeroInstance F)) (r : List F)
    (hwf : ∀ I ∈ all, I.WellFormed) (big : ZeroInstance F) (hbig : big ∈ all)
    (hr : big.claim.nVars - skip = r.length) (hmax : ∀ I ∈ all, I.claim.nVars - skip ≤ r.length)
    (hasc : all.Pairwise fun I J => I.claim.nVars ≤ J.claim.nVars)
    (hdeg : r.length = 0 ∨ big.claim.zeros ≠ [])
    (coeffs : List F) (hc : coeffs.length = all.length) (sps : List (SumcheckProver F))
    (hon : List.Forall₂ (fun (sp : SumcheckProver F) I => sp.evaluationOrder = .highToLow ∧
        Honest sp ((I.fold skip w).regular r)) sps all) :
    Agree (fun o o' => o.challenges.length = r.length ∧
        o'.challenges = o.challenges.reverse ∧ (∀ e ∈ o.multilinearEvals, e.isEmpty = false) ∧
        o.multilinearEvals.map List.dropLast = o'.multilinearEvals ∧
        o'.multilinearEvals = all.map fun I => (I.projected skip o'.challenges).map
          fun t => ∑ u ∈ range (2 ^ skip), w u * t u)
      (provePrebatched coeffs sps)
      (verifyUnskipped skip (all.map fun I => I.claim) r coeffs (foldedTruth skip w r all coeffs)) := by
  have hs : Verif.Sorting.isSortedAscending ((all.map fun I => I.claim).map fun c => c.nVars) ≠ false := by
    rw [ne_eq, Bool.not_eq_false, asc_iff, List.map_map, List.pairwise_map]
    exact hasc
  unfold verifyUnskipped
  rw [ofExcept_bind, reduceToEqInd_ok skip w all hwf hs]
  simp only
  have hwf' : ∀ J ∈ all.map fun I => I.fold skip w, J.WellFormed := by
    intro J hJ
    obtain ⟨I, hI, rfl⟩ := List.mem_map.mp hJ
    exact fold_wf skip w (hwf I hI)
  rw [ofExcept_bind, reduce_ok r _ hwf']
  simp only
  have hsl : sps.length = all.length := hon.length_eq
  let items : List (Item F) := List.zipWith (fun (p : SumcheckProver F × ZeroInstance F) c =>
    ⟨p.1, c, (p.2.fold skip w).regular r⟩) (sps.zip all) coeffs
  have hil : items.length = all.length := by simp [items, hc, hsl]
  have hget : ∀ i (hi : i < items.length), items[i] = ⟨sps[i]'(by omega), coeffs[i]'(by omega),
      ((all[i]'(by omega)).fold skip w).regular r⟩ := by
    intro i hi
    simp [items]
  have hin : ∀ a ∈ items, ∃ i, ∃ (_ : i < items.length) (h2 : i < all.length), a = items[i]
      ∧ a.inst = ((all[i]).fold skip w).regular r := by
    intro a ha
    obtain ⟨i, hi, rfl⟩ := List.getElem_of_mem ha
    exact ⟨i, hi, by omega, rfl, by rw [hget i hi]⟩
  have e1 : items.map Item.coeff = coeffs := by
    refine List.ext_getElem (by simp [hil, hc]) fun i h1 h2 => ?_
    rw [List.getElem_map, hget]
  have e2 : items.map Item.prover = sps := by
    refine List.ext_getElem (by simp [hil, hsl]) fun i h1 h2 => ?_
    rw [List.getElem_map, hget]
  have e3 : items.map Item.inst = (all.map fun I => I.fold skip w).map fun J => J.regular r := by
    refine List.ext_getElem (by simp [hil]) fun i h1 h2 => ?_
    rw [List.getElem_map, hget, List.getElem_map, List.getElem_map]
  have e4 : (items.map fun a => a.inst.claim)
      = ((all.map fun I => I.fold skip w).map fun J => J.regular r).map fun J => J.claim := by
    rw [← e3, List.map_map]
    rfl
  obtain ⟨j, hj, hbj⟩ := List.getElem_of_mem hbig
  have hbn : (items[j]'(by omega)).inst.claim.nVars = r.length := by
    rw [hget, ← hr]
    show (all[j]).claim.nVars - skip = _
    rw [hbj]
  have hmaxi : ∀ a ∈ items, a.inst.claim.nVars ≤ r.length := by
    intro a ha
    obtain ⟨i, -, h2, -, e⟩ := hin a ha
    rw [e]
    exact hmax _ (List.getElem_mem h2)
  have hag := prebatched_agree .highToLow items
    (fun a ha => by
      obtain ⟨i, h1, h2, e, -⟩ := hin a ha
      rw [e, hget i h1]
      have := (List.forall₂_iff_get.mp hon).2 i (by omega) h2
      exact ⟨this.2, this.1⟩)
    (fun a ha => by
      obtain ⟨i, -, h2, -, e⟩ := hin a ha
      rw [e]
      exact regular_wf r (fold_wf skip w (hwf _ (List.getElem_mem h2))))
    (by
      rw [List.pairwise_iff_getElem]
      intro i k hi hk hik
      rw [hget, hget]
      show (all[i]).claim.nVars - skip ≤ (all[k]).claim.nVars - skip
      exact Nat.sub_le_sub_right (List.pairwise_iff_getElem.mp hasc i k _ _ hik) skip)
    (items[j]'(by omega)) (List.getElem_mem _)
    (fun a ha => by rw [hbn]; exact hmaxi a ha)
    (by
      rcases hdeg with h | h
      · exact Or.inl (by rw [hbn]; exact h)
      · right
        rw [hget]
        refine regular_degree_pos r _ ?_
        show (all[j]).claim.zeros.map _ ≠ []
        rw [hbj]
        simpa using h)
    (foldedTruth skip w r all coeffs) (by
      unfold foldedTruth
      congr 1
      refine List.ext_getElem (by simp [hil, hc]) fun i h1 h2 => ?_
      rw [List.getElem_zipWith, List.getElem_map, hget])
  rw [e1, e2, e3, e4] at hag
  have hpost : Post (fun out : Output F => out.challenges.length = r.length)
      ((Prog.ofExcept (newPrebatched coeffs (foldedTruth skip w r all coeffs)
        (((all.map fun I => I.fold skip w).map fun J => J.regular r).map fun J => J.claim))).bind
        fun v => v.run) := by
    rw [ofExcept_bind]
    unfold newPrebatched
    split
    · rename_i v h
      split at h
      · cases h
      · split at h
        · cases h
        · injection h with h
          refine (run_post _).mono fun out ho => ?_
          rw [ho, ← h]
          have hcl := spread_claims (fun c a m h => h) _ _ (zip_forall₂ (items.map Item.ci))
          have hc1 : (items.map Item.ci).map Prod.fst = coeffs := by rw [List.map_map]; exact e1
          have hc2 : ((items.map Item.ci).map fun a => a.2.claim)
              = ((all.map fun I => I.fold skip w).map fun J => J.regular r).map fun J => J.claim := by
            rw [List.map_map]; exact e4
          rw [hc1, hc2] at hcl
          refine (getLast_nVars (big := (items[j]'(by omega)).ci) hcl ?_
            (List.mem_map.mpr ⟨_, List.getElem_mem _, rfl⟩) ?_ _ _).trans hbn
          · rw [List.pairwise_map, List.pairwise_iff_getElem]
            intro i k hi hk hik
            rw [hget, hget]
            show (all[i]).claim.nVars - skip ≤ (all[k]).claim.nVars - skip
            exact Nat.sub_le_sub_right (List.pairwise_iff_getElem.mp hasc i k _ _ hik) skip
          · intro a ha
            obtain ⟨b, hb, rfl⟩ := List.mem_map.mp ha
            exact (hmaxi b hb).trans_eq hbn.symm
    · trivial
  have hfin := agree_post hag hpost
  have hbind : provePrebatched coeffs sps = (provePrebatched coeffs sps).bind fun o => .ret o := by
    generalize provePrebatched coeffs sps = p
    induction p with
    | ret a => rfl
    | fail e => rfl
    | write m p ih => rw [PProg.bind, ← ih]
    | sample c ih => simp only [PProg.bind]; congr 1; funext x; exact ih x
  rw [hbind]
  refine agree_bind hfin fun o o' h => ?_
  obtain ⟨⟨rfl, hg⟩, hlen⟩ := h
  have hord : OrderOk .ascendingVars r.length ((all.map fun I => I.fold skip w).map fun J => J.claim) := by
    show List.Pairwise _ _
    rw [List.map_map, List.pairwise_map]
    refine hasc.imp fun {I J} h => ?_
    show min (I.claim.nVars - skip) _ ≤ J.claim.nVars - skip
    exact (Nat.min_le_left _ _).trans (Nat.sub_le_sub_right h skip)
  have hv := front_to_eq .highToLow .ascendingVars (all.map fun I => I.fold skip w) r hwf' (Or.inl rfl) o hlen
    hord hg
  simp only at hv
  rw [hv]
  obtain ⟨-, -, -, -, h5⟩ := (verifyOutputs_iff _ _ _ _ _).mp hv
  have hl2 := hg.length_eq
  rw [List.length_map, List.length_map] at hl2
  obtain ⟨f1, -⟩ := reverseFor_evals .highToLow o
  rw [f1, List.forall₂_iff_get] at h5
  have hev : ∀ i (hi : i < o.multilinearEvals.length), ∃ x, o.multilinearEvals[i]
      = ((all[i]'(by omega)).fold skip w).tables.map (fun t =>
        mle t (suffix ((all[i]'(by omega)).fold skip w).claim.nVars (reverseFor .highToLow o).challenges)) ++ [x] := by
    intro i hi
    obtain ⟨-, he⟩ := h5.2 i (by simp [List.length_zip]; omega) (by simp; omega)
    simp only [List.get_eq_getElem, List.getElem_zip, List.getElem_map] at he
    exact ⟨_, he⟩
  refine .ret ⟨hlen, rfl, ?_, ?_, ?_⟩
  · intro e he
    obtain ⟨i, hi, rfl⟩ := List.getElem_of_mem he
    obtain ⟨x, hx⟩ := hev i hi
    rw [hx]
    simp
  · refine List.ext_getElem (by simp [hl2]) fun i hi hi' => ?_
    rw [List.length_map] at hi
    obtain ⟨x, hx⟩ := hev i hi
    rw [List.getElem_map, hx, List.dropLast_concat, List.getElem_map, List.getElem_map]
  · show (all.map fun I => I.fold skip w).map _ = _
    rw [List.map_map]
    refine List.map_congr_left fun I _ => ?_
    show (I.tables.map _).map _ = (I.tables.map _).map _
    rw [List.map_map, List.map_map]
    exact List.map_congr_left fun t _ => fold_mle skip w t _ _

theorem reductionOutput_ok {basisChecked : Nat → Option K} {emb : K → F} {claim : Claim F} {skip : Nat}
    {z : F} {out : Output F} (hskip : skip ≤ 64) (hn : claim.nVars = skip) {ps : List F}
    {d : Verif.Univariate.Domain F} (hps : subspacePoints basisChecked emb skip = .ok ps)
    (hd : zeroDomain ps = .ok d) (hch : out.challenges.length = skip) {e : List F}
    (he : out.multilinearEvals = [e ++ [mle (lagW ps z) out.challenges]]) :
    verifyReductionOutput basisChecked emb claim skip z out = .ok ⟨out.challenges, [e]⟩ := by
  unfold verifyReductionOutput
  obtain ⟨m, hm, hev⟩ := lagrangeMle_eval hd skip (subspacePoints_length hskip hps) z out.challenges hch
  rw [if_neg (by simpa using hn), if_neg (by simp [hch, he])]
  simp only [hps, hd, hm, hev, he]
  simp

/-- The univariatizing reduction. -/
theorem reduction_agree (basisChecked : Nat → Option K) (emb : K → F) (build : RegularBuilder F)
    (hb : BuildsRegular build) (skip : Nat) (hskip : skip ≤ 64)
    {ps : List F} {d : Verif.Univariate.Domain F} (hps : subspacePoints basisChecked emb skip = .ok ps)
    (hd : zeroDomain ps = .ok d) (z : F) (all : List (ZeroInstance F)) (r : List F)
    (hmax : ∀ I ∈ all, I.claim.nVars - skip ≤ r.length)
    (hne : skip = 0 ∨ ∃ I ∈ all, I.tables ≠ []) (eqOut : Output F) (hlen : eqOut.challenges.length = r.length)
    (hev : eqOut.multilinearEvals = all.map fun I => (I.projected skip eqOut.challenges).map
      fun t => ∑ u ∈ range (2 ^ skip), lagW ps z u * t u) :
    Agree (fun o o' => o = o' ∧ ZeroCorrectEvals all o)
      ((PProg.ofExcept (univariatizingReductionProver basisChecked emb build
          (all.map fun I => I.projected skip eqOut.challenges).flatten skip eqOut.multilinearEvals z)).bind
        fun reductionProver => (proveFrontLoaded [reductionProver]).bind fun out =>
          match out.multilinearEvals.getLast? with
          | none => .fail .panic
          | some concat => match concat.getLast? with
            | none => .fail .panic
            | some _ => .ret ⟨out.challenges.reverse, eqOut.challenges, concat.dropLast⟩)
      (verifyReduction basisChecked emb skip z eqOut) := by
  have hflat : (all.map fun I => I.projected skip eqOut.challenges).flatten
      = all.flatMap fun I => I.projected skip eqOut.challenges := by rw [List.flatMap_def]
  have hevf : eqOut.multilinearEvals.flatten = (all.flatMap fun I => I.projected skip eqOut.challenges).map
      fun t => ∑ u ∈ range (2 ^ skip), lagW ps z u * t u := by
    rw [hev, List.map_flatMap, List.flatMap_def]
  have hl : (all.flatMap fun I => I.projected skip eqOut.challenges).length
      = eqOut.multilinearEvals.flatten.length := by rw [hevf, List.length_map]
  obtain ⟨m, hm, hmev⟩ := lagrangeMle_eval hd skip (subspacePoints_length hskip hps) z
    (List.replicate skip 0) (by simp)
  have hpl := subspacePoints_length hskip hps
  have hmt : ∀ i < 2 ^ skip, m.evals.val i = lagW ps z i := by
    intro i hi
    obtain ⟨-, hle⟩ := zeroDomain_ok hd
    have hln : (d.lagrangeEvals id z).length = 2 ^ skip := by rw [hle]; simp [hpl]
    have hval : m.evals.val = fun i => (d.lagrangeEvals id z).getD i 0 := by
      unfold lagrangeMle at hm
      simp only at hm
      split at hm
      · cases hm
      · split at hm
        · rename_i m' hm'
          injection hm with hm
          subst hm
          unfold Verif.Tensor.Mlx.new at hm'
          split at hm'
          · cases hm'
          · split at hm'
            · split at hm'
              · cases hm'
              · injection hm' with hm'; rw [← hm']
            · split at hm'
              · cases hm'
              · injection hm' with hm'; rw [← hm']
        · cases hm
    rw [hval]
    show (d.lagrangeEvals id z).getD i 0 = _
    rw [hle, List.getD_eq_getElem?_getD, List.getElem?_map, List.getElem?_range (by omega)]
    rfl
  have hmle : ∀ s : List F, s.length = skip → mle m.evals.val s = mle (lagW ps z) s := fun s hs =>
    mle_congr fun i hi => hmt i (by rw [← hs]; exact hi)
  let R := reductionInstance skip m.evals.val eqOut.challenges all eqOut.multilinearEvals.flatten
  have hwf : R.WellFormed := reduction_wf _ _ _ _ _ hl
  obtain ⟨pr, hpr, hord, hon⟩ := hb R hwf
  have hprover : univariatizingReductionProver basisChecked emb build
      (all.map fun I => I.projected skip eqOut.challenges).flatten skip eqOut.multilinearEvals z = .ok pr := by
    unfold univariatizingReductionProver
    rw [reductionClaim_ok skip m.evals.val eqOut.challenges all]
    simp only [hps, hd, hm]
    rw [hflat]
    exact hpr
  rw [hprover]
  show Agree _ ((proveFrontLoaded [pr]).bind _) _
  unfold verifyReduction
  rw [ofExcept_bind, reductionClaim_ok skip m.evals.val eqOut.challenges all]
  simp only
  have hholds : R.Holds := by
    refine (reduction_holds _ _ _ _ _ hl).mpr ?_
    rw [hevf]
    refine List.map_congr_left fun t _ => Finset.sum_congr rfl fun u hu => ?_
    rw [hmt u (Finset.mem_range.mp hu)]
  have hdeg : R.claim.nVars = 0 ∨ 1 ≤ R.claim.maxIndividualDegree := by
    rcases hne with h | ⟨I, hI, hIt⟩
    · exact Or.inl h
    · right
      have hpos : 0 < eqOut.multilinearEvals.flatten.length := by
        rw [← hl]
        refine List.length_pos_of_ne_nil fun h0 => ?_
        rw [List.flatMap_eq_nil_iff] at h0
        have := h0 I hI
        unfold ZeroInstance.projected at this
        exact hIt (List.map_eq_nil_iff.mp this)
      unfold Claim.maxIndividualDegree
      cases hmx : (R.claim.sums.map fun s => s.composition.degree).max? with
      | none =>
        rw [List.max?_eq_none_iff, List.map_eq_nil_iff] at hmx
        have : R.claim.sums.length = eqOut.multilinearEvals.flatten.length := by
          show (List.map _ _).length = _
          rw [List.length_map, List.length_zipIdx]
        rw [hmx, List.length_nil] at this
        omega
      | some k =>
        obtain ⟨s, hs, e⟩ := List.mem_map.mp (List.max?_eq_some_iff.mp hmx).1
        obtain ⟨p, -, rfl⟩ := List.mem_map.mp hs
        rw [← e]
        show 1 ≤ 2
        omega
  have hag := frontLoaded_agree .highToLow [(pr, R)] (by simp [hon, hord]) (by simp [hwf]) (by simp [hholds])
    (by simp) (pr, R) (by simp) (by simp) hdeg
  have hpost := frontLoaded_post [R] R (by simp) (by simp)
  refine agree_bind (agree_post hag hpost) fun o o' h => ?_
  obtain ⟨⟨rfl, hg⟩, hol⟩ := h
  have hol' : o.challenges.length = skip := hol
  unfold FrontCorrectEvals at hg
  simp only [List.map_cons, List.map_nil, List.forall₂_cons_left_iff, List.forall₂_nil_left_iff] at hg
  obtain ⟨e, l, he, rfl, hoe⟩ := hg
  have htake : arrange .highToLow (o.challenges.take R.claim.nVars) = o.challenges.reverse := by
    show (o.challenges.take skip).reverse = _
    rw [List.take_of_length_le (by omega)]
  rw [htake] at he
  have hsplit : e = ((all.flatMap fun I => I.projected skip eqOut.challenges).map fun t =>
      mle t o.challenges.reverse) ++ [mle (lagW ps z) o.challenges.reverse] := by
    rw [he]
    show ((all.flatMap fun I => I.projected skip eqOut.challenges) ++ [m.evals.val]).map _ = _
    rw [List.map_append, List.map_singleton, hmle _ (by rw [List.length_reverse, hol'])]
  have hout := reductionOutput_ok (basisChecked := basisChecked) (emb := emb) (claim := R.claim) (z := z)
    (out := reverseFor .highToLow o) hskip rfl hps hd (by
      show o.challenges.reverse.length = skip
      rw [List.length_reverse, hol']) (e := (all.flatMap fun I => I.projected skip eqOut.challenges).map fun t =>
      mle t o.challenges.reverse) (by
      show o.multilinearEvals = _
      rw [hoe, hsplit]
      rfl)
  rw [ofExcept_bind]
  rw [hout]
  simp only [List.getLast?_singleton]
  rw [hoe]
  simp only [List.getLast?_singleton, hsplit, List.getLast?_append, List.getLast?_singleton, Option.some_or,
    List.dropLast_concat]
  refine .ret ⟨rfl, ?_⟩
  unfold ZeroCorrectEvals
  show ((all.flatMap fun I => I.projected skip eqOut.challenges).map fun t => mle t o.challenges.reverse) = _
  rw [List.map_flatMap]
  refine List.flatMap_congr fun I hI => ?_
  unfold ZeroInstance.projected
  rw [List.map_map]
  refine List.map_congr_left fun t _ => ?_
  show mle _ _ = mle t (zeroPoint ⟨o.challenges.reverse, eqOut.challenges, _⟩ I.claim.nVars)
  unfold zeroPoint
  simp only [List.length_reverse, hol']
  exact projected_mle skip t I.claim.nVars _ _ (by rw [List.length_reverse, hol'])
    (by rw [hlen]; exact hmax I hI)

/-- Prover and verifier run in step. -/
theorem zerocheck_agree (basisChecked : Nat → Option K) (emb : K → F) (build : RegularBuilder F)
    (hb : BuildsRegular build) (skip : Nat) (all : List (ZeroInstance F)) (hwf : ∀ I ∈ all, I.WellFormed)
    (hh : ∀ I ∈ all, I.Holds) (hasc : all.Pairwise fun I J => I.claim.nVars ≤ J.claim.nVars)
    (big : ZeroInstance F) (hbig : big ∈ all) (hmax : ∀ I ∈ all, I.claim.nVars ≤ big.claim.nVars)
    (hskip : skip ≤ big.claim.nVars)
    (hdeg : big.claim.nVars = skip ∨ big.claim.zeros ≠ []) (hne : skip = 0 ∨ ∃ I ∈ all, I.tables ≠ [])
    (hpos : ∃ I ∈ all, 1 ≤ I.claim.maxIndividualDegree)
    (hsize : maxDomainSize skip (all.map fun I => I.claim) ≤ 2 ^ 64)
    {qs : List F} (hqs : subspacePoints basisChecked emb
      (log2CeilUsize (maxDomainSize skip (all.map fun I => I.claim))) = .ok qs) (hqn : qs.Nodup)
    (provers : List F → List (ZerocheckProver F))
    (hon : ∀ r : List F, r.length = big.claim.nVars - skip →
      List.Forall₂ (fun pr I => HonestZero basisChecked emb skip r pr I) (provers r) all) :
    Agree (fun o o' => o = o' ∧ ZeroCorrectEvals all o)
      (sampleAndProve basisChecked emb build big.claim.nVars skip provers)
      (zerocheckVerify basisChecked emb (all.map fun I => I.claim) skip) := by
  have hs : Verif.Sorting.isSortedAscending ((all.map fun I => I.claim).map fun c => c.nVars) ≠ false := by
    rw [ne_eq, Bool.not_eq_false, asc_iff, List.map_map, List.pairwise_map]
    exact hasc
  unfold sampleAndProve zerocheckVerify
  rw [if_neg hs]
  obtain ⟨c, hc, hcn⟩ := zero_last all big hbig hmax hs
  simp only [hc, hcn]
  rw [if_neg (Nat.not_lt.mpr hskip)]
  refine sampleVec_agree _ _ _ fun r hr => ?_
  have hon := hon r hr
  have hmax' : ∀ I ∈ all, I.claim.nVars - skip ≤ r.length := fun I hI => by
    rw [hr]; exact Nat.sub_le_sub_right (hmax I hI) skip
  generalize provers r = prs at hon
  have hpl : prs.length = all.length := hon.length_eq
  have hnv : (prs.map fun p => p.nVars) = (all.map fun I => I.claim).map fun c => c.nVars := by
    rw [List.map_map]
    refine List.ext_getElem (by simp [hpl]) fun i h1 h2 => ?_
    simp only [List.length_map] at h1 h2
    rw [List.getElem_map, List.getElem_map]
    exact ((List.forall₂_iff_get.mp hon).2 i h1 h2).nVars
  have hms : ((prs.map fun p => p.domainSize skip).max?).getD 0 = maxDomainSize skip (all.map fun I => I.claim) := by
    unfold maxDomainSize
    congr 2
    rw [List.map_map]
    refine List.ext_getElem (by simp [hpl]) fun i h1 h2 => ?_
    simp only [List.length_map] at h1 h2
    rw [List.getElem_map, List.getElem_map]
    refine ((List.forall₂_iff_get.mp hon).2 i h1 h2).domainSize.trans ?_
    show _ = _ <<< skip
    rw [Nat.shiftLeft_eq]
    rfl
  unfold zerocheckProve
  rw [hnv, if_neg hs]
  simp only [hms]
  obtain ⟨D, hDeq, hD1, hD2⟩ := maxDomainSize_eq skip (all.map fun I => I.claim)
  rw [hDeq] at hqs hsize ⊢
  have hD : 1 ≤ D := by
    obtain ⟨I, hI, h1⟩ := hpos
    exact h1.trans (hD1 _ (List.mem_map.mpr ⟨I, hI, rfl⟩))
  have hle : 2 ^ skip ≤ D * 2 ^ skip := Nat.le_mul_of_pos_left _ hD
  have hdim := log2Ceil_le _ 64 hsize
  have hsk := le_log2Ceil_of _ skip hle
  obtain ⟨ps, hps⟩ := subspacePoints_smaller hsk hqs
  have hpsl := subspacePoints_length (hsk.trans hdim) hps
  have hqsl := subspacePoints_length hdim hqs
  have hcl := le_log2Ceil (D * 2 ^ skip)
  have hpeq : ps = qs.take (2 ^ skip) := by
    refine List.ext_getElem? fun i => ?_
    rw [List.getElem?_take]
    by_cases hi : i < 2 ^ skip
    · rw [if_pos hi, subspacePoints_prefix hsk hdim hps hqs i hi]
    · rw [if_neg hi, List.getElem?_eq_none (by omega)]
  have hpn : ps.Nodup := by rw [hpeq]; exact hqn.sublist (List.take_sublist _ _)
  obtain ⟨d, hd⟩ := zeroDomain_nodup hpn
  have hDI : ∀ I ∈ all, ∀ c ∈ I.claim.zeros, c.degree ≤ D := fun I hI =>
    hD2 _ (List.mem_map.mpr ⟨I, hI, rfl⟩)
  -- the univariate round
  let inst : ZerocheckProver F → F → Nat → F := fun p c i =>
    match p.execute skip (D * 2 ^ skip) c with
    | .ok l => l.getD i 0
    | .error _ => 0
  have hexec : ∀ (i : Nat) (h1 : i < prs.length) (h2 : i < all.length) (c : F),
      (prs[i]).execute skip (D * 2 ^ skip) c = .ok ((List.range (D * 2 ^ skip - 2 ^ skip)).map fun j =>
        (List.ofFn fun k : Fin (all[i]).polys.length => c ^ (k : Nat) *
          (all[i]).roundValue skip ps r (all[i]).polys[k] (qs.getD (2 ^ skip + j) 0)).sum) := by
    intro i h1 h2 c
    exact ((List.forall₂_iff_get.mp hon).2 i h1 h2).execute _ c ps qs hle
      (Nat.mul_le_mul_right _ (hD1 _ (List.mem_map.mpr ⟨_, List.getElem_mem h2, rfl⟩))) hps hqs
  have hround := pUnivariateRound_eq skip (D * 2 ^ skip) (D * 2 ^ skip - 2 ^ skip) prs inst (by
    intro p hp c
    obtain ⟨i, hi, rfl⟩ := List.getElem_of_mem hp
    simp only [inst]
    rw [hexec i hi (by omega) c]
    simp only
    refine congrArg Except.ok (List.map_congr_left fun j hj => ?_)
    rw [List.mem_range] at hj
    symm
    exact getD_map_range (F := F) _ hj) [] (fun _ => 0)
  have hrep : List.replicate (D * 2 ^ skip - 2 ^ skip) (0 : F) = (List.range (D * 2 ^ skip - 2 ^ skip)).map fun _ => 0 := by
    rw [List.map_const', List.length_range]
  rw [hrep, hround, pbind_assoc, hpl, List.length_map]
  refine sampleVec_agree _ _ _ fun cs hcs => ?_
  show Agree _ (PProg.write _ _) _
  refine .write ?_ (.sample fun z => ?_)
  · rw [List.length_map, List.length_range, Nat.min_eq_left hle]
  have hevals : ((List.range (D * 2 ^ skip - 2 ^ skip)).map fun i =>
        (0 : F) + (List.zipWith (fun p c => inst p c i * c) prs cs).sum)
      = (List.range (D * 2 ^ skip - 2 ^ skip)).map fun i =>
        foldedTruth skip (lagW ps (qs.getD (2 ^ skip + i) 0)) r all cs := by
    refine List.map_congr_left fun j hj => ?_
    rw [List.mem_range] at hj
    rw [zero_add]
    unfold foldedTruth
    congr 1
    refine List.ext_getElem (by simp [hpl]) fun i h1 h2 => ?_
    simp only [List.length_zipWith] at h1 h2
    rw [List.getElem_zipWith, List.getElem_zipWith]
    have h3 : i < all.length := by omega
    rw [← roundValue_bwv skip ps r (hwf _ (List.getElem_mem h3)) (hmax' _ (List.getElem_mem h3))]
    congr 1
    simp only [inst]
    rw [hexec i (by omega) h3]
    exact getD_map_range (F := F) _ hj
  simp only [List.nil_append]
  rw [hevals]
  have hsum := univariateSum_honest basisChecked emb skip D hD hsize hqs hqn hps hpn
    (fun z => foldedTruth skip (lagW ps z) r all cs)
    (foldedTruth_poly skip hpn hpsl all hwf D hDI r hmax' cs)
    (fun u hu => foldedTruth_zero skip hpn hpsl all hwf hh r hmax' cs u hu) z
  rw [ofExcept_bind, hsum]
  simp only
  obtain ⟨sps, hsps, hhon⟩ := collect_folds hps (D * 2 ^ skip) z hon cs (by omega)
  rw [hsps]
  show Agree _ ((provePrebatched cs sps).bind _) _
  refine agree_bind (unskipped_agree skip (lagW ps z) all r hwf big hbig hr.symm hmax' hasc
    (by rw [hr]; exact hdeg.imp_left fun h => by omega) cs hcs sps hhon) fun o o' h => ?_
  obtain ⟨h1, h2, h3, h4, h5⟩ := h
  have hany : (o.multilinearEvals.any List.isEmpty) = false := by
    rw [List.any_eq_false]
    intro e he
    rw [h3 e he]
    simp
  rw [hany]
  simp only [Bool.false_eq_true, if_false]
  rw [h4, ← h2, collect_projections hon o'.challenges (by rw [h2, List.length_reverse, h1])]
  exact reduction_agree basisChecked emb build hb skip (hsk.trans hdim) hps hd z all r hmax' hne o'
    (by rw [h2, List.length_reverse, h1]) h5

end

end Verif.Sumcheck
