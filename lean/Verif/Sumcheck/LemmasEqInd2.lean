import Verif.Sumcheck.LemmasEqInd

/-! Completeness of sumchecks with an equality indicator. -/

set_option linter.unusedSectionVars false

namespace Verif.Sumcheck

open Verif.Mle Verif.Protocol Finset

variable {F : Type} [Field F] [DecidableEq F]

theorem runRounds_post (n : Nat) (v : BatchVerifier F) (evs : List (List F)) (chs : List F) :
    Post (fun q => q.2.2.length = chs.length + n) (runRounds n v evs chs) := by
  induction n generalizing v evs chs with
  | zero => exact rfl
  | succ n ih =>
    rw [runRounds]
    refine Post.bind (Post.trivial _) fun q _ => ?_
    refine Post.bind (Post.trivial _) fun v _ => ?_
    intro x
    refine Post.bind (Post.trivial _) fun v _ => ?_
    refine (ih v _ _).mono fun q h => ?_
    rw [h, List.length_append, List.length_singleton]
    omega

theorem run_post (v : BatchVerifier F) :
    Post (fun out => out.challenges.length = v.totalRounds) v.run := by
  unfold BatchVerifier.run
  refine Post.bind (runRounds_post _ v [] []) fun q hq => ?_
  refine Post.bind (Post.trivial _) fun r _ => ?_
  refine Post.bind (Post.trivial _) fun _ _ => ?_
  show q.2.2.length = _
  rw [hq, List.length_nil, Nat.zero_add]

theorem sampleVec_post (n : Nat) : Post (fun cs => cs.length = n) (sampleVec (F := F) n) := by
  induction n with
  | zero => exact rfl
  | succ n ih =>
    intro x
    refine Post.bind ih fun cs hcs => ?_
    show (x :: cs).length = _
    rw [List.length_cons, hcs]

theorem frontLoaded_post (all : List (Instance F)) (big : Instance F) (hbig : big ∈ all)
    (hmax : ∀ I ∈ all, I.claim.nVars ≤ big.claim.nVars) :
    Post (fun out => out.challenges.length = big.claim.nVars)
      ((newBatchVerifier (all.map fun I => I.claim)).bind fun v => v.run) := by
  unfold newBatchVerifier
  rw [Verif.Protocol.bind_assoc, List.length_map]
  refine Post.bind (sampleVec_post _) fun cs hcs => ?_
  have h2 : (cs.zip all).map Prod.snd = all := List.map_snd_zip (by omega)
  have h1 : (cs.zip all).map Prod.fst = cs := List.map_fst_zip (by omega)
  have h3 : ((cs.zip all).map fun a => a.2.claim) = all.map fun I => I.claim := by
    conv_rhs => rw [← h2, List.map_map]
    rfl
  obtain ⟨b, hb, he⟩ : ∃ b ∈ cs.zip all, b.2 = big := by
    have := hbig
    rw [← h2] at this
    obtain ⟨b, hb, e⟩ := List.mem_map.mp this
    exact ⟨b, hb, e⟩
  simp only
  generalize (List.zipWith (fun (claim : Claim F) coeff =>
    batchWeightedValue coeff (claim.sums.map fun s => s.sum)) (all.map fun I => I.claim) cs).sum = sum
  rw [ofExcept_bind]
  unfold newPrebatched
  by_cases hs : Verif.Sorting.isSortedAscending ((all.map fun I => I.claim).map fun c => c.nVars) = false
  · rw [if_pos hs]; trivial
  · rw [if_neg hs, if_neg (by simp [hcs])]
    simp only
    have hsorted : (cs.zip all).Pairwise fun a b => a.2.claim.nVars ≤ b.2.claim.nVars := by
      rw [← h3, Bool.not_eq_false, asc_iff, List.map_map, List.pairwise_map] at hs
      exact hs
    have hcl := spread_claims (fun c a m h => h) _ _ (zip_forall₂ (cs.zip all))
    rw [h1, h3] at hcl
    refine (run_post _).mono fun out ho => ?_
    rw [ho, getLast_nVars hcl hsorted hb (fun a ha => by rw [he]; exact hmax _ (List.of_mem_zip ha).2), he]

theorem eqInd_agree (order : EvaluationOrder) (sorting : SortingOrder)
    (all : List (SumcheckProver F × EqInstance F)) (r : List F)
    (hon : ∀ p ∈ all, Honest p.1 (p.2.regular r) ∧ p.1.evaluationOrder = order)
    (hwf : ∀ p ∈ all, p.2.WellFormed) (hh : ∀ p ∈ all, p.2.Holds r)
    (hasc : all.Pairwise fun p q => p.2.claim.nVars ≤ q.2.claim.nVars)
    (hsort : OrderOk sorting r.length (all.map fun p => p.2.claim))
    (big : SumcheckProver F × EqInstance F) (hbig : big ∈ all) (hr : big.2.claim.nVars = r.length)
    (hmax : ∀ p ∈ all, p.2.claim.nVars ≤ r.length)
    (ho : order = .highToLow ∨ ∀ p ∈ all, p.2.claim.nVars = r.length)
    (hdeg : big.2.claim.nVars = 0 ∨ big.2.claim.sums ≠ []) :
    Agree (fun o o' => o'.challenges = o.challenges ∧ o.challenges.length = r.length ∧
        o.multilinearEvals = (all.map fun p => (p.2.tables.map fun t =>
          mle t (suffix p.2.claim.nVars o.challenges)) ++
            [eqInd (suffix p.2.claim.nVars o.challenges) (suffix p.2.claim.nVars r)]) ∧
        o'.multilinearEvals = all.map fun p => p.2.tables.map fun t =>
          mle t (suffix p.2.claim.nVars o.challenges))
      (eqIndProve order (all.map Prod.fst))
      (eqIndVerify order sorting (all.map fun p => p.2.claim) r) := by
  unfold eqIndProve eqIndVerify
  have hred := reduce_ok r (all.map Prod.snd) (fun I hI => by
    obtain ⟨p, hp, rfl⟩ := List.mem_map.mp hI
    exact hwf p hp)
  rw [List.map_map, List.map_map, List.map_map] at hred
  have hred' : reduceToRegularSumchecks (all.map fun p => p.2.claim)
      = .ok (all.map fun p => (p.2.regular r).claim) := hred
  rw [ofExcept_bind, hred']
  simp only
  let all' : List (SumcheckProver F × Instance F) := all.map fun p => (p.1, p.2.regular r)
  have e1 : all'.map Prod.fst = all.map Prod.fst := by simp [all', Function.comp_def]
  have e2 : (all'.map fun p => p.2.claim) = all.map fun p => (p.2.regular r).claim := by
    simp [all', Function.comp_def]
  have e3 : all'.map Prod.snd = (all.map Prod.snd).map fun I => I.regular r := by
    simp [all', Function.comp_def]
  have hmem : ∀ p ∈ all', ∃ q ∈ all, p = (q.1, q.2.regular r) := by
    intro p hp
    obtain ⟨q, hq, rfl⟩ := List.mem_map.mp hp
    exact ⟨q, hq, rfl⟩
  have hag := frontLoaded_agree order all'
    (fun p hp => by obtain ⟨q, hq, rfl⟩ := hmem p hp; exact hon q hq)
    (fun p hp => by obtain ⟨q, hq, rfl⟩ := hmem p hp; exact regular_wf r (hwf q hq))
    (fun p hp => by
      obtain ⟨q, hq, rfl⟩ := hmem p hp
      exact (regular_holds r (hwf q hq) (hmax q hq)).mpr (hh q hq))
    (by
      show (all.map _).Pairwise _
      rw [List.pairwise_map]
      exact hasc)
    (big.1, big.2.regular r) (List.mem_map.mpr ⟨big, hbig, rfl⟩)
    (fun p hp => by
      obtain ⟨q, hq, rfl⟩ := hmem p hp
      show q.2.claim.nVars ≤ big.2.claim.nVars
      rw [hr]
      exact hmax q hq)
    (by
      rcases hdeg with h | h
      · exact Or.inl h
      · exact Or.inr (regular_degree_pos r big.2 h))
  rw [e1, e2, e3] at hag
  have hpost := frontLoaded_post (all'.map Prod.snd) (big.2.regular r)
    (by rw [e3]; exact List.mem_map.mpr ⟨big.2, List.mem_map.mpr ⟨big, hbig, rfl⟩, rfl⟩)
    (fun I hI => by
      rw [e3] at hI
      obtain ⟨J, hJ, rfl⟩ := List.mem_map.mp hI
      obtain ⟨q, hq, rfl⟩ := List.mem_map.mp hJ
      show q.2.claim.nVars ≤ big.2.claim.nVars
      rw [hr]
      exact hmax q hq)
  rw [List.map_map, show ((fun I : Instance F => I.claim) ∘ Prod.snd)
    = (fun p : SumcheckProver F × Instance F => p.2.claim) from rfl, e2] at hpost
  refine agree_bind (agree_post hag hpost) fun o o' h => ?_
  obtain ⟨⟨rfl, hg⟩, hlen⟩ := h
  replace hlen : o.challenges.length = r.length := by rw [hlen]; exact hr
  have ho' : order = .highToLow ∨ ∀ I ∈ all.map Prod.snd, I.claim.nVars = r.length := by
    rcases ho with h | h
    · exact Or.inl h
    · refine Or.inr fun I hI => ?_
      obtain ⟨p, hp, rfl⟩ := List.mem_map.mp hI
      exact h p hp
  have hv := front_to_eq order sorting (all.map Prod.snd) r (fun I hI => by
      obtain ⟨p, hp, rfl⟩ := List.mem_map.mp hI
      exact hwf p hp) ho' o hlen (by rw [List.map_map]; exact hsort) hg
  rw [List.map_map, List.map_map] at hv
  have hv' : verifySumcheckOutputs sorting (all.map fun p => p.2.claim) r (reverseFor order o) = .ok _ := hv
  rw [hv']
  obtain ⟨f1, f2⟩ := reverseFor_evals order o
  refine .ret ⟨rfl, by omega, ?_, rfl⟩
  obtain ⟨-, -, -, -, h5⟩ := (verifyOutputs_iff _ _ _ _ _).mp hv'
  rw [f1] at h5 ⊢
  have hl2 := hg.length_eq
  simp only [List.length_map] at hl2
  rw [List.forall₂_iff_get] at h5
  refine List.ext_getElem (by simp [hl2]) fun i hi hi' => ?_
  obtain ⟨-, he⟩ := h5.2 i (by simp [List.length_zip]; omega) (by simp; omega)
  simp only [List.get_eq_getElem, List.getElem_zip, List.getElem_map, Function.comp] at he ⊢
  exact he

end Verif.Sumcheck
