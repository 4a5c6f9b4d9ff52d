import Verif.Sumcheck.LemmasZerocheck

/-! Lemmas for C57: the rounds after the univariate one and the univariatizing reduction. -/

set_option linter.unusedSectionVars false

namespace Verif.Sumcheck

open Verif.Mle Verif.Protocol Finset Polynomial

variable {F : Type} [Field F] [DecidableEq F]

theorem fold_wf (skip : Nat) (w : Nat → F) {I : ZeroInstance F} (h : I.WellFormed) :
    (I.fold skip w).WellFormed where
  nMultilinears := by
    show (I.tables.map _).length = _
    rw [List.length_map]
    exact h.nMultilinears
  compositions := by
    show List.Forall₂ _ (I.claim.zeros.map _) I.polys
    rw [List.forall₂_map_left_iff]
    exact h.compositions

theorem toEqInd_ok (skip : Nat) (w : Nat → F) {I : ZeroInstance F} (h : I.WellFormed) :
    I.claim.toEqInd skip = .ok (I.fold skip w).claim := by
  unfold ZerocheckClaim.toEqInd EqIndClaim.new
  have hn : (I.claim.zeros.map fun c => (⟨c, 0⟩ : CompositeSum F)).find?
      (fun s => s.composition.nVars != I.claim.nMultilinears) = none := by
    rw [List.find?_eq_none]
    intro s hs
    obtain ⟨c, hc, rfl⟩ := List.mem_map.mp hs
    obtain ⟨i, hi, rfl⟩ := List.getElem_of_mem hc
    have := (List.forall₂_iff_get.mp h.compositions).2 i hi (by rw [← h.compositions.length_eq]; exact hi)
    simpa using this.2.2
  rw [hn]
  rfl

theorem reduceToEqInd_ok (skip : Nat) (w : Nat → F) (all : List (ZeroInstance F))
    (hwf : ∀ I ∈ all, I.WellFormed)
    (hs : Verif.Sorting.isSortedAscending ((all.map fun I => I.claim).map fun c => c.nVars) ≠ false) :
    reduceToEqInd skip (all.map fun I => I.claim)
      = .ok ((all.map fun I => I.fold skip w).map fun J => J.claim) := by
  unfold reduceToEqInd
  rw [if_neg hs, List.map_map, List.map_map]
  exact collect_map_ok all _ _ fun I hI => toEqInd_ok skip w (hwf I hI)

theorem regular_cubeSum (r : List F) {I : EqInstance F} (h : I.WellFormed)
    (hn : I.claim.nVars ≤ r.length) (p : MvPolynomial ℕ F) (hv : p.vars ⊆ range I.claim.nMultilinears) :
    cubeSum (I.regular r).claim.nVars (I.regular r).tables (p * MvPolynomial.X I.claim.nMultilinears)
      = mle (fun b => evalAt p (I.tables.map fun t => t b)) (suffix I.claim.nVars r) := by
  unfold cubeSum mle
  have hl : (suffix I.claim.nVars r).length = I.claim.nVars := by rw [suffix_length]; omega
  rw [hl]
  refine Finset.sum_congr rfl fun b _ => ?_
  show evalAt _ ((I.tables ++ [eqWeight (suffix I.claim.nVars r)]).map _) = _
  rw [List.map_append, List.map_singleton,
    evalAt_extra p _ hv _ (by rw [List.length_map, h.nMultilinears])]
  ring

theorem wf_vars {I : EqInstance F} (h : I.WellFormed) : ∀ p ∈ I.polys, p.vars ⊆ range I.claim.nMultilinears := by
  intro p hp
  obtain ⟨i, hi, rfl⟩ := List.getElem_of_mem hp
  exact ((List.forall₂_iff_get.mp h.compositions).2 i (by rw [h.compositions.length_eq]; exact hi) hi).2.1

theorem regular_trues (r : List F) {I : EqInstance F} (h : I.WellFormed)
    (hn : I.claim.nVars ≤ r.length) :
    (I.regular r).trues
      = I.polys.map fun p => mle (fun b => evalAt p (I.tables.map fun t => t b)) (suffix I.claim.nVars r) := by
  unfold Instance.trues
  show (I.polys.map fun p => p * MvPolynomial.X I.claim.nMultilinears).map _ = _
  rw [List.map_map]
  exact List.map_congr_left fun p hp => regular_cubeSum r h hn p (wf_vars h p hp)

/-- The batched value the rounds after the univariate one have to defend. -/
noncomputable def foldedTruth (skip : Nat) (w : Nat → F) (r : List F) (all : List (ZeroInstance F))
    (coeffs : List F) : F :=
  (List.zipWith (fun (I : ZeroInstance F) c =>
    batchWeightedValue c ((I.fold skip w).regular r).trues) all coeffs).sum

theorem unskipped_err (skip : Nat) (w : Nat → F) (all : List (ZeroInstance F)) (r : List F)
    (hwf : ∀ I ∈ all, I.WellFormed) (big : ZeroInstance F) (hbig : big ∈ all)
    (hr : big.claim.nVars - skip = r.length) (hmax : ∀ I ∈ all, I.claim.nVars - skip ≤ r.length)
    (hdeg : r.length = 0 ∨ big.claim.zeros ≠ [])
    (D : Nat) (hD : ∀ I ∈ all, ∀ c ∈ I.claim.zeros, c.degree ≤ D)
    (coeffs : List F) (hc : coeffs.length = all.length) (sum : F)
    (hne : sum ≠ foldedTruth skip w r all coeffs) :
    SoundErr (EqCorrectEvals (all.map fun I => I.fold skip w))
      (verifyUnskipped skip (all.map fun I => I.claim) r coeffs sum) (r.length * (D + 1)) := by
  unfold verifyUnskipped
  by_cases hs : Verif.Sorting.isSortedAscending ((all.map fun I => I.claim).map fun c => c.nVars) = false
  · rw [ofExcept_bind]
    unfold reduceToEqInd
    rw [if_pos hs]
    exact .fail
  · rw [ofExcept_bind, reduceToEqInd_ok skip w all hwf hs]
    simp only
    have hwf' : ∀ J ∈ all.map fun I => I.fold skip w, J.WellFormed := by
      intro J hJ
      obtain ⟨I, hI, rfl⟩ := List.mem_map.mp hJ
      exact fold_wf skip w (hwf I hI)
    have hmax' : ∀ J ∈ all.map fun I => I.fold skip w, J.claim.nVars ≤ r.length := by
      intro J hJ
      obtain ⟨I, hI, rfl⟩ := List.mem_map.mp hJ
      exact hmax I hI
    rw [ofExcept_bind, reduce_ok r _ hwf']
    simp only
    let pend : List (F × Instance F) := coeffs.zip (all.map fun I => (I.fold skip w).regular r)
    have h1 : pend.map Prod.fst = coeffs := List.map_fst_zip (by rw [List.length_map]; omega)
    have h2 : pend.map Prod.snd = all.map fun I => (I.fold skip w).regular r :=
      List.map_snd_zip (by rw [List.length_map]; omega)
    have h3 : pend.map (fun a => a.2.claim)
        = ((all.map fun I => I.fold skip w).map fun I => I.regular r).map fun I => I.claim := by
      rw [List.map_map, ← Function.comp_def (fun I : EqInstance F => I.regular r)] 
      have := congrArg (List.map fun I : Instance F => I.claim) h2
      rw [List.map_map] at this
      exact this.trans (by rw [List.map_map, List.map_map]; rfl)
    have hin : ∀ a ∈ pend, ∃ I ∈ all, a.2 = (I.fold skip w).regular r := by
      intro a ha
      obtain ⟨I, hI, e⟩ := List.mem_map.mp (List.of_mem_zip ha).2
      exact ⟨I, hI, e.symm⟩
    obtain ⟨b, hb, he⟩ : ∃ b ∈ pend, b.2 = (big.fold skip w).regular r := by
      have : (big.fold skip w).regular r ∈ pend.map Prod.snd := by
        rw [h2]; exact List.mem_map.mpr ⟨big, hbig, rfl⟩
      obtain ⟨b, hb, e⟩ := List.mem_map.mp this
      exact ⟨b, hb, e⟩
    have hbn : b.2.claim.nVars = r.length := by rw [he]; exact hr
    have hsum : (pend.map fun a => batchWeightedValue a.1 a.2.trues).sum = foldedTruth skip w r all coeffs := by
      unfold foldedTruth
      congr 1
      refine List.ext_getElem (by simp [pend, hc]) fun i hi hi' => ?_
      simp [pend]
    have hpre := prebatched_err .highToLow pend
      (fun a ha => by
        obtain ⟨I, hI, e⟩ := hin a ha
        rw [e]
        exact regular_wf r (fold_wf skip w (hwf I hI)))
      b hb
      (fun a ha => by
        obtain ⟨I, hI, e⟩ := hin a ha
        rw [hbn, e]
        exact hmax I hI)
      (by
        rcases hdeg with h | h
        · exact Or.inl (by rw [hbn]; exact h)
        · refine Or.inr ?_
          rw [he]
          refine regular_degree_pos r _ ?_
          show big.claim.zeros.map _ ≠ []
          simpa using h)
      (D + 1)
      (fun a ha => by
        obtain ⟨I, hI, e⟩ := hin a ha
        rw [e]
        refine regular_degree r _ D fun s hs => ?_
        obtain ⟨c, hc', rfl⟩ := List.mem_map.mp hs
        exact hD I hI c hc')
      sum (by rw [hsum]; exact hne)
    rw [h1, h2, h3, hbn] at hpre
    refine (soundErr_bind (ε' := 0) hpre (Post.trivial _) fun out _ hng => ?_).mono (by omega)
    cases hv : verifySumcheckOutputs .ascendingVars ((all.map fun I => I.fold skip w).map fun J => J.claim) r
        (reverseFor .highToLow out) with
    | error e => exact .fail
    | ok out' =>
      refine .ret fun hg => hng ?_
      have := front_of_eq .highToLow .ascendingVars (all.map fun I => I.fold skip w) r hmax' (Or.inl rfl)
        out out' hv hg
      rw [List.map_map] at this
      exact this

/-- What is known about the output of the rounds after the univariate one. -/
def UnskippedShape (all : List (ZeroInstance F)) (r : List F) (out : Output F) : Prop :=
  out.challenges.length = r.length ∧
    List.Forall₂ (fun (I : ZeroInstance F) e => e.length = I.tables.length) all out.multilinearEvals

theorem unskipped_post (skip : Nat) (all : List (ZeroInstance F)) (r : List F)
    (hwf : ∀ I ∈ all, I.WellFormed) (coeffs : List F) (sum : F) :
    Post (UnskippedShape all r) (verifyUnskipped skip (all.map fun I => I.claim) r coeffs sum) := by
  unfold verifyUnskipped
  by_cases hs : Verif.Sorting.isSortedAscending ((all.map fun I => I.claim).map fun c => c.nVars) = false
  · rw [ofExcept_bind]
    unfold reduceToEqInd
    rw [if_pos hs]
    trivial
  · rw [ofExcept_bind, reduceToEqInd_ok skip (fun _ => 0) all hwf hs]
    simp only
    refine Post.bind (Post.trivial _) fun regular _ => ?_
    refine Post.bind (Post.trivial _) fun out _ => ?_
    refine Post.ofExcept fun out' hv => ?_
    obtain ⟨h1, h2, -, h4, h5⟩ := (verifyOutputs_iff _ _ _ _ _).mp hv
    refine ⟨by rw [h4, ← h2], ?_⟩
    rw [List.forall₂_iff_get] at h5 ⊢
    obtain ⟨hl, hg⟩ := h5
    rw [List.length_zip, List.length_map, List.length_map] at hl
    rw [List.length_map, List.length_map] at h1
    refine ⟨by omega, fun i hi hi' => ?_⟩
    have := (hg i (by rw [List.length_zip, List.length_map, List.length_map]; omega) hi').1
    simp only [List.get_eq_getElem, List.getElem_zip, List.getElem_map] at this ⊢
    rw [this, (hwf _ (List.getElem_mem _)).nMultilinears]
    rfl

/-! ## The reduction -/

/-- `IndexComposition::new(n + 1, [i, n], BivariateProduct {})`. -/
def lastProduct (n i : Nat) : Composition F where
  nVars := n + 1
  degree := 2
  evaluate := fun q =>
    if q.length ≠ n + 1 then .error (.incorrectQuerySize (n + 1) q.length)
    else match [i, n].mapM fun i => q[i]? with
      | some sub => (Verif.Gkr.productOf 2).evaluate sub
      | none => .error .panic

theorem lastProduct_represents {n i : Nat} (h : i < n) :
    Represents (lastProduct (F := F) n i) (MvPolynomial.X i * MvPolynomial.X n) where
  evaluate := by
    intro q hq
    have hq' : q.length = n + 1 := hq
    have h1 : q[i]? = some q[i] := List.getElem?_eq_getElem (by omega)
    have h2 : q[n]? = some q[n] := List.getElem?_eq_getElem (by omega)
    unfold lastProduct
    simp only [hq', ne_eq, not_true_eq_false, if_false, List.mapM_cons, List.mapM_nil, h1, h2]
    simp [Verif.Gkr.productOf, evalAt, h1, h2]
  degree := by
    refine (MvPolynomial.totalDegree_mul _ _).trans ?_
    simp [lastProduct, MvPolynomial.totalDegree_X]

/-- The claim of the univariatizing reduction. -/
noncomputable def reductionInstance (skip : Nat) (w : Nat → F) (y : List F) (all : List (ZeroInstance F))
    (evals : List F) : Instance F :=
  ⟨⟨skip, evals.length + 1, evals.zipIdx.map fun p => ⟨lastProduct evals.length p.2, p.1⟩⟩,
    (List.range evals.length).map fun i => MvPolynomial.X i * MvPolynomial.X evals.length,
    (all.flatMap fun I => I.projected skip y) ++ [w]⟩

theorem reductionClaim_ok (skip : Nat) (w : Nat → F) (y : List F) (all : List (ZeroInstance F))
    (evals : List (List F)) :
    univariatizingReductionClaim skip evals = .ok (reductionInstance skip w y all evals.flatten).claim := by
  unfold univariatizingReductionClaim
  have hlen : (evals.map List.length).sum = evals.flatten.length := by rw [List.length_flatten]
  simp only [hlen]
  have hsums : reductionSums evals.flatten.length evals.flatten
      = .ok (evals.flatten.zipIdx.map fun p => ⟨lastProduct evals.flatten.length p.2, p.1⟩) := by
    unfold reductionSums
    refine collect_map_ok _ _ _ fun p hp => ?_
    have hi : p.2 < evals.flatten.length := by
      have := List.mem_zipIdx hp
      omega
    unfold Verif.Gkr.indexComposition
    rw [if_neg (by simp; omega)]
    rfl
  rw [hsums]
  simp only
  unfold Claim.new
  have hn : (evals.flatten.zipIdx.map fun p =>
      (⟨lastProduct evals.flatten.length p.2, p.1⟩ : CompositeSum F)).find?
      (fun s => s.composition.nVars != evals.flatten.length + 1) = none := by
    rw [List.find?_eq_none]
    intro s hs
    obtain ⟨p, -, rfl⟩ := List.mem_map.mp hs
    simp [lastProduct]
  rw [hn]
  rfl

theorem reduction_wf (skip : Nat) (w : Nat → F) (y : List F) (all : List (ZeroInstance F))
    (evals : List F) (hl : (all.flatMap fun I => I.projected skip y).length = evals.length) :
    (reductionInstance skip w y all evals).WellFormed where
  nMultilinears := by
    show (_ ++ [w]).length = evals.length + 1
    rw [List.length_append, hl, List.length_singleton]
  compositions := by
    rw [List.forall₂_iff_get]
    refine ⟨by simp [reductionInstance], fun i hi hi' => ?_⟩
    simp only [reductionInstance, List.length_map, List.length_zipIdx, List.length_range] at hi hi'
    simp only [reductionInstance, List.get_eq_getElem, List.getElem_map, List.getElem_zipIdx,
      List.getElem_range, Nat.zero_add]
    exact ⟨lastProduct_represents hi, rfl⟩

/-- The claim of the reduction is true exactly when the evaluations are those of the folded
multilinears. -/
theorem reduction_holds (skip : Nat) (w : Nat → F) (y : List F) (all : List (ZeroInstance F))
    (evals : List F) (hl : (all.flatMap fun I => I.projected skip y).length = evals.length) :
    (reductionInstance skip w y all evals).Holds ↔
      evals = (all.flatMap fun I => I.projected skip y).map fun t => ∑ u ∈ range (2 ^ skip), w u * t u := by
  unfold Instance.Holds
  rw [List.forall₂_iff_get]
  have hval : ∀ i (hi : i < evals.length),
      cubeSum skip ((all.flatMap fun I => I.projected skip y) ++ [w])
        (MvPolynomial.X i * MvPolynomial.X evals.length)
        = ∑ u ∈ range (2 ^ skip), w u * ((all.flatMap fun I : ZeroInstance F => I.projected skip y)[i]'(by omega)) u := by
    intro i hi
    unfold cubeSum evalAt
    refine Finset.sum_congr rfl fun u _ => ?_
    rw [map_mul, MvPolynomial.eval_X, MvPolynomial.eval_X, List.getD_eq_getElem?_getD,
      List.getD_eq_getElem?_getD, List.getElem?_map, List.getElem?_map, List.getElem?_append_left (by omega),
      List.getElem?_append_right (by omega), List.getElem?_eq_getElem (by omega),
      show evals.length - (all.flatMap fun I => I.projected skip y).length = 0 by omega]
    simp only [List.getElem?_cons_zero, Option.map_some, Option.getD_some]
    ring
  constructor
  · rintro ⟨-, h⟩
    refine List.ext_getElem (by simp [hl]) fun i hi hi' => ?_
    have := h i (by simpa [reductionInstance] using hi) (by simpa [reductionInstance] using hi)
    simp only [reductionInstance, List.get_eq_getElem, List.getElem_map, List.getElem_zipIdx,
      List.getElem_range, Nat.zero_add] at this
    rw [this, List.getElem_map, hval i hi]
  · intro h
    refine ⟨by simp [reductionInstance], fun i hi hi' => ?_⟩
    simp only [reductionInstance, List.length_map, List.length_zipIdx, List.length_range] at hi hi'
    simp only [reductionInstance, List.get_eq_getElem, List.getElem_map, List.getElem_zipIdx,
      List.getElem_range, Nat.zero_add]
    rw [hval i hi]
    have := congrArg (fun l : List F => l[i]?) h
    simp only [List.getElem?_map] at this
    rw [List.getElem?_eq_getElem hi, List.getElem?_eq_getElem (by omega)] at this
    simpa using this

theorem fold_mle (skip : Nat) (w : Nat → F) (t : Nat → F) (n : Nat) (ys : List F) :
    mle (fun v => ∑ u ∈ range (2 ^ skip), w u * t ((u + 2 ^ skip * v) % 2 ^ n)) ys
      = ∑ u ∈ range (2 ^ skip), w u * mle (fun v => t ((u + 2 ^ skip * v) % 2 ^ n)) ys := by
  rw [mle_sum]
  exact Finset.sum_congr rfl fun u _ => mle_smul _ _ _

/-- The projected multilinears at the skipped challenges are the multilinears at the final point. -/
theorem projected_mle (skip : Nat) (t : Nat → F) (n : Nat) (s y : List F) (hs : s.length = skip)
    (hy : n - skip ≤ y.length) :
    mle (fun u => mle (fun v => t ((u + 2 ^ skip * v) % 2 ^ n)) (suffix (n - skip) y)) s
      = mle t (s.take n ++ suffix (n - skip) y) := by
  by_cases hn : skip ≤ n
  · rw [List.take_of_length_le (by omega), mle_append]
    have hl : (suffix (n - skip) y).length = n - skip := by rw [suffix_length]; omega
    have e : ∀ u < 2 ^ skip, ∀ v < 2 ^ (n - skip), (u + 2 ^ skip * v) % 2 ^ n = u + 2 ^ skip * v := by
      intro u hu v hv
      refine Nat.mod_eq_of_lt ?_
      have : 2 ^ n = 2 ^ skip * 2 ^ (n - skip) := by rw [← Nat.pow_add]; congr 1; omega
      rw [this]
      calc u + 2 ^ skip * v < 2 ^ skip + 2 ^ skip * v := by omega
        _ = 2 ^ skip * (v + 1) := by ring
        _ ≤ _ := Nat.mul_le_mul_left _ hv
    rw [hs]
    unfold mle
    rw [hl, hs]
    simp only [Finset.mul_sum]
    rw [Finset.sum_comm]
    refine Finset.sum_congr rfl fun v hv => Finset.sum_congr rfl fun u hu => ?_
    rw [e u (Finset.mem_range.mp hu) v (Finset.mem_range.mp hv)]
    ring
  · rw [show n - skip = 0 by omega, suffix_zero, List.append_nil]
    conv_lhs => rw [← List.take_append_drop n s]
    rw [mle_append, List.length_take, show min n s.length = n by omega]
    refine Eq.trans ?_ (mle_const (mle t (s.take n)) (s.drop n))
    refine mle_congr fun j _ => mle_congr fun i hi => ?_
    rw [List.length_take, show min n s.length = n by omega] at hi
    rw [mle_nil, Nat.mul_zero, Nat.add_zero, Nat.add_mul_mod_self_left, Nat.mod_eq_of_lt hi]

theorem flatMap_map {A B C : Type} (l : List A) (f : A → List B) (g : B → C) :
    (l.flatMap f).map g = l.flatMap fun a => (f a).map g := by
  rw [List.map_flatMap]

/-- Correct evaluations after the univariate round, as one list. -/
theorem eqCorrect_iff (skip : Nat) (w : Nat → F) (all : List (ZeroInstance F)) (r : List F) (out : Output F)
    (hsh : UnskippedShape all r out) :
    EqCorrectEvals (all.map fun I => I.fold skip w) out ↔
      out.multilinearEvals.flatten = (all.flatMap fun I => I.projected skip out.challenges).map
        fun t => ∑ u ∈ range (2 ^ skip), w u * t u := by
  obtain ⟨-, hsh⟩ := hsh
  unfold EqCorrectEvals
  rw [List.forall₂_map_left_iff]
  generalize out.challenges = y
  generalize out.multilinearEvals = es at hsh
  have key : ∀ I : ZeroInstance F,
      ((I.fold skip w).tables.map fun t => mle t (suffix (I.fold skip w).claim.nVars y))
        = (I.projected skip y).map fun t => ∑ u ∈ range (2 ^ skip), w u * t u := by
    intro I
    show (I.tables.map _).map _ = (I.tables.map _).map _
    rw [List.map_map, List.map_map]
    exact List.map_congr_left fun t _ => fold_mle skip w t _ _
  induction hsh with
  | nil => simp
  | @cons I e all es he _ ih =>
    rw [List.forall₂_cons, List.flatten_cons, List.flatMap_cons, List.map_append, key]
    constructor
    · rintro ⟨h1, h2⟩
      rw [h1, ih.mp h2]
    · intro h
      have h' := List.append_inj h (by rw [he]; simp [ZeroInstance.projected])
      exact ⟨h'.1, ih.mpr h'.2⟩

section

variable {K : Type} [AddCommGroup K]

theorem reductionOutput_inv {basisChecked : Nat → Option K} {emb : K → F} {claim : Claim F} {skip : Nat}
    {z : F} {out out' : Output F} (hskip : skip ≤ 64)
    (h : verifyReductionOutput basisChecked emb claim skip z out = .ok out') :
    ∃ ps d, subspacePoints basisChecked emb skip = .ok ps ∧ zeroDomain ps = .ok d ∧
      out.challenges.length = skip ∧ out'.challenges = out.challenges ∧
      ∃ e, out.multilinearEvals = [e ++ [mle (lagW ps z) out.challenges]] ∧ out'.multilinearEvals = [e] := by
  unfold verifyReductionOutput at h
  split at h
  · cases h
  · split at h
    · cases h
    · rename_i h1 h2
      push Not at h2
      cases hps : subspacePoints basisChecked emb skip with
      | error e => rw [hps] at h; cases h
      | ok ps =>
        rw [hps] at h
        simp only at h
        cases hd : zeroDomain ps with
        | error e => rw [hd] at h; cases h
        | ok d =>
          rw [hd] at h
          simp only at h
          obtain ⟨m, hm, hev⟩ := lagrangeMle_eval hd skip (subspacePoints_length hskip hps) z out.challenges h2.1
          rw [hm] at h
          simp only [hev] at h
          cases hx : out.multilinearEvals with
          | nil => rw [hx] at h; cases h
          | cons first rest =>
            rw [hx] at h
            simp only at h
            have hrest : rest = [] := by
              have := h2.2
              rw [hx, List.length_cons] at this
              exact List.length_eq_zero_iff.mp (by omega)
            subst hrest
            cases hl : first.getLast? with
            | none => rw [hl] at h; cases h
            | some last =>
              rw [hl] at h
              simp only at h
              split at h
              · cases h
              · rename_i h3
                push Not at h3
                injection h with h
                refine ⟨ps, d, rfl, hd, h2.1, by rw [← h], first.dropLast, ?_, by rw [← h]⟩
                rw [← h3]
                congr 1
                exact getLast_append first (by rintro rfl; simp at hl) last hl

/-- The reduction does not accept when its domain cannot be built. -/
theorem reduction_never (basisChecked : Nat → Option K) (emb : K → F) (skip : Nat) (hskip : skip ≤ 64)
    (hno : ¬ ∃ ps d, subspacePoints basisChecked emb skip = .ok ps ∧ zeroDomain ps = .ok d)
    (z : F) (eqOut : Output F) :
    Post (fun _ => False) (verifyReduction basisChecked emb skip z eqOut) := by
  unfold verifyReduction
  refine Post.bind (Post.trivial _) fun claim _ => ?_
  refine Post.bind (Post.trivial _) fun out _ => ?_
  refine Post.bind (Q := fun _ => False) (Post.ofExcept fun out' h => ?_) fun _ h => h.elim
  obtain ⟨ps, d, h1, h2, -⟩ := reductionOutput_inv hskip h
  exact hno ⟨ps, d, h1, h2⟩

theorem reduction_err (basisChecked : Nat → Option K) (emb : K → F) (skip : Nat) (hskip : skip ≤ 64)
    {ps : List F} (hps : subspacePoints basisChecked emb skip = .ok ps) (z : F)
    (all : List (ZeroInstance F)) (r : List F) (hmax : ∀ I ∈ all, I.claim.nVars - skip ≤ r.length)
    (eqOut : Output F) (hsh : UnskippedShape all r eqOut)
    (hng : ¬ EqCorrectEvals (all.map fun I => I.fold skip (lagW ps z)) eqOut) :
    SoundErr (ZeroCorrectEvals all) (verifyReduction basisChecked emb skip z eqOut)
      (skip * 2 + (all.map fun I => I.tables.length).sum) := by
  have hlen : (all.flatMap fun I => I.projected skip eqOut.challenges).length
      = eqOut.multilinearEvals.flatten.length := by
    have := hsh.2
    rw [List.length_flatMap, List.length_flatten]
    congr 1
    rw [List.forall₂_iff_get] at this
    refine List.ext_getElem (by simp [this.1]) fun i hi hi' => ?_
    rw [List.length_map] at hi hi'
    have h := this.2 i hi hi'
    simp only [List.get_eq_getElem] at h
    simp [ZeroInstance.projected, h]
  have hN : eqOut.multilinearEvals.flatten.length = (all.map fun I => I.tables.length).sum := by
    rw [← hlen, List.length_flatMap]
    congr 1
    exact List.map_congr_left fun I _ => by simp [ZeroInstance.projected]
  rw [eqCorrect_iff skip _ all r eqOut hsh] at hng
  unfold verifyReduction
  rw [ofExcept_bind, reductionClaim_ok skip (lagW ps z) eqOut.challenges all]
  simp only
  let R := reductionInstance skip (lagW ps z) eqOut.challenges all eqOut.multilinearEvals.flatten
  have hne : eqOut.multilinearEvals.flatten ≠ [] := by
    intro h0
    apply hng
    rw [h0] at hlen ⊢
    rw [List.length_eq_zero_iff.mp hlen]
    rfl
  have hpos : 0 < eqOut.multilinearEvals.flatten.length := List.length_pos_of_ne_nil hne
  have hdegs : ∀ s ∈ R.claim.sums, s.composition.degree = 2 := by
    intro s hs
    obtain ⟨p, -, rfl⟩ := List.mem_map.mp hs
    rfl
  have hmaxdeg : R.claim.maxIndividualDegree = 2 := by
    have hsl : R.claim.sums.length = eqOut.multilinearEvals.flatten.length := by
      show (List.map _ _).length = _
      rw [List.length_map, List.length_zipIdx]
    unfold Claim.maxIndividualDegree
    have : (R.claim.sums.map fun s => s.composition.degree) = List.replicate R.claim.sums.length 2 := by
      rw [List.eq_replicate_iff]
      refine ⟨by simp, fun b hb => ?_⟩
      obtain ⟨s, hs, rfl⟩ := List.mem_map.mp hb
      exact hdegs s hs
    rw [this, hsl]
    have hm : (List.replicate eqOut.multilinearEvals.flatten.length 2).max? = some 2 := by
      rw [List.max?_eq_some_iff]
      refine ⟨List.mem_replicate.mpr ⟨by omega, rfl⟩, fun b hb => ?_⟩
      rw [(List.mem_replicate.mp hb).2]
    rw [hm]
    rfl
  have hfalse : ¬ R.Holds := fun h => hng ((reduction_holds _ _ _ _ _ hlen).mp h)
  have hfront := frontLoaded_err .highToLow [R]
    (fun I hI => by
      obtain rfl := List.mem_singleton.mp hI
      exact reduction_wf _ _ _ _ _ hlen)
    R (List.mem_singleton_self _) (fun I hI => by
      obtain rfl := List.mem_singleton.mp hI
      exact le_refl _)
    (Or.inr (by rw [hmaxdeg]; omega)) 2
    (fun I hI => by
      obtain rfl := List.mem_singleton.mp hI
      rw [hmaxdeg])
    ⟨R, List.mem_singleton_self _, hfalse⟩
  have hcount : ([R].map fun I => I.claim.sums.length).sum = (all.map fun I => I.tables.length).sum := by
    rw [← hN]
    show ([(List.map _ _).length] : List Nat).sum = _
    rw [List.length_map, List.length_zipIdx]
    simp
  rw [hcount] at hfront
  refine (soundErr_bind (ε' := 0) hfront (Post.trivial _) fun out _ hno => ?_).mono (le_refl _)
  rw [ofExcept_bind]
  cases hv : verifyReductionOutput basisChecked emb R.claim skip z (reverseFor .highToLow out) with
  | error e => exact .fail
  | ok out' =>
    simp only
    obtain ⟨ps', d', g1, g2, g3, g4, e, g5, g6⟩ := reductionOutput_inv hskip hv
    rw [hps] at g1
    injection g1 with g1
    subst g1
    rw [g6]
    refine .ret fun hg => hno ?_
    unfold ZeroCorrectEvals at hg
    simp only [List.getLast_singleton, g4] at hg
    obtain ⟨e1, -⟩ := reverseFor_evals .highToLow out
    have hg5 : out.multilinearEvals = [e ++ [mle (lagW ps z) (reverseFor .highToLow out).challenges]] := by
      rw [← e1]; exact g5
    have hch : (reverseFor .highToLow out).challenges = out.challenges.reverse := rfl
    rw [hch] at g3 hg hg5
    rw [List.length_reverse] at g3
    unfold FrontCorrectEvals
    rw [hg5, List.forall₂_cons, List.forall₂_nil_left_iff]
    refine ⟨?_, rfl⟩
    have htake : out.challenges.take R.claim.nVars = out.challenges :=
      List.take_of_length_le (by show _ ≤ skip; omega)
    rw [htake]
    show e ++ _ = ((all.flatMap fun I => I.projected skip eqOut.challenges) ++ [lagW ps z]).map _
    rw [List.map_append, List.map_singleton]
    congr 1
    rw [hg, List.map_flatMap]
    refine List.flatMap_congr fun I hI => ?_
    unfold ZeroInstance.projected
    rw [List.map_map]
    refine List.map_congr_left fun t _ => ?_
    show mle t (zeroPoint ⟨out.challenges.reverse, eqOut.challenges, e⟩ I.claim.nVars) = _
    unfold zeroPoint
    rw [List.length_reverse, g3]
    exact (projected_mle skip t I.claim.nVars _ _ (by rw [List.length_reverse, g3])
      (by rw [hsh.1]; exact hmax I hI)).symm

end

end Verif.Sumcheck
