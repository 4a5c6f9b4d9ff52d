import Verif.Gkr.LemmasGpa
import Verif.Utils.PropsSorting

/-! The loop of the grand product verifier. -/

set_option linter.dupNamespace false
set_option linter.unusedSectionVars false

namespace Verif.Gkr

open Verif.Mle Verif.Protocol Verif.Sumcheck Finset

variable {F : Type} [Field F] [DecidableEq F]

/-- A grand product claim, the table it is about, and the evaluation claimed for the current layer. -/
abbrev Pending (F : Type) := (GrandProductClaim F × (Nat → F)) × F

theorem processFinished_ok (k : Nat) (pt : List F) : ∀ (se : List (Pending F)) (done : List (LayerClaim F)),
    ∃ a b, se = a ++ b ∧ (∀ q ∈ a, q.1.1.nVars = k) ∧ (∀ q l, b = q :: l → q.1.1.nVars ≠ k) ∧
      processFinishedClaims k (se.map fun q => q.1.1) (se.map fun q => ⟨pt, q.2⟩) done =
        .ok (b.map fun q => q.1.1, b.map fun q => ⟨pt, q.2⟩, (a.map fun q => ⟨pt, q.2⟩).reverse ++ done)
  | [], done => ⟨[], [], rfl, by simp, by simp, rfl⟩
  | q :: se, done => by
    by_cases h : q.1.1.nVars = k
    · obtain ⟨a, b, h1, h2, h3, h4⟩ := processFinished_ok k pt se (⟨pt, q.2⟩ :: done)
      refine ⟨q :: a, b, by rw [h1]; rfl, ?_, h3, ?_⟩
      · intro p hp
        rcases List.mem_cons.mp hp with rfl | hp
        · exact h
        · exact h2 p hp
      · show processFinishedClaims k (q.1.1 :: se.map _) (⟨pt, q.2⟩ :: se.map _) done = _
        rw [processFinishedClaims, if_neg (not_not.mpr h)]
        refine h4.trans ?_
        simp
    · refine ⟨[], q :: se, rfl, by simp, ?_, ?_⟩
      · intro p l hp
        injection hp with hp _
        rw [← hp]
        exact h
      · show processFinishedClaims k (q.1.1 :: se.map _) (⟨pt, q.2⟩ :: se.map _) done = _
        rw [processFinishedClaims, if_pos h]
        rfl

/-- The claims that are left have more variables. -/
theorem left_gt {k : Nat} {a b se : List (Pending F)} (h1 : se = a ++ b)
    (hasc : se.Pairwise fun p q => p.1.1.nVars ≤ q.1.1.nVars) (hge : ∀ q ∈ se, k ≤ q.1.1.nVars)
    (h3 : ∀ q l, b = q :: l → q.1.1.nVars ≠ k) :
    (b.Pairwise fun p q => p.1.1.nVars ≤ q.1.1.nVars) ∧ ∀ q ∈ b, k + 1 ≤ q.1.1.nVars := by
  subst h1
  have hb := (List.pairwise_append.mp hasc).2.1
  refine ⟨hb, fun q hq => ?_⟩
  cases b with
  | nil => simp at hq
  | cons p l =>
    have := h3 p l rfl
    have := hge p (by simp)
    rcases List.mem_cons.mp hq with rfl | hq
    · omega
    · have := (List.pairwise_cons.mp hb).1 q hq
      omega

/-- The state after a layer has been reduced. -/
theorem next_state (b : List (Pending F)) (pt' : List F) (evals : List F) (hl : evals.length = b.length) :
    ∃ se' : List (Pending F), se'.map (fun q => q.1) = b.map (fun q => q.1) ∧
      se'.map (fun q => q.2) = evals.reverse ∧
      (b.map fun q => q.1.1) = (se'.map fun q => q.1.1) ∧
      ((evals.map fun e => (⟨pt', e⟩ : LayerClaim F)).reverse) = se'.map fun q => ⟨pt', q.2⟩ := by
  have e1 : ((b.map fun q => q.1).zip evals.reverse).map (fun q => q.1) = b.map (fun q => q.1) :=
    List.map_fst_zip (by simp [hl])
  have e2 : ((b.map fun q => q.1).zip evals.reverse).map (fun q => q.2) = evals.reverse :=
    List.map_snd_zip (by simp [hl])
  refine ⟨_, e1, e2, ?_, ?_⟩
  · have := congrArg (List.map fun p : GrandProductClaim F × (Nat → F) => p.1) e1
    rw [List.map_map, List.map_map] at this
    exact this.symm
  · have := congrArg (List.map fun e => (⟨pt', e⟩ : LayerClaim F)) e2
    rw [List.map_map, List.map_reverse] at this
    exact this.symm

theorem pending_of_map {b se' : List (Pending F)} (h : se'.map (fun q => q.1) = b.map (fun q => q.1))
    {lo hi : Nat} (hb : (b.Pairwise fun p q => p.1.1.nVars ≤ q.1.1.nVars) ∧ ∀ q ∈ b, lo ≤ q.1.1.nVars)
    (hhi : ∀ q ∈ b, q.1.1.nVars ≤ hi) :
    se'.length = b.length ∧ (se'.Pairwise fun p q => p.1.1.nVars ≤ q.1.1.nVars) ∧
      (∀ q ∈ se', lo ≤ q.1.1.nVars) ∧ ∀ q ∈ se', q.1.1.nVars ≤ hi := by
  refine ⟨by simpa using congrArg List.length h, ?_, ?_, ?_⟩
  · have : (b.map fun q => q.1).Pairwise fun p q => p.1.nVars ≤ q.1.nVars := List.pairwise_map.mpr hb.1
    rw [← h] at this
    exact (List.pairwise_map (f := fun q : Pending F => q.1) (R := fun p q => p.1.nVars ≤ q.1.nVars)).mp this
  · intro q hq
    have : q.1 ∈ b.map fun q => q.1 := by rw [← h]; exact List.mem_map.mpr ⟨q, hq, rfl⟩
    obtain ⟨p, hp, e⟩ := List.mem_map.mp this
    rw [← e]
    exact hb.2 p hp
  · intro q hq
    have : q.1 ∈ b.map fun q => q.1 := by rw [← h]; exact List.mem_map.mpr ⟨q, hq, rfl⟩
    obtain ⟨p, hp, e⟩ := List.mem_map.mp this
    rw [← e]
    exact hhi p hp

/-- `reduce_post` for pending claims. -/
theorem reduce_pending_post (order : EvaluationOrder) (pt : List F) (b : List (Pending F)) :
    Post (fun res => ∃ (pt' : List F) (evals : List F), pt'.length = pt.length + 1 ∧ evals.length = b.length ∧
      res = evals.map fun e => ⟨pt', e⟩)
      (reduceLayerClaimBatch order (b.map fun q => (⟨pt, q.2⟩ : LayerClaim F)).reverse) := by
  have := reduce_post order pt (b.reverse.map fun q => (q.2, q.1.2, q.1.2))
  rw [List.map_map, List.length_map, List.length_reverse] at this
  rw [← List.map_reverse]
  exact this

theorem verifyLayers_post (order : EvaluationOrder) : ∀ (left k : Nat) (se : List (Pending F)) (pt : List F)
    (done : List (LayerClaim F)),
    (se.Pairwise fun p q => p.1.1.nVars ≤ q.1.1.nVars) → (∀ q ∈ se, k ≤ q.1.1.nVars) →
    (∀ q ∈ se, q.1.1.nVars ≤ k + left) →
    Post (fun res => ∃ x, res = x ++ done ∧ x.length = se.length)
      (verifyLayers order left k (se.map fun q => q.1.1) (se.map fun q => ⟨pt, q.2⟩) done)
  | 0, k, se, pt, done, hasc, hge, hle => by
    obtain ⟨a, b, h1, h2, h3, h4⟩ := processFinished_ok k pt se done
    rw [verifyLayers, h4, ofExcept_bind]
    have hb : b = [] := by
      cases b with
      | nil => rfl
      | cons q l =>
        have := (left_gt h1 hasc hge h3).2 q (by simp)
        have := hle q (by simp [h1])
        omega
    subst hb
    exact ⟨(a.map fun q => ⟨pt, q.2⟩).reverse, rfl, by simp [h1]⟩
  | left + 1, k, se, pt, done, hasc, hge, hle => by
    obtain ⟨a, b, h1, h2, h3, h4⟩ := processFinished_ok k pt se done
    rw [verifyLayers, h4, ofExcept_bind]
    simp only
    refine Post.bind (reduce_pending_post order pt b) ?_
    rintro res ⟨pt', evals, hp, hl, rfl⟩
    obtain ⟨se', e1, e2, e3, e4⟩ := next_state b pt' evals hl
    rw [e3, e4]
    obtain ⟨g0, g1, g2, g3⟩ := pending_of_map e1 (left_gt h1 hasc hge h3)
      (hi := k + 1 + left) (fun q hq => by have := hle q (by simp [h1, hq]); omega)
    refine (verifyLayers_post order left (k + 1) se' pt' _ g1 g2 g3).mono ?_
    rintro res ⟨x, rfl, hx⟩
    exact ⟨x ++ (a.map fun q => ⟨pt, q.2⟩).reverse, by simp, by simp [h1, hx, g0]; omega⟩

theorem forall2_append_inv {A B : Type} {R : A → B → Prop} {a b : List A} {c d : List B}
    (h : List.Forall₂ R (a ++ b) (c ++ d)) (hl : c.length = a.length) : List.Forall₂ R b d := by
  have h1 := List.forall₂_drop a.length h
  have e2 : (c ++ d).drop a.length = d := by rw [← hl]; simp
  rwa [List.drop_left, e2] at h1

theorem not_forall2_of_mem {A B : Type} {R : A → B → Prop} {a : List (A × B)} {q : A × B} (hq : q ∈ a)
    (hr : ¬ R q.1 q.2) : ¬ List.Forall₂ R (a.map Prod.fst) (a.map Prod.snd) := by
  rw [List.forall₂_map_left_iff, List.forall₂_map_right_iff, List.forall₂_same]
  exact fun h => hr (h q hq)

/-- A false finished claim is never repaired. -/
theorem verifyLayers_bad_done (order : EvaluationOrder) (ε left k : Nat) (se : List (Pending F)) (pt : List F)
    (done : List (LayerClaim F)) (dn : List (GrandProductClaim F × (Nat → F)))
    (hasc : se.Pairwise fun p q => p.1.1.nVars ≤ q.1.1.nVars) (hge : ∀ q ∈ se, k ≤ q.1.1.nVars)
    (hle : ∀ q ∈ se, q.1.1.nVars ≤ k + left) (hbad : ¬ FinalClaimsHold dn done) :
    SoundErr (FinalClaimsHold ((se.map fun q => q.1).reverse ++ dn))
      (verifyLayers order left k (se.map fun q => q.1.1) (se.map fun q => ⟨pt, q.2⟩) done) ε := by
  refine soundErr_of_post ε ((verifyLayers_post order left k se pt done hasc hge hle).mono ?_)
  rintro res ⟨x, rfl, hx⟩ hg
  exact hbad (forall2_append_inv hg (by simp [hx]))

/-- Either a finished claim is false or a pending one. -/
theorem bad_after_process {k : Nat} {pt : List F} {a b se : List (Pending F)} {done : List (LayerClaim F)}
    {dn : List (GrandProductClaim F × (Nat → F))} (hpt : pt.length = k) (h1 : se = a ++ b)
    (h2 : ∀ q ∈ a, q.1.1.nVars = k) (hlen : dn.length = done.length)
    (hbad : ¬ FinalClaimsHold dn done ∨ ∃ q ∈ se, q.2 ≠ mle (tab k q.1) pt) :
    ¬ FinalClaimsHold ((a.map fun q => q.1).reverse ++ dn) ((a.map fun q => ⟨pt, q.2⟩).reverse ++ done) ∨
      ∃ q ∈ b, q.2 ≠ mle (tab k q.1) pt := by
  rcases hbad with hbad | ⟨q, hq, hne⟩
  · exact Or.inl fun h => hbad (forall2_append_inv h (by simp))
  · rw [h1, List.mem_append] at hq
    rcases hq with hq | hq
    · refine Or.inl fun h => ?_
      have h' := List.forall₂_take a.length h
      rw [List.take_append_of_le_length (by simp), List.take_append_of_le_length (by simp),
        List.take_of_length_le (by simp), List.take_of_length_le (by simp), List.forall₂_reverse_iff,
        List.forall₂_map_left_iff, List.forall₂_map_right_iff, List.forall₂_same] at h'
      have := (h' q hq).2
      refine hne (this.trans ?_)
      rw [← h2 q hq, tab_self]
    · exact Or.inr ⟨q, hq, hne⟩

theorem verifyLayers_err (order : EvaluationOrder) (M : Nat) : ∀ (left k : Nat) (se : List (Pending F))
    (pt : List F) (done : List (LayerClaim F)) (dn : List (GrandProductClaim F × (Nat → F))),
    pt.length = k → (se.Pairwise fun p q => p.1.1.nVars ≤ q.1.1.nVars) → (∀ q ∈ se, k ≤ q.1.1.nVars) →
    (∀ q ∈ se, q.1.1.nVars ≤ k + left) → dn.length = done.length → se.length ≤ M →
    (¬ FinalClaimsHold dn done ∨ ∃ q ∈ se, q.2 ≠ mle (tab k q.1) pt) →
    SoundErr (FinalClaimsHold ((se.map fun q => q.1).reverse ++ dn))
      (verifyLayers order left k (se.map fun q => q.1.1) (se.map fun q => ⟨pt, q.2⟩) done)
      (∑ j ∈ range left, (3 * (k + j) + M + 1))
  | 0, k, se, pt, done, dn, hpt, hasc, hge, hle, hlen, hM, hbad => by
    obtain ⟨a, b, h1, h2, h3, h4⟩ := processFinished_ok k pt se done
    have hb : b = [] := by
      cases b with
      | nil => rfl
      | cons q l =>
        have := (left_gt h1 hasc hge h3).2 q (by simp)
        have := hle q (by simp [h1])
        omega
    rw [verifyLayers, h4, ofExcept_bind]
    refine .ret ?_
    rcases bad_after_process hpt h1 h2 hlen hbad with hb' | ⟨q, hq, _⟩
    · rw [h1, hb, List.append_nil]
      exact hb'
    · rw [hb] at hq
      simp at hq
  | left + 1, k, se, pt, done, dn, hpt, hasc, hge, hle, hlen, hM, hbad => by
    have hgood : ∀ a b : List (Pending F), se = a ++ b → (se.map fun q => q.1).reverse ++ dn =
        (b.map fun q => q.1).reverse ++ ((a.map fun q => q.1).reverse ++ dn) := by
      rintro a b rfl
      simp
    obtain ⟨a, b, h1, h2, h3, h4⟩ := processFinished_ok k pt se done
    have hlt := left_gt h1 hasc hge h3
    have hle' : ∀ q ∈ b, q.1.1.nVars ≤ k + 1 + left := fun q hq => by
      have := hle q (by simp [h1, hq]); omega
    have hlen' : ((a.map fun q => q.1).reverse ++ dn).length =
        ((a.map fun q => (⟨pt, q.2⟩ : LayerClaim F)).reverse ++ done).length := by simp [hlen]
    have hMb : b.length ≤ M := by
      have : se.length = a.length + b.length := by rw [h1, List.length_append]
      omega
    rw [verifyLayers, h4, ofExcept_bind, hgood a b h1]
    simp only
    rcases bad_after_process hpt h1 h2 hlen hbad with hb' | ⟨q, hq, hne⟩
    · refine soundErr_through (reduce_pending_post order pt b) ?_
      rintro res ⟨pt', evals, hp, hl, rfl⟩
      obtain ⟨se', e1, e2, e3, e4⟩ := next_state b pt' evals hl
      obtain ⟨g0, g1, g2, g3⟩ := pending_of_map e1 hlt hle'
      rw [e3, e4, ← e1]
      exact verifyLayers_bad_done order _ left (k + 1) se' pt' _ _ g1 g2 g3 hb'
    · have hε : ∑ j ∈ range (left + 1), (3 * (k + j) + M + 1) =
          (3 * k + M + 1) + ∑ j ∈ range left, (3 * (k + 1 + j) + M + 1) := by
        rw [Finset.sum_range_succ', Nat.add_comm]
        refine congrArg₂ _ (by simp) (Finset.sum_congr rfl fun j _ => by omega)
      rw [hε]
      have hred := reduce_err order pt (b.reverse.map fun q => (q.2, tab (k + 1) q.1))
        ⟨(q.2, tab (k + 1) q.1), List.mem_map.mpr ⟨q, by simpa using hq, rfl⟩, by
          rw [tab_step (hlt.2 q hq)] at hne
          simpa [hpt] using hne⟩
      rw [List.map_map, List.length_map, List.length_reverse, hpt] at hred
      have hrev : (b.map fun q => (⟨pt, q.2⟩ : LayerClaim F)).reverse = b.reverse.map
          ((fun p : F × (Nat → F) => (⟨pt, p.1⟩ : LayerClaim F)) ∘ fun q => (q.2, tab (k + 1) q.1)) := by
        rw [List.map_reverse]
        rfl
      rw [hrev]
      refine soundErr_bind (hred.mono (ε' := 3 * k + M + 1) (by omega)) (Q := fun res => ∃ (pt' : List F) (evals : List F),
        pt'.length = pt.length + 1 ∧ evals.length = b.length ∧ res = evals.map fun e => ⟨pt', e⟩) ?_ ?_
      · rw [← hrev]
        exact reduce_pending_post order pt b
      rintro res ⟨pt', evals, hp, hl, rfl⟩ hng
      obtain ⟨se', e1, e2, e3, e4⟩ := next_state b pt' evals hl
      obtain ⟨g0, g1, g2, g3⟩ := pending_of_map e1 hlt hle'
      rw [e3, e4, ← e1]
      refine verifyLayers_err order M left (k + 1) se' pt' _ _ (by omega) g1 g2 g3 hlen' (by omega) (Or.inr ?_)
      by_contra hc
      push Not at hc
      refine hng ?_
      have he : evals = (se'.map fun q => q.2).reverse := by rw [e2, List.reverse_reverse]
      rw [he, List.map_reverse, List.map_reverse, List.forall₂_reverse_iff]
      have hb2 : (b.map fun q => (q.2, tab (k + 1) q.1)).map Prod.snd = se'.map fun q => tab (k + 1) q.1 := by
        have := congrArg (List.map (tab (k + 1))) e1
        rw [List.map_map, List.map_map] at this
        rw [List.map_map]
        exact this.symm
      have : List.Forall₂ (fun (f : Nat → F) (l : LayerClaim F) => l.eval = mle f l.evalPoint)
          ((b.map fun q => (q.2, tab (k + 1) q.1)).map Prod.snd)
          ((se'.map fun q => q.2).map fun e => ⟨pt', e⟩) := by
        rw [hb2, List.map_map, List.forall₂_map_left_iff, List.forall₂_map_right_iff, List.forall₂_same]
        exact fun q hq => hc q hq
      exact List.forall₂_map_left_iff.mp this

theorem reduce_samples (order : EvaluationOrder) (pt : List F) (b : List (Pending F)) :
    (reduceLayerClaimBatch order (b.map fun q => (⟨pt, q.2⟩ : LayerClaim F)).reverse).SamplesLe (pt.length + 2) := by
  by_cases hne : b = []
  · subst hne
    trivial
  have h := reduce_eq order pt (b.reverse.map fun q => (q.2, q.1.2, q.1.2)) (by simpa using hne)
  rw [List.map_map] at h
  rw [← List.map_reverse]
  refine Eq.mpr (congrArg (fun p => Prog.SamplesLe p _) h) ?_
  have := eqInd_samples order .descendingVars
    [layerInstance pt.length (b.reverse.map fun q => (q.2, q.1.2, q.1.2))] pt
    (by simp [layerInstance_wf]) (layerInstance pt.length (b.reverse.map fun q => (q.2, q.1.2, q.1.2)))
    (List.mem_singleton_self _) rfl (by simp [layerInstance])
  refine samplesLe_mono (samplesLe_bind (M := 1) this fun out x => ?_) (by simp; omega)
  cases out.multilinearEvals <;> trivial

theorem verifyLayers_samples (order : EvaluationOrder) : ∀ (left k : Nat) (se : List (Pending F)) (pt : List F)
    (done : List (LayerClaim F)), pt.length = k →
    (verifyLayers order left k (se.map fun q => q.1.1) (se.map fun q => ⟨pt, q.2⟩) done).SamplesLe
      (∑ j ∈ range left, (k + j + 2))
  | 0, k, se, pt, done, hpt => by
    obtain ⟨a, b, h1, h2, h3, h4⟩ := processFinished_ok k pt se done
    rw [verifyLayers, h4, ofExcept_bind]
    trivial
  | left + 1, k, se, pt, done, hpt => by
    obtain ⟨a, b, h1, h2, h3, h4⟩ := processFinished_ok k pt se done
    rw [verifyLayers, h4, ofExcept_bind]
    have hε : ∑ j ∈ range (left + 1), (k + j + 2) = (pt.length + 2) + ∑ j ∈ range left, (k + 1 + j + 2) := by
      rw [Finset.sum_range_succ', Nat.add_comm, hpt]
      refine congrArg₂ _ (by simp) (Finset.sum_congr rfl fun j _ => by omega)
    rw [hε]
    refine samplesLe_bind_post (reduce_samples order pt b) (reduce_pending_post order pt b) ?_
    rintro res ⟨pt', evals, hp, hl, rfl⟩
    obtain ⟨se', e1, e2, e3, e4⟩ := next_state b pt' evals hl
    rw [e3, e4]
    exact verifyLayers_samples order left (k + 1) se' pt' _ (by omega)

/-! ## Sorting -/

/-- Sorting commutes with a map that keeps the key. -/
theorem stableSort_map {A B : Type} (f : A → B) (key : B → Nat) (d : Bool) (l : List A) :
    Verif.Sorting.stableSort (l.map f) key d =
      ((Verif.Sorting.stableSort l (fun a => key (f a)) d).1,
        (Verif.Sorting.stableSort l (fun a => key (f a)) d).2.map f) := by
  unfold Verif.Sorting.stableSort
  have hz : ((l.map f).zipIdx.map fun p => (p.2, p.1)) =
      (l.zipIdx.map fun p => (p.2, p.1)).map fun p => (p.1, f p.2) := by
    rw [List.zipIdx_map, List.map_map, List.map_map]
    rfl
  rw [hz]
  cases d with
  | true =>
    simp only [if_true]
    rw [← List.map_mergeSort (r := fun a b : Nat × A => decide (key (f b.2) ≤ key (f a.2)))
      (f := fun p : Nat × A => (p.1, f p.2)) (fun _ _ _ _ => rfl)]
    simp only [List.unzip_eq_map, List.map_map]
    rfl
  | false =>
    simp only [Bool.false_eq_true, if_false]
    rw [← List.map_mergeSort (r := fun a b : Nat × A => decide (key (f a.2) ≤ key (f b.2)))
      (f := fun p : Nat × A => (p.1, f p.2)) (fun _ _ _ _ => rfl)]
    simp only [List.unzip_eq_map, List.map_map]
    rfl

/-- What holds of the sorted lists holds of the originals. -/
theorem forall2_unsort {A B : Type} {R : A → B → Prop} (l : List A) (key : A → Nat) (d : Bool) (done : List B)
    (hlen : done.length = l.length) :
    List.Forall₂ R l (Verif.Sorting.unsort (Verif.Sorting.stableSort l key d).1 done) ↔
      List.Forall₂ R (Verif.Sorting.stableSort l key d).2 done := by
  obtain ⟨h1, h2, h3, -⟩ := Verif.Sorting.C03_stable_sort l key d
  set idx := (Verif.Sorting.stableSort l key d).1
  set sorted := (Verif.Sorting.stableSort l key d).2
  have hn : idx.length = l.length := by rw [h1.length_eq, List.length_range]
  obtain ⟨hl, hv⟩ := Verif.Sorting.C03_unsort idx done (by rw [hn]; exact h1) (by omega)
  set un := Verif.Sorting.unsort idx done
  rw [List.forall₂_iff_get, List.forall₂_iff_get]
  constructor
  · rintro ⟨-, h⟩
    refine ⟨by omega, fun p hp hp' => ?_⟩
    have hpi : p < idx.length := by omega
    have hi : idx[p] < l.length := by
      have : idx[p] ∈ List.range l.length := h1.mem_iff.mp (List.getElem_mem _)
      exact List.mem_range.mp this
    have e1 := h3 p hpi hp
    have e2 := hv p hpi
    rw [List.getElem?_eq_getElem hi] at e1
    rw [List.getElem?_eq_getElem (by omega), List.getElem?_eq_getElem hp'] at e2
    injection e1 with e1
    injection e2 with e2
    have := h idx[p] hi (by omega)
    simp only [List.get_eq_getElem] at this ⊢
    rw [← e1, ← e2]
    exact this
  · rintro ⟨-, h⟩
    refine ⟨by omega, fun i hi hi' => ?_⟩
    have hm : i ∈ idx := h1.mem_iff.mpr (List.mem_range.mpr hi)
    obtain ⟨p, hp, he⟩ := List.getElem_of_mem hm
    have e1 := h3 p hp (by omega)
    have e2 := hv p hp
    rw [he, List.getElem?_eq_getElem hi] at e1
    rw [he, List.getElem?_eq_getElem hi', List.getElem?_eq_getElem (by omega)] at e2
    injection e1 with e1
    injection e2 with e2
    have := h p (by omega) (by omega)
    simp only [List.get_eq_getElem] at this ⊢
    rw [e1, e2]
    exact this

/-! ## The whole verifier -/

/-- The claims in descending order of size. -/
def sortedItems (all : List (GrandProductClaim F × (Nat → F))) : List (GrandProductClaim F × (Nat → F)) :=
  (Verif.Sorting.stableSort all (fun p => p.1.nVars) true).2

theorem sortedItems_spec (all : List (GrandProductClaim F × (Nat → F))) :
    (sortedItems all).length = all.length ∧ (∀ p, p ∈ sortedItems all ↔ p ∈ all) ∧
      (sortedItems all).Pairwise fun p q => q.1.nVars ≤ p.1.nVars := by
  obtain ⟨h1, h2, h3, h4⟩ := Verif.Sorting.C03_stable_sort all (fun p => p.1.nVars) true
  have hn := h1.length_eq
  rw [List.length_range] at hn
  refine ⟨h2.trans hn, fun p => ?_, List.pairwise_iff_getElem.mpr fun i j hi hj hij => ?_⟩
  · constructor
    · intro hp
      obtain ⟨i, hi, rfl⟩ := List.getElem_of_mem hp
      exact List.mem_of_getElem? (h3 i (by rw [← h2]; exact hi) hi)
    · intro hp
      obtain ⟨i, hi, rfl⟩ := List.getElem_of_mem hp
      obtain ⟨k, hk, he⟩ := List.getElem_of_mem (h1.mem_iff.mpr (List.mem_range.mpr hi))
      have := h3 k hk (by omega)
      rw [he, List.getElem?_eq_getElem hi] at this
      injection this with this
      rw [this]
      exact List.getElem_mem _
  · have := (h4 i j hij (by rw [← h2]; exact hj) hi hj).1
    rw [if_pos rfl] at this
    exact this

/-- The number of layers. -/
def maxVars (all : List (GrandProductClaim F × (Nat → F))) : Nat :=
  match sortedItems all with | [] => 0 | p :: _ => p.1.nVars

theorem le_maxVars {all : List (GrandProductClaim F × (Nat → F))} {p : GrandProductClaim F × (Nat → F)}
    (hp : p ∈ sortedItems all) : p.1.nVars ≤ maxVars all := by
  have h := (sortedItems_spec all).2.2
  unfold maxVars
  match hs : sortedItems all, hp, h with
  | q :: l, hp, h =>
    rcases List.mem_cons.mp hp with rfl | hp
    · exact Nat.le_refl _
    · exact (List.pairwise_cons.mp h).1 p hp

theorem maxVars_le {all : List (GrandProductClaim F × (Nat → F))} {n : Nat} (h : ∀ p ∈ all, p.1.nVars ≤ n) :
    maxVars all ≤ n := by
  have h' := (sortedItems_spec all).2.1
  unfold maxVars
  match hs : sortedItems all, h' with
  | [], _ => exact Nat.zero_le _
  | q :: l, h' => exact h q ((h' q).mp (by simp))

/-- The pending claims at the start. -/
def startItems (all : List (GrandProductClaim F × (Nat → F))) : List (Pending F) :=
  (sortedItems all).reverse.map fun p => (p, p.1.product)

theorem gpaBatchVerify_eq (order : EvaluationOrder) (all : List (GrandProductClaim F × (Nat → F))) :
    gpaBatchVerify order (all.map Prod.fst) =
      (verifyLayers order (maxVars all) 0 ((startItems all).map fun q => q.1.1)
        ((startItems all).map fun q => ⟨[], q.2⟩) []).bind fun done =>
          .ret (Verif.Sorting.unsort (Verif.Sorting.stableSort all (fun p => p.1.nVars) true).1 done) := by
  unfold gpaBatchVerify
  rw [stableSort_map]
  simp only
  have e2 : ((Verif.Sorting.stableSort all (fun p => p.1.nVars) true).2.map Prod.fst).reverse =
      (startItems all).map fun q => q.1.1 := by
    unfold startItems sortedItems
    rw [List.map_map, ← List.map_reverse]
    rfl
  have e3 : (((Verif.Sorting.stableSort all (fun p => p.1.nVars) true).2.map Prod.fst).map
      fun c => (⟨[], c.product⟩ : LayerClaim F)).reverse = (startItems all).map fun q => ⟨[], q.2⟩ := by
    unfold startItems sortedItems
    rw [List.map_map, List.map_map, ← List.map_reverse]
    rfl
  rw [e2, e3]
  refine congrArg (fun m => Prog.bind (verifyLayers order m 0 _ _ _) _) ?_
  unfold maxVars sortedItems
  cases (Verif.Sorting.stableSort all (fun p => p.1.nVars) true).2 <;> rfl

theorem startItems_spec (all : List (GrandProductClaim F × (Nat → F))) :
    (startItems all).length = all.length ∧ ((startItems all).map fun q => q.1).reverse = sortedItems all ∧
      ((startItems all).Pairwise fun p q => p.1.1.nVars ≤ q.1.1.nVars) ∧
      (∀ q ∈ startItems all, q.1.1.nVars ≤ maxVars all) ∧ (∀ q ∈ startItems all, q.2 = q.1.1.product) ∧
      ∀ p ∈ all, (p, p.1.product) ∈ startItems all := by
  obtain ⟨h1, h2, h3⟩ := sortedItems_spec all
  unfold startItems
  refine ⟨by simp [h1], ?_, ?_, ?_, ?_, ?_⟩
  · rw [List.map_map, ← List.map_reverse, List.reverse_reverse]
    exact List.map_id _
  · rw [List.pairwise_map, List.pairwise_reverse]
    exact h3
  · intro q hq
    obtain ⟨p, hp, rfl⟩ := List.mem_map.mp hq
    exact le_maxVars (List.mem_reverse.mp hp)
  · intro q hq
    obtain ⟨p, hp, rfl⟩ := List.mem_map.mp hq
    rfl
  · intro p hp
    exact List.mem_map.mpr ⟨p, List.mem_reverse.mpr ((h2 p).mpr hp), rfl⟩

theorem gpa_err (order : EvaluationOrder) (all : List (GrandProductClaim F × (Nat → F))) (n : Nat)
    (hn : ∀ p ∈ all, p.1.nVars ≤ n) (hfalse : ∃ p ∈ all, ¬ p.1.Holds p.2) :
    SoundErr (FinalClaimsHold all) (gpaBatchVerify order (all.map Prod.fst))
      (∑ j ∈ range n, (3 * j + all.length + 1)) := by
  obtain ⟨h1, h2, h3, h4, h5, h6⟩ := startItems_spec all
  rw [gpaBatchVerify_eq]
  have herr := verifyLayers_err order all.length (maxVars all) 0 (startItems all) [] [] [] rfl h3
    (fun _ _ => Nat.zero_le _) (fun q hq => by have := h4 q hq; omega) rfl (by omega) (Or.inr (by
      obtain ⟨p, hp, hf⟩ := hfalse
      refine ⟨_, h6 p hp, ?_⟩
      rw [mle_nil, tab_zero]
      exact hf))
  have hpost := verifyLayers_post order (maxVars all) 0 (startItems all) [] [] h3
    (fun _ _ => Nat.zero_le _) (fun q hq => by have := h4 q hq; omega)
  have hm : ∑ j ∈ range (maxVars all), (3 * (0 + j) + all.length + 1) ≤ ∑ j ∈ range n, (3 * j + all.length + 1) := by
    simp only [Nat.zero_add]
    exact Finset.sum_le_sum_of_subset (Finset.range_mono (maxVars_le hn))
  refine SoundErr.mono (soundErr_bind herr hpost (ε' := 0) ?_) hm
  rintro done ⟨x, rfl, hx⟩ hng
  rw [h2, List.append_nil, List.append_nil] at hng
  rw [List.append_nil]
  refine .ret fun hg => hng ?_
  exact (forall2_unsort all (fun p => p.1.nVars) true x (by omega)).mp hg

theorem gpa_samples (order : EvaluationOrder) (all : List (GrandProductClaim F × (Nat → F))) (n : Nat)
    (hn : ∀ p ∈ all, p.1.nVars ≤ n) :
    (gpaBatchVerify order (all.map Prod.fst)).SamplesLe (∑ j ∈ range n, (j + 2)) := by
  rw [gpaBatchVerify_eq]
  have h := verifyLayers_samples order (maxVars all) 0 (startItems all) [] [] rfl
  refine samplesLe_mono (samplesLe_bind (M := 0) h fun _ => trivial) ?_
  simp only [Nat.zero_add, Nat.add_zero]
  exact Finset.sum_le_sum_of_subset (Finset.range_mono (maxVars_le hn))

end Verif.Gkr
