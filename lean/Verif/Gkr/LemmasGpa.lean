import Verif.Gkr.SpecGpa
import Verif.Gkr.LemmasGrandProduct
import Verif.Sumcheck.LemmasEqInd2

/-! One layer of the grand product argument. -/

set_option linter.dupNamespace false
set_option linter.unusedSectionVars false

namespace Verif.Gkr

open Verif.Mle Verif.Protocol Verif.Sumcheck Finset

variable {F : Type} [Field F] [DecidableEq F]

/-- The layer `d` steps above the inputs. -/
def layerTable (n : Nat) (t : Nat → F) : Nat → Nat → F
  | 0 => t
  | d + 1 => fun b => layerTable n t d b * layerTable n t d (b + 2 ^ (n - (d + 1)))

theorem layerTable_prod (n : Nat) (t : Nat → F) : ∀ d, d ≤ n →
    ∏ b ∈ range (2 ^ (n - d)), layerTable n t d b = ∏ b ∈ range (2 ^ n), t b
  | 0, _ => rfl
  | d + 1, h => by
    rw [← layerTable_prod n t d (by omega), show n - d = n - (d + 1) + 1 by omega, prod_halves]
    rfl

theorem layerTable_top (n : Nat) (t : Nat → F) :
    layerTable n t n 0 = ∏ b ∈ range (2 ^ n), t b := by
  rw [← layerTable_prod n t n (Nat.le_refl n)]
  simp

/-- The table of the layer with `k` variables. -/
def tab (k : Nat) (p : GrandProductClaim F × (Nat → F)) : Nat → F :=
  layerTable p.1.nVars p.2 (p.1.nVars - k)

theorem tab_step {k : Nat} {p : GrandProductClaim F × (Nat → F)} (h : k < p.1.nVars) :
    tab k p = fun b => tab (k + 1) p b * tab (k + 1) p (b + 2 ^ k) := by
  unfold tab
  rw [show p.1.nVars - k = p.1.nVars - (k + 1) + 1 by omega]
  have e : p.1.nVars - (p.1.nVars - (k + 1) + 1) = k := by omega
  funext b
  show _ * layerTable _ _ _ (b + 2 ^ (p.1.nVars - (p.1.nVars - (k + 1) + 1))) = _
  rw [e]

theorem tab_self (p : GrandProductClaim F × (Nat → F)) : tab p.1.nVars p = p.2 := by
  unfold tab
  rw [Nat.sub_self]
  rfl

theorem tab_zero (p : GrandProductClaim F × (Nat → F)) :
    tab 0 p 0 = ∏ b ∈ range (2 ^ p.1.nVars), p.2 b := layerTable_top _ _

/-! ## The composite sums -/

/-- The product of two neighbouring multilinears. -/
def pairComposition (nVars i : Nat) : Composition F where
  nVars := nVars
  degree := 2
  evaluate := fun q =>
    if q.length ≠ nVars then .error (.incorrectQuerySize nVars q.length)
    else match [2 * i, 2 * i + 1].mapM fun i => q[i]? with
      | some sub => (productOf 2).evaluate sub
      | none => .error .panic

theorem layerSum_ok {n i : Nat} (h : 2 * i + 1 < n) (e : F) :
    layerSum n i e = .ok ⟨pairComposition n i, e⟩ := by
  unfold layerSum indexComposition
  rw [if_neg]
  · rfl
  · simp
    omega

theorem pair_represents {n i : Nat} (h : 2 * i + 1 < n) :
    Represents (pairComposition (F := F) n i) (MvPolynomial.X (2 * i) * MvPolynomial.X (2 * i + 1)) where
  evaluate := by
    intro q hq
    have hq' : q.length = n := hq
    have h1 : q[2 * i]? = some q[2 * i] := List.getElem?_eq_getElem (by omega)
    have h2 : q[2 * i + 1]? = some q[2 * i + 1] := List.getElem?_eq_getElem (by omega)
    unfold pairComposition
    simp only [hq', ne_eq, not_true_eq_false, if_false, List.mapM_cons, List.mapM_nil, h1, h2]
    simp [productOf, evalAt, h1, h2]
  degree := by
    refine (MvPolynomial.totalDegree_mul _ _).trans ?_
    simp [pairComposition, MvPolynomial.totalDegree_X]

theorem pair_vars {n i : Nat} (h : 2 * i + 1 < n) :
    (MvPolynomial.X (2 * i) * MvPolynomial.X (2 * i + 1) : MvPolynomial ℕ F).vars ⊆ range n := by
  refine (MvPolynomial.vars_mul _ _).trans ?_
  rw [MvPolynomial.vars_X, MvPolynomial.vars_X]
  intro j hj
  simp only [Finset.mem_union, Finset.mem_singleton] at hj
  rw [Finset.mem_range]
  omega

theorem layerSums_ok (n : Nat) (evals : List F) (h : 2 * evals.length ≤ n) :
    layerSums n evals = .ok (evals.zipIdx.map fun p => ⟨pairComposition n p.2, p.1⟩) := by
  unfold layerSums
  refine collect_map_ok _ _ _ fun p hp => ?_
  have := List.snd_lt_add_of_mem_zipIdx hp
  exact layerSum_ok (by omega) p.1

/-! ## The instance of a layer -/

/-- A layer: for each claim the value claimed and the two halves of the next layer. -/
noncomputable def layerInstance (k : Nat) (items : List (F × (Nat → F) × (Nat → F))) : EqInstance F where
  claim := ⟨k, 2 * items.length,
    (items.map Prod.fst).zipIdx.map fun p => ⟨pairComposition (2 * items.length) p.2, p.1⟩⟩
  polys := (List.range items.length).map fun i => MvPolynomial.X (2 * i) * MvPolynomial.X (2 * i + 1)
  tables := items.flatMap fun p => [p.2.1, p.2.2]

theorem flatMap_pair_length {A B : Type} (f g : A → B) (l : List A) :
    (l.flatMap fun p => [f p, g p]).length = 2 * l.length := by
  induction l with
  | nil => rfl
  | cons a l ih => rw [List.flatMap_cons, List.length_append, ih]; simp; omega

theorem flatMap_pair_even {A B : Type} (f g : A → B) (l : List A) (i : Nat) :
    (l.flatMap fun p => [f p, g p])[2 * i]? = l[i]?.map f := by
  induction l generalizing i with
  | nil => simp
  | cons a l ih =>
    cases i with
    | zero => rfl
    | succ i => simpa [List.flatMap_cons, Nat.mul_succ] using ih i

theorem flatMap_pair_odd {A B : Type} (f g : A → B) (l : List A) (i : Nat) :
    (l.flatMap fun p => [f p, g p])[2 * i + 1]? = l[i]?.map g := by
  induction l generalizing i with
  | nil => simp
  | cons a l ih =>
    cases i with
    | zero => rfl
    | succ i => simpa [List.flatMap_cons, Nat.mul_succ] using ih i

theorem chunks2_flatMap {A B : Type} (f g : A → B) (l : List A) :
    chunks2 (l.flatMap fun p => [f p, g p]) = l.map fun p => (f p, g p) := by
  induction l with
  | nil => rfl
  | cons a l ih =>
    show (f a, g a) :: chunks2 _ = _
    rw [List.map_cons, ← ih]
    rfl

theorem chunks2_unflat {A : Type} : ∀ (m : Nat) (l : List A), l.length = 2 * m →
    (chunks2 l).length = m ∧ (chunks2 l).flatMap (fun p => [p.1, p.2]) = l
  | 0, l, h => by
    obtain rfl := List.length_eq_zero_iff.mp h
    exact ⟨rfl, rfl⟩
  | m + 1, [], h => by simp at h
  | m + 1, [a], h => by simp at h; omega
  | m + 1, a :: b :: l, h => by
    obtain ⟨h1, h2⟩ := chunks2_unflat m l (by simp at h; omega)
    refine ⟨by simp [chunks2, h1], ?_⟩
    show a :: b :: (chunks2 l).flatMap _ = _
    rw [h2]

theorem layerInstance_wf (k : Nat) (items : List (F × (Nat → F) × (Nat → F))) :
    (layerInstance k items).WellFormed where
  nMultilinears := flatMap_pair_length _ _ _
  compositions := by
    refine List.forall₂_iff_get.mpr ⟨by simp [layerInstance], fun i h1 h2 => ?_⟩
    have hi : i < items.length := by simpa [layerInstance] using h2
    simp only [layerInstance, List.get_eq_getElem, List.getElem_map, List.getElem_zipIdx,
      List.getElem_range, Nat.zero_add]
    exact ⟨pair_represents (by omega), pair_vars (by omega), rfl⟩

theorem layerInstance_holds (k : Nat) (items : List (F × (Nat → F) × (Nat → F))) (r : List F)
    (hr : r.length = k) :
    (layerInstance k items).Holds r ↔ ∀ p ∈ items, p.1 = mle (fun b => p.2.1 b * p.2.2 b) r := by
  have hs : suffix k r = r := by rw [← hr]; simp [suffix]
  unfold EqInstance.Holds
  rw [List.forall₂_iff_get, List.forall_mem_iff_getElem]
  have key : ∀ (i : Nat) (hi : i < items.length), (fun b => evalAt
      (MvPolynomial.X (2 * i) * MvPolynomial.X (2 * i + 1) : MvPolynomial ℕ F)
      ((layerInstance k items).tables.map fun t => t b)) = fun b => items[i].2.1 b * items[i].2.2 b := by
    intro i hi
    funext b
    simp only [evalAt, layerInstance, map_mul, MvPolynomial.eval_X, List.getD_eq_getElem?_getD,
      List.getElem?_map]
    rw [flatMap_pair_even, flatMap_pair_odd, List.getElem?_eq_getElem hi]
    rfl
  constructor
  · rintro ⟨-, h⟩ i hi
    have := h i (by simpa [layerInstance] using hi) (by simpa [layerInstance] using hi)
    simp only [layerInstance, List.get_eq_getElem, List.getElem_map, List.getElem_zipIdx,
      List.getElem_range, Nat.zero_add] at this
    rw [this, hs]
    exact congrArg (fun f => mle f r) (key i hi)
  · intro h
    refine ⟨by simp [layerInstance], fun i h1 h2 => ?_⟩
    have hi : i < items.length := by simpa [layerInstance] using h2
    simp only [layerInstance, List.get_eq_getElem, List.getElem_map, List.getElem_zipIdx,
      List.getElem_range, Nat.zero_add]
    rw [h i hi, hs]
    exact (congrArg (fun f => mle f r) (key i hi)).symm

theorem layerInstance_degree (k : Nat) (items : List (F × (Nat → F) × (Nat → F))) :
    ∀ s ∈ (layerInstance k items).claim.sums, s.composition.degree ≤ 2 := by
  intro s hs
  obtain ⟨p, _, rfl⟩ := List.mem_map.mp hs
  exact Nat.le_refl 2

theorem layerInstance_nSums (k : Nat) (items : List (F × (Nat → F) × (Nat → F))) :
    (layerInstance k items).claim.sums.length = items.length := by simp [layerInstance]

/-- `reduce_layer_claim_batch` on claims that share their point. -/
theorem reduce_eq (order : EvaluationOrder) (pt : List F) (items : List (F × (Nat → F) × (Nat → F)))
    (hne : items ≠ []) :
    reduceLayerClaimBatch order (items.map fun p => ⟨pt, p.1⟩) =
      (eqIndVerify order .descendingVars [(layerInstance pt.length items).claim] pt).bind fun out =>
        .sample fun x => match out.multilinearEvals with
          | [] => .fail .panic
          | evals :: _ => .ret ((chunks2 evals).map fun p =>
              ⟨out.challenges ++ [x], extrapolateLineScalar p.1 p.2 x⟩) := by
  obtain ⟨a, l, rfl⟩ := List.exists_cons_of_ne_nil hne
  unfold reduceLayerClaimBatch
  rw [List.map_cons]
  simp only
  rw [if_neg]
  · rw [← List.map_cons (f := fun p : F × (Nat → F) × (Nat → F) => (⟨pt, p.1⟩ : LayerClaim F)), List.map_map,
      List.length_map, show ((fun c : LayerClaim F => c.eval) ∘ fun p : F × (Nat → F) × (Nat → F) =>
        (⟨pt, p.1⟩ : LayerClaim F)) = Prod.fst from rfl, layerSums_ok _ _ (by simp), ofExcept_bind]
    simp only
    have hnew : EqIndClaim.new pt.length (2 * (a :: l).length)
        (((a :: l).map Prod.fst).zipIdx.map fun p => ⟨pairComposition (2 * (a :: l).length) p.2, p.1⟩)
        = .ok (layerInstance pt.length (a :: l)).claim := by
      unfold EqIndClaim.new
      rw [List.find?_eq_none.mpr]
      · rfl
      · intro s hs
        obtain ⟨p, _, rfl⟩ := List.mem_map.mp hs
        simp [pairComposition]
    rw [hnew, ofExcept_bind]
    rfl
  · simp

/-- The shape of the output of one claim. -/
theorem eqInd_single_post (order : EvaluationOrder) (sorting : SortingOrder) (c : EqIndClaim F) (r : List F) :
    Post (fun out => out.challenges.length = r.length ∧ ∃ evals, out.multilinearEvals = [evals] ∧
      evals.length = c.nMultilinears) (eqIndVerify order sorting [c] r) := by
  unfold eqIndVerify
  refine Post.bind (Post.trivial _) fun regular _ => Post.bind (Post.trivial _) fun out _ =>
    Post.ofExcept fun out' h => ?_
  obtain ⟨h1, h2, -, h4, h5⟩ := (verifyOutputs_iff _ _ _ _ _).mp h
  refine ⟨by rw [h4, h2], ?_⟩
  generalize (reverseFor order out).multilinearEvals = es at h1 h5
  obtain ⟨e, rfl⟩ := List.length_eq_one_iff.mp h1
  rw [List.zip_cons_cons, List.zip_nil_left] at h5
  obtain ⟨s, l, hs, hl, he⟩ := List.forall₂_cons_left_iff.mp h5
  rw [List.forall₂_nil_left_iff] at hl
  subst hl
  exact ⟨s, he, hs.1⟩

/-- The shape of the result. -/
theorem reduce_post (order : EvaluationOrder) (pt : List F) (items : List (F × (Nat → F) × (Nat → F))) :
    Post (fun res => ∃ (pt' : List F) (evals : List F), pt'.length = pt.length + 1 ∧ evals.length = items.length ∧
      res = evals.map fun e => ⟨pt', e⟩) (reduceLayerClaimBatch order (items.map fun p => ⟨pt, p.1⟩)) := by
  by_cases hne : items = []
  · subst hne
    exact ⟨pt ++ [0], [], by simp, rfl, rfl⟩
  rw [reduce_eq order pt items hne]
  refine Post.bind (eqInd_single_post _ _ _ _) ?_
  rintro out ⟨h1, evals, h2, h3⟩ x
  rw [h2]
  obtain ⟨h4, -⟩ := chunks2_unflat items.length evals h3
  exact ⟨out.challenges ++ [x], (chunks2 evals).map fun p => extrapolateLineScalar p.1 p.2 x,
    by simp [h1], by simp [h4], by rw [List.map_map]; rfl⟩

theorem line_unique {a b c d x y : F} (hne : ¬ (a = c ∧ b = d)) (hx : a + (b - a) * x = (1 - x) * c + x * d)
    (hy : a + (b - a) * y = (1 - y) * c + y * d) : x = y := by
  by_contra hxy
  apply hne
  have hxy' : x - y ≠ 0 := sub_ne_zero.mpr hxy
  have h1 : ((b - a) - (d - c)) * (x - y) = 0 := by linear_combination hx - hy
  have h2 : (b - a) - (d - c) = 0 := (mul_eq_zero.mp h1).resolve_right hxy'
  have h3 : a = c := by linear_combination hx - x * h2
  exact ⟨h3, by linear_combination h2 + h3⟩

open Classical in
/-- A set that has at most one element. -/
theorem exists_small_set (P : F → Prop) (h : ∀ x y, P x → P y → x = y) :
    ∃ s : Finset F, s.card ≤ 1 ∧ ∀ x, x ∉ s → ¬ P x := by
  by_cases hx : ∃ x, P x
  · obtain ⟨x, hx⟩ := hx
    exact ⟨{x}, by simp, fun y hy hp => hy (by rw [Finset.mem_singleton]; exact h y x hp hx)⟩
  · exact ⟨∅, by simp, fun x _ hp => hx ⟨x, hp⟩⟩

/-- One layer: if a claim is false, the claims about the next layer are true for few challenges only. -/
theorem reduce_err (order : EvaluationOrder) (pt : List F) (layer : List (F × (Nat → F)))
    (hfalse : ∃ p ∈ layer, p.1 ≠ mle (fun b => p.2 b * p.2 (b + 2 ^ pt.length)) pt) :
    SoundErr (fun res => List.Forall₂ (fun (p : F × (Nat → F)) (l : LayerClaim F) => l.eval = mle p.2 l.evalPoint) layer res)
      (reduceLayerClaimBatch order (layer.map fun p => ⟨pt, p.1⟩)) (3 * pt.length + layer.length + 1) := by
  set items : List (F × (Nat → F) × (Nat → F)) :=
    layer.map fun p => (p.1, p.2, fun b => p.2 (b + 2 ^ pt.length)) with hitems
  have hlen : items.length = layer.length := by simp [hitems]
  have hne : items ≠ [] := by
    obtain ⟨p, hp, _⟩ := hfalse
    rw [hitems]
    simp only [ne_eq, List.map_eq_nil_iff]
    rintro rfl
    simp at hp
  have hmap : layer.map (fun p => (⟨pt, p.1⟩ : LayerClaim F)) = items.map fun p => ⟨pt, p.1⟩ := by
    rw [hitems, List.map_map]
    rfl
  rw [hmap, reduce_eq order pt items hne]
  have herr := eqInd_err order .descendingVars [layerInstance pt.length items] pt
    (by simp [layerInstance_wf]) (layerInstance pt.length items) (by simp) rfl (by simp [layerInstance])
    (Or.inr (by simp [layerInstance])) (Or.inr (by
      rw [ne_eq, ← List.length_eq_zero_iff, layerInstance_nSums, List.length_eq_zero_iff]
      exact hne)) 2 (by simpa using layerInstance_degree pt.length items)
    ⟨_, List.mem_singleton_self _, fun h => by
      obtain ⟨p, hp, hb⟩ := hfalse
      rw [layerInstance_holds _ _ _ rfl] at h
      exact hb (h _ (List.mem_map.mpr ⟨p, hp, rfl⟩))⟩
  have hε : pt.length * (2 + 1) + ([layerInstance pt.length items].map fun I => I.claim.sums.length).sum + 1
      = 3 * pt.length + layer.length + 1 := by
    simp [layerInstance_nSums, hlen]
    omega
  rw [← hε]
  refine soundErr_bind herr (eqInd_single_post _ _ _ _) ?_
  rintro out ⟨h1, evals, h2, h3⟩ hbad
  have h3' : evals.length = 2 * items.length := h3
  obtain ⟨h4, h5⟩ := chunks2_unflat items.length evals h3'
  simp only [h2]
  -- some pair of evaluations is wrong
  have hw : ∃ i, ∃ (hi : i < layer.length) (hi' : i < (chunks2 evals).length),
      ¬ ((chunks2 evals)[i].1 = mle layer[i].2 out.challenges ∧
        (chunks2 evals)[i].2 = mle (fun b => layer[i].2 (b + 2 ^ pt.length)) out.challenges) := by
    by_contra hc
    push Not at hc
    refine hbad ?_
    unfold EqCorrectEvals
    rw [h2]
    refine .cons ?_ .nil
    have hsuf : suffix (layerInstance pt.length items).claim.nVars out.challenges = out.challenges := by
      show suffix pt.length _ = _
      rw [← h1]
      simp [suffix]
    rw [hsuf]
    show _ = (items.flatMap fun p => [p.2.1, p.2.2]).map _
    rw [List.map_flatMap, ← h5]
    have : chunks2 evals = items.map fun p => (mle p.2.1 out.challenges, mle p.2.2 out.challenges) := by
      refine List.ext_getElem (by simp [h4]) fun i hi1 hi2 => ?_
      have := hc i (by omega) hi1
      simp only [hitems, List.getElem_map]
      exact Prod.ext_iff.mpr this
    rw [this, List.flatMap_map]
    rfl
  obtain ⟨i, hi, hi', hw⟩ := hw
  obtain ⟨bad, hb1, hb2⟩ := exists_small_set (fun x => (chunks2 evals)[i].1 + ((chunks2 evals)[i].2 - (chunks2 evals)[i].1) * x
      = (1 - x) * mle layer[i].2 out.challenges + x * mle (fun b => layer[i].2 (b + 2 ^ pt.length)) out.challenges)
    fun x y hx hy => line_unique hw hx hy
  refine .sample bad hb1 (ε := 0) (by omega) fun x hx => .ret fun hg => hb2 x hx ?_
  have := (List.forall₂_iff_get.mp hg).2 i hi (by simpa using hi')
  simp only [List.get_eq_getElem, List.getElem_map, extrapolateLineScalar] at this
  rw [this, mle_snoc, h1]

end Verif.Gkr
