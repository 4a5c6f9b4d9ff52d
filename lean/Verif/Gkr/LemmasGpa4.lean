import Verif.Gkr.LemmasGpa3
import Verif.Sumcheck.PropsSumcheck

/-! The whole prover of the grand product argument. -/

set_option linter.dupNamespace false
set_option linter.unusedSectionVars false

namespace Verif.Gkr

open Verif.Mle Verif.Protocol Verif.Sumcheck Finset

variable {F : Type} [Field F] [DecidableEq F]

/-- Sorting looks at the keys of the entries only. -/
theorem stableSort_congr {A : Type} {key key' : A → Nat} {l : List A} (h : ∀ a ∈ l, key a = key' a) (d : Bool) :
    Verif.Sorting.stableSort l key d = Verif.Sorting.stableSort l key' d := by
  have hmem : ∀ p ∈ l.zipIdx.map fun p => (p.2, p.1), p.2 ∈ l := by
    intro p hp
    obtain ⟨q, hq, rfl⟩ := List.mem_map.mp hp
    exact List.fst_mem_of_mem_zipIdx hq
  unfold Verif.Sorting.stableSort
  cases d with
  | true =>
    simp only [if_true]
    have := List.map_mergeSort (r := fun a b : Nat × A => decide (key b.2 ≤ key a.2))
      (s := fun a b : Nat × A => decide (key' b.2 ≤ key' a.2)) (f := id)
      (l := l.zipIdx.map fun p => (p.2, p.1)) (fun a ha b hb => by
        simp only [id, h _ (hmem a ha), h _ (hmem b hb)])
    rw [List.map_id, List.map_id] at this
    rw [this]
  | false =>
    simp only [Bool.false_eq_true, if_false]
    have := List.map_mergeSort (r := fun a b : Nat × A => decide (key a.2 ≤ key b.2))
      (s := fun a b : Nat × A => decide (key' a.2 ≤ key' b.2)) (f := id)
      (l := l.zipIdx.map fun p => (p.2, p.1)) (fun a ha b hb => by
        simp only [id, h _ (hmem a ha), h _ (hmem b hb)])
    rw [List.map_id, List.map_id] at this
    rw [this]

/-- A run of the prover: the witness is right and the claim is true. -/
structure RunOk (w : Nat) (q : Running F) : Prop where
  layers : GoodLayers w q.1 q.2
  holds : q.1.1.Holds q.1.2
  evaluation : grandProductEvaluation q.2 = some q.1.1.product

theorem new_ok {w : Nat} {q : Running F} (h : RunOk w q) :
    ProverState.new q.1.1 q.2 = .ok (stateAt 0 [] q) := by
  have hl := h.layers.length
  unfold ProverState.new
  rw [h.evaluation]
  simp only
  rw [if_neg]
  · unfold stateAt
    rw [mle_nil, tab_zero, ← h.holds, Nat.sub_zero, List.dropLast_eq_take, hl]
    rfl
  · unfold witnessNVars
    rw [hl]
    simp

theorem states_ok {w : Nat} : ∀ rs : List (Running F), (∀ q ∈ rs, RunOk w q) →
    collect (List.zipWith (fun w c => ProverState.new c w) (rs.map fun q => q.2) (rs.map fun q => q.1.1)) =
      .ok (rs.map (stateAt 0 []))
  | rs, h => by
    rw [List.zipWith_map, List.zipWith_self]
    exact collect_map_ok rs _ _ fun q hq => new_ok (h q hq)

theorem gpa_agree {w : Nat} {order : EvaluationOrder} {build : ProverBuilder F} (hbuild : BuildsHonest w order build)
    (rs : List (Running F)) (h : ∀ q ∈ rs, RunOk w q) :
    Agree (fun a b => a = b ∧ FinalClaimsHold (rs.map fun q => q.1) b)
      (gpaBatchProve w order build (rs.map fun q => q.2) (rs.map fun q => q.1.1))
      (gpaBatchVerify order (rs.map fun q => q.1.1)) := by
  have hall : (rs.map fun q => q.1.1) = (rs.map fun q => q.1).map Prod.fst := by
    rw [List.map_map]
    rfl
  unfold gpaBatchProve
  rw [if_neg (by simp), states_ok rs h]
  rw [hall, gpaBatchVerify_eq]
  simp only [PProg.ofExcept, PProg.bind]
  rw [stableSort_map (stateAt 0 []), stableSort_congr
    (key' := fun q => q.1.1.nVars) (fun q hq => by
      have := (h q hq).layers.length
      show (q.2.take (q.1.1.nVars - 0)).length = _
      rw [List.length_take]
      omega)]
  have hsort : Verif.Sorting.stableSort (rs.map fun q => q.1) (fun p => p.1.nVars) true = _ :=
    stableSort_map (fun q : Running F => q.1) (fun p => p.1.nVars) true rs
  rw [hsort]
  simp only
  set ss := (Verif.Sorting.stableSort rs (fun q => q.1.1.nVars) true).2 with hss
  have hsorted : sortedItems (rs.map fun q => q.1) = ss.map fun q => q.1 := by
    unfold sortedItems
    rw [hsort]
  obtain ⟨h1, h2, h3, h4⟩ := Verif.Sorting.C03_stable_sort rs (fun q => q.1.1.nVars) true
  have hmem : ∀ q ∈ ss, q ∈ rs := by
    intro q hq
    obtain ⟨i, hi, rfl⟩ := List.getElem_of_mem hq
    exact List.mem_of_getElem? (h3 i (by rw [← h2]; exact hi) hi)
  have hdesc : ss.Pairwise fun p q => q.1.1.nVars ≤ p.1.1.nVars := by
    refine List.pairwise_iff_getElem.mpr fun i j hi hj hij => ?_
    have := (h4 i j hij (by rw [← h2]; exact hj) hi hj).1
    rw [if_pos rfl] at this
    exact this
  have hmax : maxVars (rs.map fun q => q.1) = (match ss with | [] => 0 | q :: _ => q.1.1.nVars) := by
    unfold maxVars
    rw [hsorted]
    cases ss <;> rfl
  have hle : ∀ q ∈ ss, q.1.1.nVars ≤ maxVars (rs.map fun q => q.1) := by
    intro q hq
    exact le_maxVars (p := q.1) (by rw [hsorted]; exact List.mem_map.mpr ⟨q, hq, rfl⟩)
  have hbig : maxVars (rs.map fun q => q.1) = 0 ∨ ∃ q ∈ ss, q.1.1.nVars = 0 + maxVars (rs.map fun q => q.1) := by
    rw [hmax]
    cases hs : ss with
    | nil => exact Or.inl rfl
    | cons q l => exact Or.inr ⟨q, by simp, by simp⟩
  have hstart : startItems (rs.map fun q => q.1) = ss.reverse.map fun q => (q.1, mle (tab 0 q.1) []) := by
    unfold startItems
    rw [hsorted, ← List.map_reverse, List.map_map]
    refine List.map_congr_left fun q hq => ?_
    have := (h q (hmem q (List.mem_reverse.mp hq))).holds
    show (q.1, q.1.1.product) = _
    rw [mle_nil, tab_zero, ← this]
  have hfuel : (match ss.map (stateAt 0 []) with | [] => 0 | c :: _ => c.remaining.length) + 1 =
      maxVars (rs.map fun q => q.1) + 1 := by
    rw [hmax]
    cases hs : ss with
    | nil => rfl
    | cons q l =>
      have := (h q (hmem q (by rw [hs]; simp))).layers.length
      show (q.2.take (q.1.1.nVars - 0)).length + 1 = _
      rw [List.length_take]
      simp only
      omega
  have hagree := layers_agree hbuild (maxVars (rs.map fun q => q.1)) 0 ss [] [] [] rfl hdesc
    (fun q hq => (h q (hmem q hq)).layers) (fun _ _ => Nat.zero_le _)
    (fun q hq => by have := hle q hq; omega) hbig .nil
  rw [hstart, List.map_map, List.map_map]
  refine agree_bind (R := fun a b => a = b ∧ FinalClaimsHold ((ss.map fun q => q.1) ++ []) b) ?_ ?_
  · rw [← hfuel] at hagree
    exact hagree
  · rintro a b ⟨rfl, hf⟩
    rw [List.append_nil] at hf
    refine .ret ⟨rfl, ?_⟩
    have hlen : a.length = (rs.map fun q => q.1).length := by
      have e1 := hf.length_eq
      rw [List.length_map] at e1 ⊢
      have := h1.length_eq
      rw [List.length_range] at this
      rw [← e1]
      exact h2.trans this
    have := (forall2_unsort (R := fun p l => LayerClaim.Holds p.1.nVars p.2 l) (rs.map fun q => q.1)
      (fun p => p.1.nVars) true a hlen).mpr (by rw [hsort]; exact hf)
    rw [hsort] at this
    exact this

/-! ## Honest builders exist -/

theorem honest_transfer {pr : SumcheckProver F} {I J : Instance F} (h : Honest pr I)
    (h1 : J.claim.nVars = I.claim.nVars) (h2 : J.claim.maxIndividualDegree = I.claim.maxIndividualDegree)
    (h3 : J.tables = I.tables) (hl : J.polys.length = I.polys.length)
    (h4 : ∀ (i : Nat) (hi : i < J.polys.length) (hi' : i < I.polys.length) (q : List F), q.length = I.tables.length →
      evalAt J.polys[i] q = evalAt I.polys[i] q) : Honest pr J where
  nVars := by rw [h1, h.nVars]
  execute := by
    intro folded α hf
    obtain ⟨cs, e1, e2, e3⟩ := h.execute folded α (by rw [← h1]; exact hf)
    refine ⟨cs, e1, by rw [h2, e2], fun x => ?_⟩
    rw [e3 x, h1, h3]
    refine Finset.sum_congr rfl fun b _ => ?_
    refine Finset.sum_equiv (finCongr hl.symm) (by simp) fun i _ => ?_
    exact congrArg _ (h4 i (by omega) i.isLt _ (by simp)).symm
  finish := by
    intro folded hf
    rw [h3]
    exact h.finish folded (by rw [← h1]; exact hf)

theorem eq_honest_exists (order : EvaluationOrder) (n : Nat) (ts : List (Nat → F)) (r : List F)
    (sums : List (CompositeSum F)) (h : ∃ polys, List.Forall₂ (fun (s : CompositeSum F) p => Represents s.composition p ∧
      p.vars ⊆ range ts.length ∧ s.composition.nVars = ts.length) sums polys) :
    ∃ pr : SumcheckProver F, pr.evaluationOrder = order ∧
      (r.length = n → ∀ polys, List.Forall₂ (fun (s : CompositeSum F) p => Represents s.composition p ∧
          p.vars ⊆ range ts.length ∧ s.composition.nVars = ts.length) sums polys → ∀ J : Instance F, J.claim.nVars = n →
        J.claim.nMultilinears = ts.length + 1 →
        List.Forall₂ (fun (s' s : CompositeSum F) => s'.sum = s.sum ∧
          s'.composition.degree = s.composition.degree + 1) J.claim.sums sums →
        J.polys = polys.map (fun p => p * MvPolynomial.X ts.length) →
        J.tables = ts ++ [eqWeight r] → Honest pr J) := by
  obtain ⟨polys0, hf0⟩ := h
  obtain ⟨pr, hp, ho⟩ := C29_honest_exists order (EqInstance.regular r ⟨⟨n, ts.length, sums⟩, polys0, ts⟩)
    (regular_wf r ⟨rfl, hf0⟩)
  refine ⟨pr, ho, ?_⟩
  intro hr polys hf J e1 e2 e3 e4 e5
  refine honest_transfer hp e1 ?_ ?_ ?_ ?_
  · refine congrArg (fun l : List Nat => l.max?.getD 0) (a₁ := J.claim.sums.map fun s => s.composition.degree)
      (a₂ := (sums.map fun s => (⟨extraProduct s.composition, s.sum⟩ : CompositeSum F)).map
        fun s => s.composition.degree) ?_
    rw [List.map_map]
    have := List.forall₂_iff_get.mp e3
    refine List.ext_getElem (by simp [this.1]) fun i hi hi' => ?_
    simp only [List.getElem_map]
    exact (this.2 i (by simpa using hi) (by simpa using hi')).2
  · rw [e5]
    show _ = _ ++ [eqWeight (suffix n r)]
    rw [show suffix n r = r by rw [← hr]; simp [suffix]]
  · rw [e4]
    show _ = (polys0.map _).length
    rw [List.length_map, List.length_map, ← hf.length_eq, hf0.length_eq]
  · intro i hi hi' q hq
    have hq' : q.length = ts.length + 1 := by
      rw [hq]
      show (ts ++ [_]).length = _
      simp
    simp only [e4, List.getElem_map]
    have hip0 : i < polys0.length := by
      have : i < (polys0.map fun p => p * MvPolynomial.X ts.length).length := hi'
      simpa using this
    have hgoal : (EqInstance.regular r ⟨⟨n, ts.length, sums⟩, polys0, ts⟩).polys[i] =
        polys0[i] * MvPolynomial.X ts.length := by
      simp only [EqInstance.regular, List.getElem_map]
    rw [hgoal]
    have hip : i < polys.length := by simpa [e4] using hi
    have hl := hf.length_eq
    have hl0 := hf0.length_eq
    have f1 := (List.forall₂_iff_get.mp hf).2 i (by omega) hip
    have f0 := (List.forall₂_iff_get.mp hf0).2 i (by omega) (by omega)
    simp only [List.get_eq_getElem] at f1 f0
    have hsplit : q = q.take ts.length ++ [q[ts.length]] := by
      rw [List.take_append_getElem, List.take_of_length_le (by omega)]
    have ht : (q.take ts.length).length = ts.length := by rw [List.length_take]; omega
    have g1 := f1.1.evaluate (q.take ts.length) (by rw [ht, f1.2.2])
    have g0 := f0.1.evaluate (q.take ts.length) (by rw [ht, f1.2.2])
    rw [g1] at g0
    injection g0 with g0
    rw [hsplit]
    have x1 := evalAt_extra _ _ f1.2.1 _ ht q[ts.length]
    have x0 := evalAt_extra _ _ f0.2.1 _ ht q[ts.length]
    rw [x1]
    exact Eq.trans (by rw [g0]) x0.symm

open Classical in
theorem builder_exists (w : Nat) (order : EvaluationOrder) :
    ∃ build : ProverBuilder F, BuildsHonest w order build := by
  let Fits (n : Nat) (sums : List (CompositeSum F)) (polys : List (MvPolynomial ℕ F)) : Prop :=
    List.Forall₂ (fun (s : CompositeSum F) p => Represents s.composition p ∧
      p.vars ⊆ range n ∧ s.composition.nVars = n) sums polys
  have key := fun (n : Nat) (ms : List (List (Packed F) × Nat)) (r : List F) (sums : List (CompositeSum F)) =>
    eq_honest_exists order n (ms.map fun m => value w m.1) r sums
  simp only [List.length_map] at key
  refine ⟨fun n ms r sums => if h : ∃ polys, Fits ms.length sums polys then .ok (key n ms r sums h).choose
    else .error .panic, ?_⟩
  intro n ms r sums polys hr _ hf
  have h : ∃ polys, Fits ms.length sums polys := ⟨polys, hf⟩
  refine ⟨_, dif_pos h, (key n ms r sums h).choose_spec.1, ?_⟩
  exact (key n ms r sums h).choose_spec.2 hr polys hf

end Verif.Gkr
