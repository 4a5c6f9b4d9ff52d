import Verif.Gkr.LemmasGpa4
import Verif.Gkr.PropsGrandProduct

/-! Property C56: the grand product argument. -/

set_option linter.dupNamespace false
set_option linter.unusedSectionVars false

namespace Verif.Gkr

open Verif.Mle Verif.Protocol Verif.Sumcheck Finset

variable {F : Type} [Field F] [DecidableEq F]

/-- **C56 (soundness).** If the product claimed for some multilinear is false, then whatever the prover
sends, the fraction of challenge vectors for which the verifier accepts and ends with true claims about
the multilinears is at most `∑_{k < n} (3 k + m + 1) / |F|`, for `m` claims of at most `n` variables. -/
theorem C56_soundness [Fintype F] (order : EvaluationOrder) (all : List (GrandProductClaim F × (Nat → F)))
    (n : Nat) (hn : ∀ p ∈ all, p.1.nVars ≤ n) (hfalse : ∃ p ∈ all, ¬ p.1.Holds p.2)
    (msg : List F → Nat → List F) :
    let N := ∑ k ∈ range n, (k + 2)
    accepting (FinalClaimsHold all) msg (gpaBatchVerify order (all.map Prod.fst)) [] 0 N * Fintype.card F
      ≤ (∑ k ∈ range n, (3 * k + all.length + 1)) * Fintype.card F ^ N :=
  soundErr_count (gpa_err order all n hn hfalse) msg _ (gpa_samples order all n hn) [] 0

/-- Two claims over the field with seven elements, the first of them false. -/
example (msg : List (ZMod 7) → Nat → List (ZMod 7)) :
    accepting (FinalClaimsHold [(⟨1, 5⟩, fun b => (b : ZMod 7) + 1), (⟨1, 2⟩, fun b => (b : ZMod 7) + 1)]) msg
      (gpaBatchVerify .lowToHigh [⟨1, 5⟩, ⟨1, 2⟩]) [] 0 2 * 7 ≤ 3 * 7 ^ 2 := by
  have h := C56_soundness .lowToHigh [(⟨1, 5⟩, fun b => (b : ZMod 7) + 1), (⟨1, 2⟩, fun b => (b : ZMod 7) + 1)] 1
    (by simp) ⟨_, List.mem_cons_self, by
      show ¬ ((5 : ZMod 7) = ∏ b ∈ range (2 ^ 1), ((b : ZMod 7) + 1))
      decide⟩ msg
  simpa [ZMod.card] using h

/-- **C56 (completeness).** For witnesses made by `GrandProductWitness::new` and the true products, with a
builder of honest sumcheck provers, the prover succeeds and the verifier accepts its messages, whatever
the challenges; both end with the same claims, in the order of the original claims, and these are the
evaluations of the multilinears (absent scalars counting as one) at points of the right lengths. -/
theorem C56_completeness (w : Nat) (order : EvaluationOrder) (build : ProverBuilder F)
    (hbuild : BuildsHonest w order build) (inputs : List (Nat × List (Packed F)))
    (witnesses : List (List (List (Packed F))))
    (hw : List.Forall₂ (fun p layers => witnessNew w p.1 p.2 = some (some layers)) inputs witnesses)
    (claims : List (GrandProductClaim F))
    (hc : List.Forall₂ (fun p (c : GrandProductClaim F) => c.nVars = p.1 ∧ c.Holds (value w p.2)) inputs claims)
    (chal : Nat → F) :
    let proof := (gpaBatchProve w order build witnesses claims).run chal
    ∃ final, proof.2 = .ok final ∧
      (gpaBatchVerify order claims).run (fun _ i => proof.1.getD i []) [] 0 chal = .ok final ∧
      List.Forall₂ (fun p l => LayerClaim.Holds p.1 (value w p.2) l) inputs final := by
  intro proof
  have hl1 := hw.length_eq
  have hl2 := hc.length_eq
  set rs : List (Running F) := (claims.zip (inputs.map fun p => value w p.2)).zip witnesses with hrs
  have e2 : (rs.map fun q => q.2) = witnesses := List.map_snd_zip (by simp; omega)
  have e3 : (rs.map fun q => q.1) = claims.zip (inputs.map fun p => value w p.2) := List.map_fst_zip (by simp; omega)
  have e1 : (rs.map fun q => q.1.1) = claims := by
    have : (rs.map fun q => q.1.1) = (rs.map fun q => q.1).map fun p => p.1 := by rw [List.map_map]; rfl
    rw [this, e3]
    exact List.map_fst_zip (by simp; omega)
  have hok : ∀ q ∈ rs, RunOk w q := by
    intro q hq
    obtain ⟨i, hi, rfl⟩ := List.getElem_of_mem hq
    have hi' : i < inputs.length := by
      have : rs.length = min (min claims.length inputs.length) witnesses.length := by simp [hrs]
      omega
    have a := (List.forall₂_iff_get.mp hw).2 i hi' (by omega)
    have b := (List.forall₂_iff_get.mp hc).2 i hi' (by omega)
    simp only [List.get_eq_getElem] at a b
    simp only [hrs, List.getElem_zip, List.getElem_map]
    have hcl : claims[i] = ⟨inputs[i].1, claims[i].product⟩ := by rw [← b.1]
    refine ⟨?_, b.2, ?_⟩
    · rw [hcl]
      exact goodLayers_of_new claims[i].product a
    · have hp := C36_product w inputs[i].1 inputs[i].2 witnesses[i] a
      refine hp.trans (congrArg some ?_)
      have := b.2
      unfold GrandProductClaim.Holds at this
      rw [this, b.1]
  have hagree := gpa_agree hbuild rs hok
  rw [e1, e2, e3] at hagree
  obtain ⟨a, b, h1, h2, rfl, h3⟩ := agree_run hagree [] [] chal
  refine ⟨a, h1, h2, ?_⟩
  have h3l := h3.length_eq
  rw [List.length_zip, List.length_map] at h3l
  refine List.forall₂_iff_get.mpr ⟨by omega, fun i hi hi' => ?_⟩
  have := (List.forall₂_iff_get.mp h3).2 i (by rw [List.length_zip, List.length_map]; omega) hi'
  have b := (List.forall₂_iff_get.mp hc).2 i hi (by omega)
  simp only [List.get_eq_getElem, List.getElem_zip, List.getElem_map] at this b ⊢
  rw [← b.1]
  exact this

/-- **C56 (the hypotheses of completeness can be met).** There are builders of honest provers. -/
theorem C56_builder_exists (w : Nat) (order : EvaluationOrder) :
    ∃ build : ProverBuilder F, BuildsHonest w order build := builder_exists w order

/-- Two products, of four scalars (two of them absent) and of two scalars, packed in pairs. -/
example (chal : Nat → ℚ) : ∃ (build : ProverBuilder ℚ) (witnesses : _) (final : List (LayerClaim ℚ)),
    (gpaBatchVerify .lowToHigh [⟨2, 6⟩, ⟨1, 20⟩]).run
      (fun _ i => ((gpaBatchProve 1 .lowToHigh build witnesses [⟨2, 6⟩, ⟨1, 20⟩]).run chal).1.getD i []) [] 0 chal
      = .ok final := by
  obtain ⟨build, hb⟩ := C56_builder_exists (F := ℚ) 1 .lowToHigh
  obtain ⟨w1, h1, _⟩ := C36_layers (F := ℚ) 1 2 [fun i => i + 2] (by decide)
  obtain ⟨w2, h2, _⟩ := C36_layers (F := ℚ) 1 1 [fun i => i + 4] (by decide)
  obtain ⟨final, _, hf, _⟩ := C56_completeness 1 .lowToHigh build hb
    [(2, [fun i => i + 2]), (1, [fun i => i + 4])] [w1, w2] (.cons h1 (.cons h2 .nil)) [⟨2, 6⟩, ⟨1, 20⟩]
    (.cons ⟨rfl, by norm_num [GrandProductClaim.Holds, Finset.prod_range_succ, value]⟩
      (.cons ⟨rfl, by norm_num [GrandProductClaim.Holds, Finset.prod_range_succ, value]⟩ .nil)) chal
  exact ⟨build, [w1, w2], final, hf⟩

/-- **C56 (the prover refuses false claims).** The prover takes a claim with a witness made by
`GrandProductWitness::new` exactly when the numbers of variables agree and the claim is true. -/
theorem C56_prover_refuses (w n : Nat) (input : List (Packed F)) (layers : List (List (Packed F)))
    (hw : witnessNew w n input = some (some layers)) (c : GrandProductClaim F) :
    (∃ s, ProverState.new c layers = .ok s) ↔ c.nVars = n ∧ c.Holds (value w input) := by
  have hg := (goodLayers_of_new (0 : F) hw).length
  have hn : witnessNVars layers = n := by
    unfold witnessNVars
    rw [hg]
    rfl
  unfold ProverState.new GrandProductClaim.Holds
  rw [C36_product w n input layers hw]
  simp only [hn]
  by_cases h : c.nVars = n
  · subst h
    by_cases h' : c.product = ∏ i ∈ range (2 ^ c.nVars), value w input i
    · rw [if_neg (by rw [← h']; simp)]
      exact ⟨fun _ => ⟨rfl, h'⟩, fun _ => ⟨_, rfl⟩⟩
    · rw [if_pos (Or.inr fun e => h' e.symm)]
      exact ⟨fun ⟨s, hs⟩ => by simp at hs, fun hc => absurd hc.2 h'⟩
  · rw [if_pos (Or.inl h)]
    exact ⟨fun ⟨s, hs⟩ => by simp at hs, fun hc => absurd hc.1 h⟩

example : ∃ layers, witnessNew (F := ℚ) 1 2 [fun i => i + 2] = some (some layers) ∧
    (∃ s, ProverState.new ⟨2, 6⟩ layers = .ok s) ∧ ¬ ∃ s, ProverState.new ⟨2, 7⟩ layers = .ok s := by
  obtain ⟨w1, h1, _⟩ := C36_layers (F := ℚ) 1 2 [fun i => i + 2] (by decide)
  refine ⟨w1, h1, ?_, ?_⟩ <;> rw [C56_prover_refuses 1 2 _ w1 h1] <;>
    norm_num [GrandProductClaim.Holds, Finset.prod_range_succ, value]

/-- **C56 (index composition).** It is constructed exactly when every index is in range, and then it
evaluates the inner composition at the selected positions. -/
theorem C56_index_composition (n : Nat) (indices : List Nat) (inner : Composition F) :
    ((∃ c, indexComposition n indices inner = .ok c) ↔ ∀ i ∈ indices, i < n) ∧
      ∀ c, indexComposition n indices inner = .ok c → c.nVars = n ∧ c.degree = inner.degree ∧
        ∀ q : List F, q.length = n → ∃ sub, indices.map (fun i => q[i]?) = sub.map some ∧
          c.evaluate q = inner.evaluate sub := by
  unfold indexComposition
  by_cases h : ∀ i ∈ indices, i < n
  · have hany : ¬ (indices.any (fun i => decide (i ≥ n))) = true := by
      simp only [List.any_eq_true, decide_eq_true_eq, not_exists, not_and]
      exact fun i hi => by have := h i hi; omega
    rw [if_neg hany]
    refine ⟨⟨fun _ => h, fun _ => ⟨_, rfl⟩⟩, ?_⟩
    rintro c hc
    injection hc with hc
    subst hc
    refine ⟨rfl, rfl, fun q hq => ?_⟩
    have : ∀ l : List Nat, (∀ i ∈ l, i < n) → ∃ sub, l.map (fun i => q[i]?) = sub.map some ∧
        (l.mapM fun i => q[i]?) = some sub := by
      intro l
      induction l with
      | nil => exact fun _ => ⟨[], rfl, rfl⟩
      | cons i l ih =>
        intro hl
        obtain ⟨sub, h1, h2⟩ := ih fun j hj => hl j (by simp [hj])
        have hi : q[i]? = some (q[i]'(by have := hl i (by simp); omega)) :=
          List.getElem?_eq_getElem _
        exact ⟨q[i]'(by have := hl i (by simp); omega) :: sub, by rw [List.map_cons, h1, hi]; rfl,
          by rw [List.mapM_cons, hi, h2]; rfl⟩
    obtain ⟨sub, h1, h2⟩ := this indices h
    refine ⟨sub, h1, ?_⟩
    simp only [hq, ne_eq, not_true_eq_false, if_false, h2]
  · have hany : (indices.any (fun i => decide (i ≥ n))) = true := by
      push Not at h
      obtain ⟨i, hi, hn⟩ := h
      exact List.any_eq_true.mpr ⟨i, hi, by simpa using hn⟩
    rw [if_pos hany]
    exact ⟨⟨fun ⟨c, hc⟩ => by simp at hc, fun hc => absurd hc h⟩, fun c hc => by simp at hc⟩

example : ∃ c, indexComposition (F := ℚ) 4 [2, 3] (productOf 2) = .ok c ∧ c.evaluate [5, 6, 7, 8] = .ok 56 := by
  obtain ⟨c, hc⟩ := (C56_index_composition (F := ℚ) 4 [2, 3] (productOf 2)).1.mpr (by simp)
  obtain ⟨_, _, h⟩ := (C56_index_composition (F := ℚ) 4 [2, 3] (productOf 2)).2 c hc
  obtain ⟨sub, h1, h2⟩ := h [5, 6, 7, 8] rfl
  refine ⟨c, hc, ?_⟩
  have : sub = [7, 8] := by
    have h1' : ([7, 8] : List ℚ).map some = sub.map some := h1
    exact (List.map_injective_iff.mpr (Option.some_injective ℚ) h1').symm
  rw [h2, this]
  norm_num [productOf]

end Verif.Gkr
