import Verif.Compute.LemmasOps
import Verif.Compute.PropsKernel
import Mathlib.Data.ZMod.Basic

/-! C76: the operations of the compute layers give what the documentation of `ComputeLayerExecutor` and `KernelExecutor`
says, crates/compute/src/layer.rs:134-585, 685-800. -/

namespace Verif.Compute.Ops

variable {F : Type} [CommRing F]

/-- C76, `inner_product`: the sum of the products of the subfield entries of one slice with the entries of the other, if
there are as many; an error otherwise. -/
theorem C76_inner_product {top level : Nat} {bases : Nat → F → List F}
    (hb : ∀ x, (bases level x).length = 2 ^ (top - level)) (a b : List F) :
    (level ≤ top → IsLevel level → a.length * 2 ^ (top - level) = b.length →
      innerProduct top bases level a b =
        .ok (∑ i ∈ Finset.range b.length, at' (a.flatMap (bases level)) i * at' b i)) ∧
    (¬ (level ≤ top ∧ IsLevel level ∧ a.length * 2 ^ (top - level) = b.length) →
      innerProduct top bases level a b = .err) := by
  rw [← supported_iff]
  constructor
  · intro h1 h2 h3
    have hl : b.length = (a.flatMap (bases level)).length := by rw [flatMap_length hb, h3]
    rw [innerProduct, if_neg (by omega), if_pos h2, foldl_sum, sum_eq]
    congr 1
    refine Finset.sum_congr (by simp [← hl]) fun i hi => ?_
    rw [at_zipWith _ hl (Finset.mem_range.1 hi), mul_comm]
  · intro h
    rw [innerProduct]
    split
    · rfl
    · split
      · exact absurd ⟨by omega, by assumption, by omega⟩ h
      · rfl

/-- Two coordinates over `ZMod 5`, for the examples: `x` has the coordinates `x` and `2 x`. -/
def twoBases (_ : Nat) (x : ZMod 5) : List (ZMod 5) := [x, 2 * x]

example : innerProduct 7 twoBases 6 [1, 3] [1, 1, 2, 2] = .ok (1 + 2 + 6 + 12) := by decide +kernel

/-- C76, `fold_left`: the product of the row vector `vec` with the matrix of the subfield entries, whose row `j` is the
`j`-th run of as many entries as the output has; an error or a panic, and no other value, if the lengths are not powers of two
that fit. -/
theorem C76_fold_left {top level : Nat} {bases : Nat → F → List F}
    (hb : ∀ x, (bases level x).length = 2 ^ (top - level)) (mat vec : List F) :
    (∀ m k, level ≤ top → IsLevel level → vec.length = 2 ^ m → mat.length * 2 ^ (top - level) = 2 ^ m * 2 ^ k →
      ∃ out, foldLeft top bases level mat vec (2 ^ k) = .ok out ∧ IsVec out (2 ^ k) fun i =>
        ∑ j ∈ Finset.range (2 ^ m), at' vec j * at' (mat.flatMap (bases level)) (j * 2 ^ k + i)) ∧
    ∀ n out, foldLeft top bases level mat vec n = .ok out → level ≤ top ∧ IsLevel level ∧ ∃ m k,
      vec.length = 2 ^ m ∧ n = 2 ^ k ∧ mat.length * 2 ^ (top - level) = 2 ^ m * 2 ^ k := by
  rw [← supported_iff]
  constructor
  · intro m k h1 h2 h3 h4
    rw [foldLeft, foldChecks_ok h1 h2 hb h3 (by rw [flatMap_length hb, h4])]
    refine ⟨_, rfl, ?_⟩
    simp only [foldl_range]
    exact isVec_map _ _
  · intro n out h
    unfold foldLeft at h
    split at h
    · cases h
    · cases h
    · rename_i heq
      rw [← flatMap_length hb]
      exact foldChecks_inv heq

example : foldLeft 7 twoBases 6 [1, 3] [1, 1] 2 = .ok [1 + 3, 2 + 6] := by decide +kernel

/-- C76, `fold_right`: the product of the matrix of the subfield entries, whose rows are the runs of as many entries as
`vec` has, with the column vector `vec`. -/
theorem C76_fold_right {top level : Nat} {bases : Nat → F → List F}
    (hb : ∀ x, (bases level x).length = 2 ^ (top - level)) (mat vec : List F) :
    (∀ m k, level ≤ top → IsLevel level → vec.length = 2 ^ m → mat.length * 2 ^ (top - level) = 2 ^ m * 2 ^ k →
      ∃ out, foldRight top bases level mat vec (2 ^ k) = .ok out ∧ IsVec out (2 ^ k) fun i =>
        ∑ j ∈ Finset.range (2 ^ m), at' (mat.flatMap (bases level)) (i * 2 ^ m + j) * at' vec j) ∧
    ∀ n out, foldRight top bases level mat vec n = .ok out → level ≤ top ∧ IsLevel level ∧ ∃ m k,
      vec.length = 2 ^ m ∧ n = 2 ^ k ∧ mat.length * 2 ^ (top - level) = 2 ^ m * 2 ^ k := by
  rw [← supported_iff]
  constructor
  · intro m k h1 h2 h3 h4
    rw [foldRight, foldChecks_ok h1 h2 hb h3 (by rw [flatMap_length hb, h4])]
    refine ⟨_, rfl, ?_⟩
    simp only [foldl_range]
    obtain ⟨g1, g2⟩ := isVec_map (fun i => ∑ j ∈ Finset.range (2 ^ m),
      vec.getD j 0 * (mat.flatMap (bases level)).getD (i * 2 ^ m + j) 0) (2 ^ k)
    refine ⟨g1, fun i hi => (g2 i hi).trans (Finset.sum_congr rfl fun j _ => mul_comm _ _)⟩
  · intro n out h
    unfold foldRight at h
    split at h
    · cases h
    · cases h
    · rename_i heq
      rw [← flatMap_length hb]
      exact foldChecks_inv heq

example : foldRight 7 twoBases 6 [1, 3] [1, 1] 2 = .ok [1 + 2, 3 + 6] := by decide +kernel

/-- Finding: the folds are documented to return an error for slices that do not fit, but panic if a slice is empty or the
vector has more than all entries of the matrix. -/
theorem C76_fold_panics {top level : Nat} (bases : Nat → F → List F) (hl : level ≤ top) (hs : IsLevel level) :
    (∀ vec n, foldLeft top bases level [] vec n = .panic ∧ foldRight top bases level [] vec n = .panic) ∧
    (∀ mat n, mat ≠ [] → foldLeft top bases level mat [] n = .panic ∧ foldRight top bases level mat [] n = .panic) ∧
    ∀ mat vec k m n, mat.length = 2 ^ k → vec.length = 2 ^ m → k + (top - level) < m →
      foldLeft top bases level mat vec n = .panic ∧ foldRight top bases level mat vec n = .panic := by
  have hl' : ¬ top < level := by omega
  rw [← supported_iff] at hs
  refine ⟨fun vec n => ?_, fun mat n hm => ?_, fun mat vec k m n h1 h2 h3 => ?_⟩
  · simp [foldLeft, foldRight, foldChecks, hl']
  · simp [foldLeft, foldRight, foldChecks, hl', hs, hm]
  · have := Nat.two_pow_pos k
    have := Nat.two_pow_pos m
    have e : foldChecks top bases level mat vec n = .panic := by
      rw [foldChecks, if_neg hl', if_neg (by omega), if_neg (by simp [hs])]
      simp only
      rw [if_neg (by omega), h1, h2, Nat.log2_two_pow, Nat.log2_two_pow, if_pos h3]
    simp [foldLeft, foldRight, e]

example : foldLeft 7 twoBases 6 [1] [1, 1, 1, 1] 1 = .panic := by decide +kernel

/-- C76, `extrapolate_line`: entry `i` is the value at `z` of the line through the two values at 0 and 1. -/
theorem C76_extrapolate_line (e0 e1 : List F) (z : F) :
    (e0.length = e1.length → ∃ out, extrapolateLine e0 e1 z = .ok out ∧
      IsVec out e0.length fun i => (1 - z) * at' e0 i + z * at' e1 i) ∧
    (e0.length ≠ e1.length → extrapolateLine e0 e1 z = .err) := by
  constructor
  · intro h
    refine ⟨_, by rw [extrapolateLine, if_neg (by simp [h])], by simp [h], fun i hi => ?_⟩
    rw [at_zipWith _ h hi]
    ring
  · intro h
    rw [extrapolateLine, if_pos h]

example : extrapolateLine [1, 2] [3, 1] (2 : ZMod 5) = .ok [0, 0] := by decide +kernel

/-- C76, `pairwise_product_reduce`: entry `i` of round `r` is the product of the `i`-th run of `2 ^ (r + 1)` entries of the
input, and the last round has the product of all; any other shape of the input or of the outputs is an error. -/
theorem C76_pairwise_product (input : List F) (lens : List Nat) :
    (∀ n, input.length = 2 ^ (n + 1) → lens = (List.range (n + 1)).map (fun r => 2 ^ (n - r)) →
      ∃ outs, pairwiseProductReduce input lens = .ok outs ∧ outs.length = n + 1 ∧
        (∀ r ≤ n, ∃ o, outs[r]? = some o ∧
          IsVec o (2 ^ (n - r)) fun i => ((input.drop (i * 2 ^ (r + 1))).take (2 ^ (r + 1))).prod) ∧
        outs[n]? = some [input.prod]) ∧
    ((¬ ∃ n, input.length = 2 ^ (n + 1) ∧ lens = (List.range (n + 1)).map (fun r => 2 ^ (n - r))) →
      pairwiseProductReduce input lens = .err) := by
  have el : ∀ n, (List.range (n + 1)).map (fun r => 2 ^ (n + 1 - r - 1)) = (List.range (n + 1)).map (fun r => 2 ^ (n - r)) := by
    intro n
    refine List.map_congr_left fun r _ => ?_
    congr 1; omega
  constructor
  · intro n h1 h2
    obtain ⟨outs, g1, g2, g3⟩ := rounds_ok (n + 1) input h1
    have hs : strictLog2 input.length = some (n + 1) := strictLog2_eq.2 h1
    rw [el, ← h2] at g1
    have g3' : ∀ r ≤ n, ∃ o, outs[r]? = some o ∧
        IsVec o (2 ^ (n - r)) fun i => ((input.drop (i * 2 ^ (r + 1))).take (2 ^ (r + 1))).prod := by
      intro r hr
      obtain ⟨o, o1, o2⟩ := g3 r (by omega)
      exact ⟨o, o1, by rwa [show n + 1 - r - 1 = n - r by omega] at o2⟩
    refine ⟨outs, ?_, g2, g3', ?_⟩
    · rw [pairwiseProductReduce, hs]
      simp only
      rw [if_neg (by simp [h2]), if_neg (by rw [el]; simp [h2]), g1]
    · obtain ⟨o, o1, o2, o3⟩ := g3' n (le_refl _)
      rw [o1]
      rw [Nat.sub_self, pow_zero] at o2 o3
      obtain ⟨x, rfl⟩ := List.length_eq_one_iff.1 o2
      have := o3 0 (by omega)
      simp only at this
      rw [zero_mul, List.drop_zero, ← h1, List.take_length] at this
      simp only [at', List.getD_cons_zero] at this
      rw [this]
  · intro h
    rw [pairwiseProductReduce]
    split
    · rfl
    · rfl
    · rename_i n hn0 hn
      rcases n with _ | n
      · exact absurd rfl (hn0 ·)
      · split
        · rfl
        · split
          · rfl
          · rename_i h1 h2
            rw [el] at h2
            exact absurd ⟨n, strictLog2_eq.1 hn, not_not.1 h2⟩ h

example : pairwiseProductReduce [1, 2, 3, 4] [2, 1] = .ok [[2, 2], [(4 : ZMod 5)]] := by decide +kernel

/-- C76, `compute_composite` on the CPU layer: entry `i` is the expression at position `i` of the rows; an error if the
lengths or the numbers of rows and variables differ. -/
theorem C76_compute_composite (rows : List (List F)) (rowLen outLen : Nat) {C : Comp F} (hC : C.Total) :
    (rowLen = outLen → rows.length = C.nVars → ∃ out, computeComposite rows rowLen outLen C = .ok out ∧
      IsVec out outLen (C.valueAt rows)) ∧
    (¬ (rowLen = outLen ∧ rows.length = C.nVars) → computeComposite rows rowLen outLen C = .err) := by
  constructor
  · intro h1 h2
    refine ⟨(List.range outLen).map (C.valueAt rows), ?_, isVec_map _ _⟩
    rw [computeComposite, if_neg (by simp [h1]), if_neg (by simp [h2]),
      Kernel.mapM_some _ _ _ fun i _ => column_eval hC h2 i]
  · intro h
    rw [computeComposite]
    split
    · rfl
    · split
      · rfl
      · rename_i h1 h2
        exact absurd ⟨not_not.1 h1, (not_not.1 h2).symm⟩ h

/-- The product of two variables. -/
def bivariate : Comp (ZMod 5) where
  nVars := 2
  eval | [a, b] => some (a * b)
       | _ => none

theorem bivariate_total : bivariate.Total := by
  intro q hq
  match q, hq with
  | [a, b], _ => exact ⟨a * b, rfl⟩

example : computeComposite [[1, 2], [3, 4]] 2 2 bivariate = .ok [3, 3] := by decide +kernel

/-- C76, `compute_composite` on the fast layer, over rows of a power of two: what the CPU layer gives if the rows fill
packed elements and there are enough threads; a panic otherwise (`C76_composite_panics`).

Partial: the property would have no condition on the number of threads and on the length. -/
theorem C76_fast_composite_partial (rows : List (List F)) (w t n : Nat) {C : Comp F} (hC : C.Total)
    (hr : rows.length = C.nVars) (hwn : w ≤ n) (hwt : w ≤ t + 1) :
    ∃ out, fastComputeComposite w t rows (2 ^ n) (2 ^ n) C = .ok out ∧
      computeComposite rows (2 ^ n) (2 ^ n) C = .ok out ∧ IsVec out (2 ^ n) (C.valueAt rows) := by
  obtain ⟨out, h1, h2⟩ := (C76_compute_composite rows (2 ^ n) (2 ^ n) hC).1 rfl hr
  obtain ⟨cs, k, hcs, hk⟩ : ∃ cs k, max (2 ^ n / 2 ^ (t + 1)) 1 = cs ∧ 2 ^ n / 2 ^ w = k * cs ∧ 0 < cs := by
    have hp : 2 ^ n / 2 ^ w = 2 ^ (n - w) := Nat.pow_div hwn (by omega)
    rcases Nat.le_total (t + 1) n with h | h
    · have : 2 ^ n / 2 ^ (t + 1) = 2 ^ (n - (t + 1)) := Nat.pow_div h (by omega)
      have h0 := Nat.two_pow_pos (n - (t + 1))
      refine ⟨2 ^ (n - (t + 1)), 2 ^ (t + 1 - w), by rw [this]; omega, ?_, h0⟩
      rw [hp, ← pow_add]; congr 1; omega
    · refine ⟨1, 2 ^ (n - w), ?_, by rw [hp, mul_one], by omega⟩
      have : 2 ^ n / 2 ^ (t + 1) ≤ 1 := by
        refine Nat.div_le_of_le_mul ?_
        rw [mul_one]
        exact Nat.pow_le_pow_right (by omega) h
      omega
  obtain ⟨hk, hc0⟩ := hk
  have hfull : 2 ^ w * (2 ^ n / 2 ^ w) = 2 ^ n := Nat.mul_div_cancel' (Nat.pow_dvd_pow 2 hwn)
  have hnum : (k * cs + cs - 1) / cs = k := by
    rw [show k * cs + cs - 1 = cs - 1 + cs * k by rw [mul_comm]; omega, Nat.add_mul_div_left _ _ hc0,
      Nat.div_eq_of_lt (by omega), zero_add]
  refine ⟨out, ?_, h1, h2⟩
  have hchunk := Kernel.mapM_some (fun i => compositeChunk w rows C (k * cs) cs (i * cs) (min cs (k * cs - i * cs)))
    (fun i => (((List.range cs).map fun j => (List.range (2 ^ w)).map fun l =>
      C.valueAt rows ((i * cs + j) * 2 ^ w + l))).flatten) (List.range k) (by
      intro i hi
      have hi := List.mem_range.1 hi
      have : (i + 1) * cs ≤ k * cs := Nat.mul_le_mul_right _ hi
      rw [Nat.add_mul, one_mul] at this
      rw [min_eq_left (by omega), compositeChunk, if_neg (by omega),
        Kernel.mapM_some _ _ _ fun j _ => evalPacked_ok hC hr w (i * cs + j)]
      rfl)
  rw [fastComputeComposite, if_neg (by simp), if_neg (by simp [hr])]
  simp only [hcs]
  rw [if_neg (by simp [hfull])]
  simp only [hk, hnum]
  have hout := (C76_compute_composite rows (2 ^ n) (2 ^ n) hC).1 rfl hr
  have hval : out = (List.range (2 ^ n)).map (C.valueAt rows) := by
    refine List.ext_getElem (by simp [h2.1]) fun i g1 g2 => ?_
    have := h2.2 i (by rw [h2.1] at g1; exact g1)
    simpa [at', List.getD_eq_getElem?_getD, List.getElem?_eq_getElem g1] using this
  have hflat := congrArg (fun o : Option (List (List F)) => match o with
    | none => Res.panic
    | some out => Res.ok out.flatten) hchunk
  refine hflat.trans ?_
  simp only
  congr 1
  rw [hval, ← hfull, hk]
  have blocks : ∀ (f : Nat → F) (W a : Nat), ((List.range a).map fun p => (List.range W).map fun l => f (p * W + l)).flatten =
      (List.range (a * W)).map f := by
    intro f W a
    induction a with
    | zero => simp
    | succ a ih =>
      rw [List.range_succ, List.map_append, List.flatten_append, ih, Nat.succ_mul, List.range_add, List.map_append,
        List.map_map]
      simp [Function.comp_def]
  have e1 : (fun i => (((List.range cs).map fun j => (List.range (2 ^ w)).map fun l =>
      C.valueAt rows ((i * cs + j) * 2 ^ w + l))).flatten) = fun i => (List.range (cs * 2 ^ w)).map fun l =>
        C.valueAt rows (i * (cs * 2 ^ w) + l) := by
    funext i
    rw [← blocks]
    congr 1
    refine List.map_congr_left fun j _ => List.map_congr_left fun l _ => ?_
    congr 1; ring
  rw [e1, blocks]
  congr 2
  ring

/-- Finding: the fast `compute_composite` panics whatever the rows are if they have fewer scalars than a packed element, or
if packed elements have more lanes than twice the threads, because the chunk size counts scalars where the rows count packed
elements: with elements of four lanes, on every single-threaded run. -/
theorem C76_composite_panics (rows : List (List F)) (w t n : Nat) {C : Comp F} (hr : rows.length = C.nVars)
    (h : n < w ∨ t + 1 < w) : fastComputeComposite w t rows (2 ^ n) (2 ^ n) C = .panic := by
  rw [fastComputeComposite, if_neg (by simp), if_neg (by simp [hr])]
  simp only
  have hw := Nat.two_pow_pos w
  have hn := Nat.two_pow_pos n
  rcases Nat.lt_or_ge n w with hnw | hwn
  · rw [if_pos]
    rw [Nat.div_eq_of_lt (Nat.pow_lt_pow_right (by omega) hnw)]
    omega
  · have ht : t + 1 < w := by omega
    have hp : 2 ^ n / 2 ^ w = 2 ^ (n - w) := Nat.pow_div hwn (by omega)
    have hc : 2 ^ n / 2 ^ (t + 1) = 2 ^ (n - (t + 1)) := Nat.pow_div (by omega) (by omega)
    have hlt : 2 ^ (n - w) < 2 ^ (n - (t + 1)) := Nat.pow_lt_pow_right (by omega) (by omega)
    have h0 := Nat.two_pow_pos (n - w)
    rw [if_neg (by rw [Nat.mul_div_cancel' (Nat.pow_dvd_pow 2 hwn)]; simp), hp, hc, max_eq_left (by omega)]
    have h1 : (2 ^ (n - w) + 2 ^ (n - (t + 1)) - 1) / 2 ^ (n - (t + 1)) = 1 := by
      refine Nat.div_eq_of_lt_le ?_ ?_ <;> omega
    rw [h1]
    have : compositeChunk w rows C (2 ^ (n - w)) (2 ^ (n - (t + 1))) (0 * 2 ^ (n - (t + 1)))
        (min (2 ^ (n - (t + 1))) (2 ^ (n - w) - 0 * 2 ^ (n - (t + 1)))) = none := by
      rw [compositeChunk, if_pos (by omega)]
    simp only [zero_mul, Nat.sub_zero] at this
    simp [this]

example : fastComputeComposite 2 0 [[1, 2, 3, 4], [3, 4, 0, 1]] 4 4 bivariate = .panic := by decide +kernel
example : fastComputeComposite 1 0 [[1, 2, 3, 4], [3, 4, 0, 1]] 4 4 bivariate = .ok [3, 3, 0, 4] := by decide +kernel

/-- C76, `sum_composition_evals`: both layers add to the accumulator the coefficient times the sum of the expression over
all positions of the rows.  The fast layer does so for every length of whole packed elements, which it takes in batches of
64, and for shorter rows, whatever is in the lanes beyond their end. -/
theorem C76_sum_composition (rows : List (List F)) (rowLen : Nat) {C : Comp F} (hC : C.Total)
    (hr : rows.length = C.nVars) (coeff acc : F) :
    sumComposition rows rowLen C coeff acc = .ok (acc + coeff * ∑ i ∈ Finset.range rowLen, C.valueAt rows i) ∧
    ∀ w junk, (2 ^ w ∣ rowLen ∨ rowLen < 2 ^ w) → (∀ r ∈ rows, r.length = rowLen) →
      fastSumComposition w rows rowLen junk C coeff acc =
        .ok (acc + coeff * ∑ i ∈ Finset.range rowLen, C.valueAt rows i) := by
  refine ⟨sumComposition_ok hC hr _ _ _, fun w junk hw hlen => ?_⟩
  rw [fastSumComposition, if_neg (by simp [hr])]
  split
  · rename_i hle
    have hd : 2 ^ w ∣ rowLen := by
      rcases hw with h | h
      · exact h
      · omega
    rw [if_neg (by simp [Nat.mod_eq_zero_of_dvd hd])]
    obtain ⟨P, rfl⟩ := hd
    simp only [Nat.mul_div_cancel_left P (Nat.two_pow_pos w)]
    obtain ⟨res, h1, h2, h3⟩ := sumBatches_ok hC hr w P ((P + 63) / 64)
    rw [h1]
    simp only
    rw [foldl_sum, h3, min_eq_left (by omega), sum_blocks, mul_comm P]
  · rename_i hlt
    obtain ⟨ls, hls, hl⟩ : ∃ ls, evalPacked w rows junk C 0 = some ls ∧
        ls.take rowLen = (List.range rowLen).map (C.valueAt rows) := by
      have hj : ∀ l, ∃ v, C.eval (rows.map fun r => r.getD (0 * 2 ^ w + l) (junk (0 * 2 ^ w + l))) = some v := fun l =>
        hC _ (by simp [hr])
      choose v hv using hj
      refine ⟨(List.range (2 ^ w)).map v, Kernel.mapM_some _ _ _ fun l _ => hv l, ?_⟩
      rw [← List.map_take, List.take_range, min_eq_left (by omega)]
      refine List.map_congr_left fun l hl => ?_
      have hl := List.mem_range.1 hl
      have he := column_eval hC hr l
      have : (rows.map fun r => r.getD (0 * 2 ^ w + l) (junk (0 * 2 ^ w + l))) = rows.map fun r => r.getD l 0 := by
        refine List.map_congr_left fun r hrm => ?_
        have := hlen r hrm
        simp [List.getD_eq_getElem?_getD, List.getElem?_eq_getElem (show l < r.length by omega)]
      have hv := hv l
      rw [this, he] at hv
      injection hv with hv
      exact hv.symm
    rw [hls]
    simp only
    rw [hl, foldl_sum, map_range_sum]

example : sumComposition [[1, 2], [3, 4]] 2 bivariate 2 1 = .ok (1 + 2 * (3 + 8)) ∧
    fastSumComposition 2 [[1, 2], [3, 4]] 2 (fun i => (i : ZMod 5)) bivariate 2 1 = .ok (1 + 2 * (3 + 8)) := by decide +kernel

/-- C76, `add` and `add_assign`: sums entry by entry, on slices of the given length; a panic for others. -/
theorem C76_add (logLen : Nat) (a b dst : List F) :
    (a.length = 2 ^ logLen → b.length = 2 ^ logLen → dst.length = 2 ^ logLen →
      (∃ out, add logLen a b dst = .ok out ∧ IsVec out (2 ^ logLen) fun i => at' a i + at' b i) ∧
      ∃ out, addAssign logLen a dst = .ok out ∧ IsVec out (2 ^ logLen) fun i => at' dst i + at' a i) ∧
    (¬ (a.length = 2 ^ logLen ∧ b.length = 2 ^ logLen ∧ dst.length = 2 ^ logLen) → add logLen a b dst = .panic) ∧
    (¬ (a.length = 2 ^ logLen ∧ dst.length = 2 ^ logLen) → addAssign logLen a dst = .panic) := by
  refine ⟨fun h1 h2 h3 => ⟨⟨_, by rw [add, if_neg (by simp [h1, h2, h3])], by simp [h1, h2], fun i hi => ?_⟩,
    ⟨_, by rw [addAssign, if_neg (by simp [h1, h3])], by simp [h1, h3], fun i hi => ?_⟩⟩, fun h => ?_, fun h => ?_⟩
  · exact at_zipWith _ (by omega) (by omega)
  · exact at_zipWith _ (by omega) (by omega)
  · rw [add, if_pos (by omega)]
  · rw [addAssign, if_pos (by omega)]

example : add 1 [1, 2] [3, 4] [0, 0] = .ok [4, (1 : ZMod 5)] := by decide +kernel

/-- C76, `map` on the fast layer: whatever the order in which the threads finish, the results are in the order of the
items, and the error is that of the first item that has one. -/
theorem C76_map {E α : Type} (rs : List (Except E α)) {done : List (Nat × Except E α)}
    (h : done.Perm (rs.zipIdx.map fun p => (p.2, p.1))) :
    (∀ vs, rs = vs.map .ok → collectMap done = .ok vs) ∧
    ∀ (pre : List α) e post, rs = pre.map .ok ++ .error e :: post → collectMap done = .error e := by
  have hc : collectMap done = rs.mapM id := by rw [collectMap, collect_sorted rs h]
  have hok : ∀ vs : List α, (vs.map (Except.ok (ε := E))).mapM id = .ok vs := by
    intro vs
    induction vs with
    | nil => rfl
    | cons v vs ih => rw [List.map_cons, List.mapM_cons, ih]; rfl
  refine ⟨?_, ?_⟩
  · rintro vs rfl
    rw [hc, hok]
  · rintro pre e post rfl
    rw [hc, List.mapM_append, hok]
    rfl

example : collectMap [(2, .ok 30), (0, .ok 10), (1, (.ok 20 : Except Unit Nat))] = .ok [10, 20, 30] :=
  (C76_map [.ok 10, .ok 20, .ok 30] (by decide)).1 _ rfl

/-- C76, sums of compositions over chunked memory, as the sumcheck provers launch them: on both layers, and on the fast one
for every number of threads, schedule and shape of the reduction, the result has for each expression its coefficient times
its sum over all positions of the mapped rows, and the memory is as before. -/
theorem C76_launch {maps : List (Kernel.MemMap F)} {rows : List (List F)} {n : Nat} (hne : rows ≠ [])
    (hm : ∃ ls : List Nat, ls.length = rows.length ∧ maps = List.zipWith Kernel.MemMap.chunked rows ls)
    (hn : ∀ r ∈ rows, r.length = 2 ^ n) {cs : List (Comp F × F)}
    (hC : ∀ p ∈ cs, p.1.Total ∧ p.1.nVars = rows.length) :
    Kernel.cpuAccumulate (sumKernel cs) maps =
      some (maps, .ok (cs.map fun p => p.2 * ∑ i ∈ Finset.range (2 ^ n), p.1.valueAt rows i)) ∧
    ∀ w e noRange env, Kernel.logChunksRange w maps = some (some (0, e)) →
      Kernel.Env.Valid w (min (env.logThreads + 1) e) env →
      Kernel.fastAccumulate w noRange env (sumKernel cs) maps =
        some (maps, .ok (cs.map fun p => p.2 * ∑ i ∈ Finset.range (2 ^ n), p.1.valueAt rows i)) := by
  obtain ⟨ls, hls, rfl⟩ := hm
  have hlen : (List.zipWith Kernel.MemMap.chunked rows ls).length = rows.length := by simp [hls]
  have hro : ReadOnly (List.zipWith Kernel.MemMap.chunked rows ls) := by
    intro m hm
    obtain ⟨i, hi, rfl⟩ := List.getElem_of_mem hm
    exact ⟨_, _, List.getElem_zipWith⟩
  have hne' : List.zipWith Kernel.MemMap.chunked rows ls ≠ [] := by
    intro h
    rw [h] at hlen
    exact hne (List.length_eq_zero_iff.1 hlen.symm)
  have hp : Kernel.PowersOfTwo (List.zipWith Kernel.MemMap.chunked rows ls) := by
    intro m hm
    obtain ⟨i, hi, rfl⟩ := List.getElem_of_mem hm
    rw [List.getElem_zipWith]
    exact ⟨n, hn _ (List.getElem_mem _)⟩
  have hk : Kernel.Typed (sumKernel cs) := fun c bufs => by rw [sumKernel_bufs]
  have hg : Kernel.IgnoresScratch (List.zipWith Kernel.MemMap.chunked rows ls) (sumKernel cs) := by
    intro c bufs bufs' h1 h2 h3
    rw [clear_readOnly hro h1, clear_readOnly hro h2] at h3
    rw [h3]; exact ⟨rfl, rfl⟩
  have hw : Kernel.whole (List.zipWith Kernel.MemMap.chunked rows ls) = rows.map Kernel.Buf.ref := by
    refine List.ext_getElem (by simp [Kernel.whole, hls]) fun i h1 h2 => by simp [Kernel.whole]
  have hd : (rows.map Kernel.Buf.ref).map Kernel.Buf.data = rows := by
    rw [List.map_map]; exact List.map_id' _
  have hrun : sumKernel cs 0 (Kernel.whole (List.zipWith Kernel.MemMap.chunked rows ls)) = (rows.map Kernel.Buf.ref,
      .ok (cs.map fun p => p.2 * ∑ i ∈ Finset.range (2 ^ n), p.1.valueAt rows i)) := by
    rw [hw, sumKernel_ok (n := 2 ^ n) (by simpa using hne) (by
      intro b hb
      obtain ⟨r, hr, rfl⟩ := List.mem_map.1 hb
      exact hn r hr) (by simpa using hC), hd]
  have hwr : Kernel.written (List.zipWith Kernel.MemMap.chunked rows ls) (rows.map Kernel.Buf.ref) =
      List.zipWith Kernel.MemMap.chunked rows ls := by
    refine List.ext_getElem (by simp [Kernel.written]) fun i h1 h2 => ?_
    simp [Kernel.written]
  have := Kernel.C75_thread_count hne' hp hk hg (sumKernel_splits hne' hro (by rwa [hlen]))
  rw [hrun, hwr] at this
  exact this

example : Kernel.cpuAccumulate (sumKernel [(bivariate, 2)]) [.chunked [1, 2, 3, 4] 0, .chunked [3, 4, 0, 1] 1] =
    some ([.chunked [1, 2, 3, 4] 0, .chunked [3, 4, 0, 1] 1], .ok [2 * (3 + 3 + 0 + 4)]) := by
  refine ((C76_launch (rows := [[1, 2, 3, 4], [3, 4, 0, 1]]) (n := 2) (by simp) ⟨[0, 1], rfl, rfl⟩ (by simp)
    (cs := [(bivariate, 2)]) ?_).1).trans ?_
  · simp only [List.mem_singleton, forall_eq]
    exact ⟨bivariate_total, rfl⟩
  · congr 3

end Verif.Compute.Ops
