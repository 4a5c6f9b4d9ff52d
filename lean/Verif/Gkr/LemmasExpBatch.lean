import Verif.Gkr.SpecExpBatch
import Verif.Gkr.PropsExp
import Verif.Sumcheck.LemmasEqInd
import Mathlib.Algebra.MvPolynomial.Rename

/-! The layers of the batched exponentiation as sumchecks. -/

set_option linter.dupNamespace false
set_option linter.unusedSectionVars false

namespace Verif.Gkr

open Verif.Mle Verif.Protocol Verif.Sumcheck Finset

variable {F : Type} [Field F] [DecidableEq F]

/-! ## The compositions -/

open MvPolynomial in
/-- The polynomial of a composition. -/
noncomputable def ExpComposition.poly : ExpComposition F → MvPolynomial ℕ F
  | .staticBase g => X 0 * ((1 - X 1) + X 1 * C g)
  | .dynamicBase => X 0 ^ 2 * ((1 - X 1) + X 1 * X 2)
  | .dynamicBaseLastLayer => (1 - X 1) + X 1 * X 0

open MvPolynomial in
theorem sel_degree (p : MvPolynomial ℕ F) (d : Nat) (hp : p.totalDegree ≤ d) :
    ((1 - X 1 : MvPolynomial ℕ F) + X 1 * p).totalDegree ≤ 1 + d := by
  refine (totalDegree_add _ _).trans (max_le ?_ ?_)
  · refine (totalDegree_sub _ _).trans (max_le ?_ ?_)
    · rw [totalDegree_one]; omega
    · rw [totalDegree_X]; omega
  · refine (totalDegree_mul _ _).trans ?_
    rw [totalDegree_X]
    omega

open MvPolynomial in
theorem ExpComposition.represents (c : ExpComposition F) : Represents c.toComposition c.poly where
  evaluate := by
    intro q hq
    have hq' : q.length = c.nVars := hq
    cases c with
    | staticBase g =>
      match q, hq' with
      | [a, b], _ => simp [ExpComposition.toComposition, ExpComposition.evaluate, ExpComposition.poly, evalAt]
    | dynamicBase =>
      match q, hq' with
      | [a, b, g], _ => simp [ExpComposition.toComposition, ExpComposition.evaluate, ExpComposition.poly, evalAt]
    | dynamicBaseLastLayer =>
      match q, hq' with
      | [a, b], _ => simp [ExpComposition.toComposition, ExpComposition.evaluate, ExpComposition.poly, evalAt]
  degree := by
    cases c with
    | staticBase g =>
      show _ ≤ 2
      refine (totalDegree_mul _ _).trans ?_
      have := sel_degree (C g : MvPolynomial ℕ F) 0 (by rw [totalDegree_C])
      rw [totalDegree_X]
      omega
    | dynamicBase =>
      show _ ≤ 4
      refine (totalDegree_mul _ _).trans ?_
      have := sel_degree (X 2 : MvPolynomial ℕ F) 1 (by rw [totalDegree_X])
      have := totalDegree_pow (X 0 : MvPolynomial ℕ F) 2
      rw [totalDegree_X] at this
      omega
    | dynamicBaseLastLayer =>
      show _ ≤ 2
      have := sel_degree (X 0 : MvPolynomial ℕ F) 1 (by rw [totalDegree_X])
      exact this

open MvPolynomial in
theorem sel_vars (p : MvPolynomial ℕ F) (n : Nat) (hn : 2 ≤ n) (hp : p.vars ⊆ range n) :
    ((1 - X 1 : MvPolynomial ℕ F) + X 1 * p).vars ⊆ range n := by
  have h1 : (X 1 : MvPolynomial ℕ F).vars ⊆ range n := by
    rw [vars_X]
    intro i hi
    rw [Finset.mem_singleton] at hi
    rw [Finset.mem_range]
    omega
  refine (vars_add_subset _ _).trans (Finset.union_subset ?_ ?_)
  · refine (vars_sub_subset (1 : MvPolynomial ℕ F)).trans (Finset.union_subset ?_ h1)
    rw [vars_one]
    simp
  · exact (vars_mul _ _).trans (Finset.union_subset h1 hp)

open MvPolynomial in
theorem X_vars (i n : Nat) (h : i < n) : (X i : MvPolynomial ℕ F).vars ⊆ range n := by
  rw [vars_X]
  intro j hj
  rw [Finset.mem_singleton] at hj
  rw [Finset.mem_range]
  omega

open MvPolynomial in
theorem ExpComposition.vars (c : ExpComposition F) : c.poly.vars ⊆ range c.nVars := by
  cases c with
  | staticBase g =>
    exact (vars_mul _ _).trans (Finset.union_subset (X_vars 0 2 (by omega))
      (sel_vars _ 2 (by omega) (by rw [vars_C]; simp)))
  | dynamicBase =>
    exact (vars_mul _ _).trans (Finset.union_subset ((vars_pow _ _).trans (X_vars 0 3 (by omega)))
      (sel_vars _ 3 (by omega) (X_vars 2 3 (by omega))))
  | dynamicBaseLastLayer => exact sel_vars _ 2 (by omega) (X_vars 0 2 (by omega))

/-- `IndexComposition` of consecutive multilinears. -/
def shiftComp (n off : Nat) (c : ExpComposition F) : Composition F where
  nVars := n
  degree := c.degree
  evaluate := fun q =>
    if q.length ≠ n then .error (.incorrectQuerySize n q.length)
    else match (List.range' off c.nVars).mapM fun i => q[i]? with
      | some sub => c.toComposition.evaluate sub
      | none => .error .panic

/-- Its polynomial. -/
noncomputable def shiftPoly (off : Nat) (c : ExpComposition F) : MvPolynomial ℕ F :=
  MvPolynomial.rename (fun i => i + off) c.poly

theorem mapM_range' {A : Type} (q : List A) : ∀ (m off : Nat), off + m ≤ q.length →
    (List.range' off m).mapM (fun i => q[i]?) = some ((q.drop off).take m)
  | 0, off, _ => by simp
  | m + 1, off, h => by
    rw [List.range'_succ, List.mapM_cons, List.getElem?_eq_getElem (by omega), mapM_range' q m (off + 1) (by omega),
      List.drop_eq_getElem_cons (by omega : off < q.length), List.take_succ_cons]
    rfl

theorem evalAt_shift (c : ExpComposition F) (off : Nat) (q : List F) (h : off + c.nVars ≤ q.length) :
    evalAt (shiftPoly off c) q = evalAt c.poly ((q.drop off).take c.nVars) := by
  unfold evalAt shiftPoly
  rw [MvPolynomial.eval_rename]
  refine MvPolynomial.eval₂Hom_congr' rfl (fun i hi _ => ?_) rfl
  have := Finset.mem_range.mp (c.vars hi)
  simp only [Function.comp, List.getD_eq_getElem?_getD]
  rw [List.getElem?_take_of_lt this, List.getElem?_drop, Nat.add_comm]

theorem shift_represents (n off : Nat) (c : ExpComposition F) (h : off + c.nVars ≤ n) :
    Represents (shiftComp n off c) (shiftPoly off c) where
  evaluate := by
    intro q hq
    have hq' : q.length = n := hq
    show (if q.length ≠ n then _ else _) = _
    rw [if_neg (by omega), mapM_range' q _ _ (by omega), evalAt_shift c off q (by omega)]
    exact c.represents.evaluate _ (by
      show _ = c.nVars
      rw [List.length_take, List.length_drop]
      omega)
  degree := (MvPolynomial.totalDegree_rename_le _ _).trans c.represents.degree

theorem shift_vars (n off : Nat) (c : ExpComposition F) (h : off + c.nVars ≤ n) :
    (shiftPoly off c).vars ⊆ range n := by
  unfold shiftPoly
  refine (MvPolynomial.vars_rename _ _).trans ?_
  intro i hi
  obtain ⟨j, hj, rfl⟩ := Finset.mem_image.mp hi
  have := Finset.mem_range.mp (c.vars hj)
  rw [Finset.mem_range]
  omega

theorem indexComposition_shift (n off : Nat) (c : ExpComposition F) (h : off + c.nVars ≤ n) :
    indexComposition n (List.range' off c.nVars) c.toComposition = .ok (shiftComp n off c) := by
  unfold indexComposition
  rw [if_neg]
  · rfl
  · simp only [List.any_eq_true, decide_eq_true_eq, not_exists, not_and]
    intro i hi
    rw [List.mem_range'_1] at hi
    omega

/-! ## One item in a layer -/

/-- What the current claim of an item is about before layer `k`. -/
def ExpItem.power (k : Nat) (it : ExpItem F) (v : Nat) : F :=
  match it.claim.staticBase with
  | some _ => it.base v ^ expNat (it.cols.take (it.cols.length - k)) v
  | none => it.base v ^ expNat (it.cols.drop k) v

/-- The current claim is true. -/
def ExpItem.TrueAt (k : Nat) (it : ExpItem F) : Prop := it.claim.eval = mle (it.power k) it.claim.evalPoint

/-- The multilinears of the sumcheck of layer `k`. -/
def ExpItem.layerTables (k : Nat) (it : ExpItem F) : List (Nat → F) :=
  match it.claim.staticBase with
  | some _ => if k + 1 = it.cols.length then [] else [it.power (k + 1), it.bit k]
  | none => if k + 1 = it.cols.length then [it.base, it.bit k] else [it.power (k + 1), it.bit k, it.base]

/-- The composition of layer `k`. -/
def ExpItem.comp (k : Nat) (it : ExpItem F) : Option (ExpComposition F) :=
  match it.claim.staticBase with
  | some g => if k + 1 = it.cols.length then none else some (.staticBase (g ^ 2 ^ (it.cols.length - 1 - k)))
  | none => some (if k + 1 = it.cols.length then .dynamicBaseLastLayer else .dynamicBase)

theorem trueAt_zero (it : ExpItem F) : it.TrueAt 0 ↔ it.Holds := by
  unfold ExpItem.TrueAt ExpItem.Holds ExpItem.power
  cases it.claim.staticBase <;> simp

theorem comp_length {k : Nat} {it : ExpItem F} :
    (it.layerTables k).length = match it.comp k with | some c => c.nVars | none => 0 := by
  unfold ExpItem.layerTables ExpItem.comp
  cases it.claim.staticBase with
  | some g => by_cases h : k + 1 = it.cols.length <;> simp [h, ExpComposition.nVars]
  | none => by_cases h : k + 1 = it.cols.length <;> simp [h, ExpComposition.nVars]

theorem comp_nVars {k : Nat} {it : ExpItem F} {c : ExpComposition F} (h : it.comp k = some c) :
    c.nVars = (it.layerTables k).length := by rw [comp_length, h]

theorem comp_degree {k : Nat} {it : ExpItem F} {c : ExpComposition F} (_h : it.comp k = some c) : c.degree ≤ 4 := by
  cases c <;> simp [ExpComposition.degree]

theorem layerTables_nil {k : Nat} {it : ExpItem F} : it.layerTables k = [] ↔ it.comp k = none := by
  unfold ExpItem.layerTables ExpItem.comp
  cases it.claim.staticBase with
  | some g => by_cases h : k + 1 = it.cols.length <;> simp [h]
  | none => by_cases h : k + 1 = it.cols.length <;> simp [h]

theorem nMultilinears_ok {k : Nat} {it : ExpItem F} (hw : it.WellFormed) (hk : k < it.cols.length) :
    layerNMultilinears it.claim k = some (it.layerTables k).length := by
  unfold layerNMultilinears isLastLayer ExpItem.layerTables
  rw [hw.width, if_pos (by omega)]
  cases it.claim.staticBase with
  | some g =>
    by_cases h : k + 1 = it.cols.length
    · simp [h, show it.cols.length - 1 - k = 0 by omega]
    · simp [h, show ¬ it.cols.length - 1 - k = 0 by omega]
  | none =>
    by_cases h : k + 1 = it.cols.length
    · simp [h, show it.cols.length - 1 - k = 0 by omega]
    · simp [h, show ¬ it.cols.length - 1 - k = 0 by omega]

/-- The composite of the multilinears is what the claim is about. -/
theorem comp_value {k : Nat} {it : ExpItem F} (hw : it.WellFormed) (hk : k < it.cols.length) {c : ExpComposition F}
    (hc : it.comp k = some c) (v : Nat) (hv : v < 2 ^ it.claim.nVars) :
    evalAt c.poly ((it.layerTables k).map fun t => t v) = it.power k v := by
  have hr := c.represents.evaluate ((it.layerTables k).map fun t => t v) (by
    rw [List.length_map]; exact (comp_nVars hc).symm)
  have key : c.evaluate ((it.layerTables k).map fun t => t v) = .ok (it.power k v) := by
    unfold ExpItem.comp at hc
    unfold ExpItem.layerTables ExpItem.power ExpItem.bit
    cases hs : it.claim.staticBase with
    | some g =>
      obtain ⟨hb, -, h64⟩ := hw.static g hs
      rw [hs] at hc
      simp only at hc ⊢
      split at hc
      · cases hc
      · rename_i hne
        injection hc with hc
        obtain ⟨comp, bit, e1, e2, e3⟩ := (C37_static_relation true it.claim.nVars it.cols hw.bits g h64 k).2 (by omega)
        have hcomp : comp = c := by
          unfold staticComposition isLastLayer shl64 at e1
          rw [if_pos (by omega), Option.bind_some, if_neg (by simp only [decide_eq_true_eq]; omega),
            if_pos (by omega)] at e1
          simp only [Option.map_some, Option.some.injEq] at e1
          rw [← e1, hc]
        subst hcomp
        have := e3 v hv
        rw [if_neg hne]
        simp only [List.map_cons, List.map_nil, Option.isNone_some]
        rw [e2, hb v]
        exact this
    | none =>
      rw [hs] at hc
      simp only at hc ⊢
      injection hc with hc
      obtain ⟨comp, bit, e1, e2, e3⟩ := C37_dynamic_relation it.claim.nVars it.cols hw.bits it.base k hk
      have hcomp : comp = c := by
        unfold dynamicComposition isLastLayer at e1
        rw [if_pos (by omega)] at e1
        simp only [Option.map_some, Option.some.injEq, decide_eq_true_eq] at e1
        rw [← e1, ← hc]
        by_cases h : k + 1 = it.cols.length
        · rw [if_pos h, if_pos (by omega)]
        · rw [if_neg h, if_neg (by omega)]
      subst hcomp
      have := e3 v hv
      simp only [Option.isNone_none]
      rw [e2]
      by_cases h : k + 1 = it.cols.length
      · rw [if_pos h] at this ⊢
        exact this
      · rw [if_neg h] at this ⊢
        exact this
  unfold ExpComposition.toComposition at hr
  simp only [key] at hr
  injection hr with hr
  exact hr.symm

theorem layerCompositeSum_ok (checks : Bool) {k : Nat} {it : ExpItem F} (hw : it.WellFormed) (hk : k < it.cols.length)
    (n off : Nat) (h : off + (it.layerTables k).length ≤ n) :
    layerCompositeSum checks it.claim k n off =
      .ok ((it.comp k).map fun c => ⟨shiftComp n off c, it.claim.eval⟩) := by
  have hlen := comp_length (k := k) (it := it)
  unfold layerCompositeSum
  unfold ExpItem.comp at hlen ⊢
  cases hs : it.claim.staticBase with
  | some g =>
    obtain ⟨-, -, h64⟩ := hw.static g hs
    rw [hs] at hlen
    simp only at hlen ⊢
    unfold staticComposition isLastLayer shl64
    rw [hw.width, if_pos (by omega), Option.bind_some]
    by_cases hl : k + 1 = it.cols.length
    · rw [if_pos (by simp only [decide_eq_true_eq]; omega), if_pos hl]
      rfl
    · rw [if_neg (by simp only [decide_eq_true_eq]; omega), if_pos (by omega), if_neg hl]
      rw [if_neg hl] at hlen
      simp only [Option.map_some]
      unfold indexedSum
      have := indexComposition_shift n off (.staticBase (g ^ 2 ^ (it.cols.length - 1 - k))) (by
        simp only at hlen; omega)
      rw [show List.range' off (ExpComposition.staticBase (g ^ 2 ^ (it.cols.length - 1 - k))).nVars = [off, off + 1]
        from rfl] at this
      rw [this]
  | none =>
    rw [hs] at hlen
    simp only at hlen ⊢
    unfold dynamicComposition isLastLayer
    rw [hw.width, if_pos (by omega)]
    by_cases hl : k + 1 = it.cols.length
    · rw [if_pos hl] at hlen ⊢
      have hz : it.cols.length - 1 - k = 0 := by omega
      simp only [hz, decide_true, Option.map_some, if_true]
      unfold indexedSum
      have := indexComposition_shift n off (.dynamicBaseLastLayer : ExpComposition F) (by omega)
      rw [show List.range' off (ExpComposition.dynamicBaseLastLayer : ExpComposition F).nVars = [off, off + 1]
        from rfl] at this
      rw [this]
    · rw [if_neg hl] at hlen ⊢
      have hz : ¬ it.cols.length - 1 - k = 0 := by omega
      simp only [hz, decide_false, Option.map_some, if_false, Bool.false_eq_true]
      unfold indexedSum
      have := indexComposition_shift n off (.dynamicBase : ExpComposition F) (by omega)
      rw [show List.range' off (ExpComposition.dynamicBase : ExpComposition F).nVars = [off, off + 1, off + 2]
        from rfl] at this
      rw [this]

/-! ## A group of items with the same point -/

/-- The composite sums of a group. -/
def gSums (k n : Nat) : List (ExpItem F) → (off : Nat) → List (CompositeSum F)
  | [], _ => []
  | it :: g, off => ((it.comp k).map fun c => (⟨shiftComp n off c, it.claim.eval⟩ : CompositeSum F)).toList ++
      gSums k n g (off + (it.layerTables k).length)

/-- Their polynomials. -/
noncomputable def gPolys (k : Nat) : List (ExpItem F) → (off : Nat) → List (MvPolynomial ℕ F)
  | [], _ => []
  | it :: g, off => ((it.comp k).map fun c => shiftPoly off c).toList ++ gPolys k g (off + (it.layerTables k).length)

/-- The multilinears of a group. -/
def gTables (k : Nat) (g : List (ExpItem F)) : List (Nat → F) := g.flatMap (ExpItem.layerTables k)

/-- The point of a group. -/
def gPoint : List (ExpItem F) → List F
  | [] => []
  | it :: _ => it.claim.evalPoint

/-- The sumcheck with an equality indicator of a group. -/
noncomputable def gInst (k : Nat) (g : List (ExpItem F)) : EqInstance F where
  claim := ⟨(gPoint g).length, (gTables k g).length, gSums k (gTables k g).length g 0⟩
  polys := gPolys k g 0
  tables := gTables k g

/-- The items of layer `k`: they are well formed and have bits left. -/
def AtLayer (k : Nat) (g : List (ExpItem F)) : Prop := ∀ it ∈ g, it.WellFormed ∧ k < it.cols.length

/-- A group: not empty, and all its points are the same. -/
def IsGroup (g : List (ExpItem F)) : Prop := g ≠ [] ∧ ∀ it ∈ g, it.claim.evalPoint = gPoint g

theorem AtLayer.tail {k : Nat} {it : ExpItem F} {g : List (ExpItem F)} (h : AtLayer k (it :: g)) : AtLayer k g :=
  fun x hx => h x (List.mem_cons_of_mem _ hx)

theorem groupNMultilinears_ok {k : Nat} : ∀ {g : List (ExpItem F)}, AtLayer k g →
    groupNMultilinears k (g.map fun it => it.claim) = some (gTables k g).length
  | [], _ => rfl
  | it :: g, h => by
    obtain ⟨h1, h2⟩ := h it (by simp)
    rw [List.map_cons, groupNMultilinears, nMultilinears_ok h1 h2, Option.bind_some, groupNMultilinears_ok h.tail]
    simp [gTables]

theorem groupSums_ok (checks : Bool) {k : Nat} (n : Nat) : ∀ {g : List (ExpItem F)} (off : Nat), AtLayer k g →
    off + (gTables k g).length ≤ n →
    groupSums checks k n (g.map fun it => it.claim) off = .ok (gSums k n g off)
  | [], _, _, _ => rfl
  | it :: g, off, h, hn => by
    obtain ⟨h1, h2⟩ := h it (by simp)
    have hl : (gTables k (it :: g)).length = (it.layerTables k).length + (gTables k g).length := by simp [gTables]
    rw [List.map_cons, groupSums, layerCompositeSum_ok checks h1 h2 n off (by omega)]
    dsimp only
    rw [nMultilinears_ok h1 h2]
    dsimp only
    rw [groupSums_ok checks n (off + (it.layerTables k).length) h.tail (by omega)]
    rfl

theorem gSums_forall (k n : Nat) (P : CompositeSum F → MvPolynomial ℕ F → Prop) :
    ∀ (g : List (ExpItem F)) (off : Nat),
    (∀ it ∈ g, ∀ off', off ≤ off' → off' + (it.layerTables k).length ≤ off + (gTables k g).length →
      ∀ c, it.comp k = some c → P ⟨shiftComp n off' c, it.claim.eval⟩ (shiftPoly off' c)) →
    List.Forall₂ P (gSums k n g off) (gPolys k g off)
  | [], _, _ => .nil
  | it :: g, off, h => by
    have hl : (gTables k (it :: g)).length = (it.layerTables k).length + (gTables k g).length := by simp [gTables]
    rw [gSums, gPolys]
    refine List.rel_append ?_ (gSums_forall k n P g _ fun x hx off' h1 h2 c hc =>
      h x (by simp [hx]) off' (by omega) (by omega) c hc)
    cases hc : it.comp k with
    | none => exact .nil
    | some c => exact .cons (h it (by simp) off (Nat.le_refl _) (by omega) c hc) .nil

theorem gInst_wf (k : Nat) (g : List (ExpItem F)) : (gInst k g).WellFormed where
  nMultilinears := rfl
  compositions := by
    refine gSums_forall k _ _ g 0 fun it hit off _ hoff c hc => ?_
    have hcn := comp_nVars hc
    exact ⟨shift_represents _ _ _ (by omega), shift_vars _ _ _ (by show _ ≤ (gTables k g).length; omega), rfl⟩

theorem gSums_mem {k n : Nat} : ∀ {g : List (ExpItem F)} {off : Nat} {s : CompositeSum F}, s ∈ gSums k n g off →
    s.composition.degree ≤ 4 ∧ s.composition.nVars = n
  | it :: g, off, s, h => by
    rw [gSums, List.mem_append] at h
    rcases h with h | h
    · cases hc : it.comp k with
      | none => rw [hc] at h; simp at h
      | some c =>
        rw [hc] at h
        simp only [Option.map_some, Option.toList_some, List.mem_singleton] at h
        subst h
        exact ⟨comp_degree hc, rfl⟩
    · exact gSums_mem h

theorem gSums_length (k n : Nat) : ∀ (g : List (ExpItem F)) (off : Nat), (gSums k n g off).length ≤ g.length
  | [], _ => Nat.le_refl _
  | it :: g, off => by
    have := gSums_length k n g (off + (it.layerTables k).length)
    rw [gSums, List.length_append]
    cases it.comp k <;> simp <;> omega

theorem gSums_ne (k n : Nat) : ∀ (g : List (ExpItem F)) (off : Nat), gTables k g ≠ [] → gSums k n g off ≠ []
  | [], _, h => absurd rfl h
  | it :: g, off, h => by
    rw [gSums]
    cases hc : it.comp k with
    | some c => simp
    | none =>
      have h0 : it.layerTables k = [] := layerTables_nil.mpr hc
      have : gTables k g ≠ [] := by
        intro e
        apply h
        simp only [gTables, List.flatMap_cons, h0, List.nil_append]
        exact e
      have := gSums_ne k n g (off + (it.layerTables k).length) this
      simpa using this

theorem buildEvalPointClaims_ok (checks : Bool) {k : Nat} {g : List (ExpItem F)} (h : AtLayer k g) (hne : g ≠ []) :
    buildEvalPointClaims checks k (g.map fun it => it.claim) =
      .ok (if gTables k g = [] then none else some (gInst k g).claim) := by
  unfold buildEvalPointClaims
  rw [groupNMultilinears_ok h]
  by_cases ht : gTables k g = []
  · rw [if_pos ht, ht]
    rfl
  · rw [if_neg ht]
    obtain ⟨it, g', rfl⟩ := List.exists_cons_of_ne_nil hne
    obtain ⟨m, hm⟩ : ∃ m, (gTables k (it :: g')).length = m + 1 :=
      Nat.exists_eq_succ_of_ne_zero (by simpa using ht)
    have hs := groupSums_ok checks (k := k) (gTables k (it :: g')).length 0 h (by omega)
    have hfind : (gSums k (gTables k (it :: g')).length (it :: g') 0).find?
        (fun s => s.composition.nVars != (gTables k (it :: g')).length) = none := by
      rw [List.find?_eq_none]
      intro s hs
      rw [(gSums_mem hs).2]
      simp
    have hnew : EqIndClaim.new it.claim.evalPoint.length (gTables k (it :: g')).length
        (gSums k (gTables k (it :: g')).length (it :: g') 0) = .ok (gInst k (it :: g')).claim := by
      unfold EqIndClaim.new
      rw [hfind]
      rfl
    rw [hm] at hs hnew ⊢
    rw [List.map_cons] at hs ⊢
    simp only [hs, hnew]

/-- The claim of a group is true exactly when the claims of its items are, except those that have no sum in this layer. -/
theorem gHolds (k : Nat) (g : List (ExpItem F)) (hl : AtLayer k g) (hp : ∀ it ∈ g, it.claim.evalPoint = gPoint g) :
    (gInst k g).Holds (gPoint g) ↔ ∀ it ∈ g, it.layerTables k ≠ [] → it.TrueAt k := by
  unfold EqInstance.Holds
  have hsuf : suffix (gInst k g).claim.nVars (gPoint g) = gPoint g := suffix_full _ _ (Nat.le_refl _)
  rw [hsuf]
  have key : ∀ (g' pre : List (ExpItem F)) (n : Nat), g = pre ++ g' →
      (List.Forall₂ (fun (s : CompositeSum F) p => s.sum =
        mle (fun b => evalAt p ((gTables k g).map fun t => t b)) (gPoint g))
        (gSums k n g' (gTables k pre).length) (gPolys k g' (gTables k pre).length) ↔
      ∀ it ∈ g', it.layerTables k ≠ [] → it.TrueAt k) := by
    intro g'
    induction g' with
    | nil => intro pre n _; simp [gSums, gPolys]
    | cons it g' ih =>
      intro pre n he
      have hmem : it ∈ g := by rw [he]; simp
      obtain ⟨hw, hk⟩ := hl it hmem
      have hoff : (gTables k (pre ++ [it])).length = (gTables k pre).length + (it.layerTables k).length := by
        simp [gTables]
      have ih' := ih (pre ++ [it]) n (by rw [he]; simp)
      rw [hoff] at ih'
      rw [gSums, gPolys]
      rw [List.forall_mem_cons, ← ih']
      cases hc : it.comp k with
      | none =>
        have h0 : it.layerTables k = [] := layerTables_nil.mpr hc
        simp [h0]
      | some c =>
        have hne : it.layerTables k ≠ [] := fun h => by rw [layerTables_nil, hc] at h; cases h
        simp only [Option.map_some, Option.toList_some, List.singleton_append, List.forall₂_cons]
        refine and_congr ?_ Iff.rfl
        rw [forall_prop_of_true hne]
        unfold ExpItem.TrueAt
        rw [hp it hmem]
        refine Eq.congr_right (mle_congr fun v hv => ?_)
        have hv' : v < 2 ^ it.claim.nVars := by
          rw [← hw.point, hp it hmem]
          exact hv
        rw [← comp_value hw hk hc v hv']
        have hcn := comp_nVars hc
        have hsplit : (gTables k g).map (fun t => t v) = (gTables k pre).map (fun t => t v) ++
            ((it.layerTables k).map (fun t => t v) ++ (gTables k g').map fun t => t v) := by
          rw [he]
          simp [gTables]
        rw [hsplit, evalAt_shift c _ _ (by simp; omega)]
        congr 1
        rw [List.drop_append_of_le_length (by simp), List.drop_of_length_le (by simp), List.nil_append, hcn,
          List.take_append_of_le_length (by simp), List.take_of_length_le (by simp)]
  exact key g [] _ rfl

end Verif.Gkr
