import Verif.Sumcheck.SpecEqInd
import Verif.Sumcheck.PropsFrontLoaded
import Verif.Protocol.LemmasSeq

/-! Lemmas about sumchecks with an equality indicator. -/

set_option linter.unusedSectionVars false

namespace Verif.Sumcheck

open Verif.Mle Verif.Protocol Finset

variable {F : Type} [Field F] [DecidableEq F]

theorem eqFn_eq (x y : F) : eqFn x y = x * y + (1 - x) * (1 - y) := by
  unfold eqFn
  split
  · rename_i h
    linear_combination (x + y - x * y) * h
  · rfl

/-! ## Suffixes -/

theorem suffix_length {A : Type} (n : Nat) (l : List A) : (suffix n l).length = min n l.length := by
  unfold suffix
  rw [List.length_drop]
  omega

theorem suffix_zero {A : Type} (l : List A) : suffix 0 l = [] := by simp [suffix]

theorem suffix_succ {A : Type} (n : Nat) (l : List A) (h : n < l.length) :
    suffix (n + 1) l = l[l.length - 1 - n] :: suffix n l := by
  unfold suffix
  rw [List.drop_eq_getElem_cons (i := l.length - (n + 1)) (by omega)]
  congr 1
  · congr 1; omega
  · congr 1; omega

theorem suffix_min {A : Type} (n : Nat) (l : List A) : suffix (min n l.length) l = suffix n l := by
  unfold suffix
  congr 1
  omega

theorem suffix_full {A : Type} (n : Nat) (l : List A) (h : l.length ≤ n) : suffix n l = l := by
  unfold suffix
  rw [show l.length - n = 0 by omega, List.drop_zero]

theorem eqInd_suffix_succ (a b : List F) (hl : b.length = a.length) (n : Nat) (h : n < a.length) :
    eqInd (suffix (n + 1) a) (suffix (n + 1) b)
      = eqInd (suffix n a) (suffix n b) * eqFn (a[a.length - 1 - n]) (b[b.length - 1 - n]) := by
  rw [suffix_succ n a h, suffix_succ n b (by omega), eqFn_eq]
  simp only [eqInd, List.zipWith_cons_cons, List.prod_cons]
  ring

/-! ## The check of the outputs -/

theorem advanceEq_ok (a b : List F) (hl : b.length = a.length) (count last : Nat)
    (h : last + count ≤ a.length) :
    advanceEq a b count last (eqInd (suffix last a) (suffix last b))
      = .ok (eqInd (suffix (last + count) a) (suffix (last + count) b)) := by
  induction count generalizing last with
  | zero => rfl
  | succ n ih =>
    rw [advanceEq, List.getElem?_eq_getElem (by omega), List.getElem?_eq_getElem (by omega)]
    simp only
    rw [← eqInd_suffix_succ a b hl last (by omega), ih (last + 1) (by omega)]
    rw [show last + 1 + n = last + (n + 1) by omega]

theorem getLast_append {A : Type} (l : List A) (h : l ≠ []) (x : A) (hx : l.getLast? = some x) :
    l = l.dropLast ++ [x] := by
  rw [List.getLast?_eq_some_iff] at hx
  obtain ⟨ys, rfl⟩ := hx
  simp

theorem scanOutputs_iff (a b : List F) (hl : b.length = a.length) (ps : List (EqIndClaim F × List F))
    (last : Nat) (hlast : last ≤ a.length) (l : List (List F)) :
    scanOutputs a b ps last (eqInd (suffix last a) (suffix last b)) = .ok l ↔
      List.Forall₂ (fun p s => EqIndOk a b p.1 p.2 s) ps l ∧ (∀ p ∈ ps, last ≤ p.1.nVars) ∧
        ps.Pairwise fun p q => min p.1.nVars a.length ≤ q.1.nVars := by
  induction ps generalizing last l with
  | nil =>
    rw [scanOutputs]
    constructor
    · intro h
      injection h with h
      subst h
      exact ⟨.nil, by simp, .nil⟩
    · rintro ⟨h, -, -⟩
      rw [List.forall₂_nil_left_iff.mp h]
  | cons p ps ih =>
    obtain ⟨claim, evals⟩ := p
    rw [scanOutputs]
    by_cases h1 : claim.nMultilinears + 1 ≠ evals.length
    · rw [if_pos h1]
      refine ⟨fun h => by simp at h, fun h => ?_⟩
      obtain ⟨s, l', ⟨hs, he⟩, -, rfl⟩ := List.forall₂_cons_left_iff.mp h.1
      simp only at hs he
      exact absurd (by rw [he]; simp [hs]) h1
    rw [if_neg h1]
    by_cases h2 : claim.nVars < last
    · rw [if_pos h2]
      refine ⟨fun h => by simp at h, fun h => ?_⟩
      have := h.2.1 _ (List.mem_cons_self ..)
      simp only at this
      omega
    rw [if_neg h2]
    simp only
    have hup : last ≤ min claim.nVars a.length := by omega
    rw [advanceEq_ok a b hl _ last (by omega), show last + (min claim.nVars a.length - last)
      = min claim.nVars a.length by omega, Nat.max_eq_right hup]
    simp only
    have hmin : eqInd (suffix (min claim.nVars a.length) a) (suffix (min claim.nVars a.length) b)
        = eqInd (suffix claim.nVars a) (suffix claim.nVars b) := by
      rw [suffix_min, ← hl, suffix_min]
    have hne : evals ≠ [] := by
      intro h0
      rw [h0] at h1
      simp at h1
    obtain ⟨x, hx⟩ : ∃ x, evals.getLast? = some x := by
      cases h : evals.getLast? with
      | none => rw [List.getLast?_eq_none_iff] at h; exact absurd h hne
      | some x => exact ⟨x, rfl⟩
    rw [hx]
    simp only
    have happ := getLast_append evals hne x hx
    by_cases h3 : eqInd (suffix (min claim.nVars a.length) a) (suffix (min claim.nVars a.length) b) ≠ x
    · rw [if_pos h3]
      refine ⟨fun h => by simp at h, fun h => ?_⟩
      obtain ⟨s, l', ⟨hs, he⟩, -, rfl⟩ := List.forall₂_cons_left_iff.mp h.1
      simp only at hs he
      rw [he, List.getLast?_concat] at hx
      injection hx with hx
      rw [hmin] at h3
      exact absurd hx h3
    · rw [if_neg h3]
      rw [not_not] at h3
      have ih' := ih (min claim.nVars a.length) (by omega)
      constructor
      · intro h
        split at h
        · rename_i l' hl'
          injection h with h
          subst h
          obtain ⟨i1, i2, i3⟩ := (ih' l').mp hl'
          refine ⟨.cons ⟨?_, ?_⟩ i1, ?_, ?_⟩
          · rw [List.length_dropLast]; show _ = claim.nMultilinears; omega
          · simp only
            rw [← hmin, h3]
            exact happ
          · intro q hq
            rcases List.mem_cons.mp hq with rfl | hq
            · simp only; omega
            · have := i2 q hq
              omega
          · exact List.pairwise_cons.mpr ⟨fun q hq => i2 q hq, i3⟩
        · simp at h
      · rintro ⟨i1, i2, i3⟩
        obtain ⟨s, l', ⟨hs, he⟩, hf, rfl⟩ := List.forall₂_cons_left_iff.mp i1
        simp only at hs he
        obtain ⟨i4, i5⟩ := List.pairwise_cons.mp i3
        rw [(ih' l').mpr ⟨hf, i4, i5⟩]
        simp only
        rw [he, List.dropLast_concat]

/-- The sizes of the claims, as far as they matter, in the order announced. -/
def OrderOk (sorting : SortingOrder) (N : Nat) (claims : List (EqIndClaim F)) : Prop :=
  match sorting with
  | .ascendingVars => claims.Pairwise fun c d => min c.nVars N ≤ d.nVars
  | .descendingVars => claims.Pairwise fun c d => min d.nVars N ≤ c.nVars

theorem eqInd_nil : eqInd ([] : List F) [] = 1 := by simp [eqInd]

theorem verifyOutputs_iff (sorting : SortingOrder) (claims : List (EqIndClaim F)) (r : List F)
    (out out' : Output F) :
    verifySumcheckOutputs sorting claims r out = .ok out' ↔
      out.multilinearEvals.length = claims.length ∧ r.length = out.challenges.length ∧
      OrderOk sorting out.challenges.length claims ∧ out'.challenges = out.challenges ∧
      List.Forall₂ (fun p s => EqIndOk out.challenges r p.1 p.2 s)
        (claims.zip out.multilinearEvals) out'.multilinearEvals := by
  unfold verifySumcheckOutputs
  by_cases h1 : out.multilinearEvals.length ≠ claims.length
  · rw [if_pos h1]
    exact ⟨fun h => by simp at h, fun h => absurd h.1 h1⟩
  rw [if_neg h1]
  by_cases h2 : r.length ≠ out.challenges.length
  · rw [if_pos h2]
    exact ⟨fun h => by simp at h, fun h => absurd h.2.1 h2⟩
  rw [if_neg h2]
  rw [not_not] at h1 h2
  have hone : (1 : F) = eqInd (suffix 0 out.challenges) (suffix 0 r) := by
    rw [suffix_zero, suffix_zero, eqInd_nil]
  have hfst : (claims.zip out.multilinearEvals).map Prod.fst = claims := List.map_fst_zip (by omega)
  obtain ⟨chs', evs'⟩ := out'
  cases sorting with
  | ascendingVars =>
    simp only [OrderOk]
    have hpw : (claims.zip out.multilinearEvals).Pairwise
        (fun p q => min p.1.nVars out.challenges.length ≤ q.1.nVars)
        ↔ claims.Pairwise fun c d => min c.nVars out.challenges.length ≤ d.nVars := by
      conv_rhs => rw [← hfst]
      rw [List.pairwise_map]
    rw [hone]
    constructor
    · intro h
      split at h
      · rename_i l hl
        injection h with h
        injection h with e1 e2
        subst e1 e2
        obtain ⟨i1, -, i3⟩ := (scanOutputs_iff _ _ h2 _ 0 (by omega) l).mp hl
        exact ⟨h1, h2, hpw.mp i3, rfl, i1⟩
      · simp at h
    · rintro ⟨-, -, h3, h4, h5⟩
      rw [(scanOutputs_iff _ _ h2 _ 0 (by omega) evs').mpr ⟨h5, by simp, hpw.mpr h3⟩]
      simp only at h4 ⊢
      rw [h4]
  | descendingVars =>
    simp only [OrderOk]
    have hpw : (claims.zip out.multilinearEvals).reverse.Pairwise
        (fun p q => min p.1.nVars out.challenges.length ≤ q.1.nVars)
        ↔ claims.Pairwise fun c d => min d.nVars out.challenges.length ≤ c.nVars := by
      conv_rhs => rw [← hfst]
      rw [List.pairwise_map, List.pairwise_reverse]
    rw [hone]
    constructor
    · intro h
      split at h
      · rename_i l hl
        injection h with h
        injection h with e1 e2
        subst e1 e2
        obtain ⟨i1, -, i3⟩ := (scanOutputs_iff _ _ h2 _ 0 (by omega) l).mp hl
        refine ⟨h1, h2, hpw.mp i3, rfl, ?_⟩
        have := List.rel_reverse i1
        rwa [List.reverse_reverse] at this
      · simp at h
    · rintro ⟨-, -, h3, h4, h5⟩
      rw [(scanOutputs_iff _ _ h2 _ 0 (by omega) evs'.reverse).mpr
        ⟨List.rel_reverse h5, by simp, hpw.mpr h3⟩]
      simp only [List.reverse_reverse] at h4 ⊢
      rw [h4]

/-! ## The regular claims -/

theorem mle_eqWeight (x r : List F) (h : x.length = r.length) : mle (eqWeight r) x = eqInd x r := by
  induction x generalizing r with
  | nil =>
    cases r with
    | nil => simp [eqInd]
    | cons a r => simp at h
  | cons a x ih =>
    cases r with
    | nil => simp at h
    | cons b r =>
      rw [mle_cons]
      have e : (fun j => (1 - a) * eqWeight (b :: r) (2 * j) + a * eqWeight (b :: r) (2 * j + 1))
          = fun j => (a * b + (1 - a) * (1 - b)) * eqWeight r j := by
        funext j
        rw [eqWeight_cons, eqWeight_cons, if_neg (by omega), if_pos (by omega),
          show 2 * j / 2 = j by omega, show (2 * j + 1) / 2 = j by omega]
        ring
      rw [e, mle_smul, ih r (by simpa using h)]
      simp [eqInd]

open MvPolynomial in
theorem evalAt_extra (p : MvPolynomial ℕ F) (m : Nat) (hv : p.vars ⊆ range m) (q : List F)
    (hq : q.length = m) (x : F) :
    evalAt (p * X m) (q ++ [x]) = evalAt p q * x := by
  unfold evalAt
  rw [map_mul, eval_X]
  congr 1
  · refine eval₂Hom_congr' rfl (fun i hi _ => ?_) rfl
    have := Finset.mem_range.mp (hv hi)
    simp only [List.getD_eq_getElem?_getD]
    rw [List.getElem?_append_left (by omega)]
  · simp [List.getD_eq_getElem?_getD, ← hq]

/-- The regular instance of an instance with an equality indicator. -/
noncomputable def EqInstance.regular (r : List F) (I : EqInstance F) : Instance F where
  claim := ⟨I.claim.nVars, I.claim.nMultilinears + 1,
    I.claim.sums.map fun s => ⟨extraProduct s.composition, s.sum⟩⟩
  polys := I.polys.map fun p => p * MvPolynomial.X I.claim.nMultilinears
  tables := I.tables ++ [eqWeight (suffix I.claim.nVars r)]

theorem extraProduct_represents {c : Composition F} {p : MvPolynomial ℕ F} (h : Represents c p)
    (hv : p.vars ⊆ range c.nVars) : Represents (extraProduct c) (p * MvPolynomial.X c.nVars) where
  evaluate := by
    intro q hq
    have hq' : q.length = c.nVars + 1 := hq
    have hsplit : q = q.take c.nVars ++ [q[c.nVars]] := by
      rw [List.take_append_getElem, List.take_of_length_le (by omega)]
    have hlen : (q.take c.nVars).length = c.nVars := by rw [List.length_take]; omega
    conv_rhs => rw [hsplit]
    rw [evalAt_extra p c.nVars hv _ hlen]
    show (if q.length ≠ c.nVars + 1 then _ else _) = _
    rw [if_neg (by omega), h.evaluate _ hlen, List.getElem?_eq_getElem (by omega)]
  degree := by
    refine (MvPolynomial.totalDegree_mul _ _).trans ?_
    show _ ≤ c.degree + 1
    have := MvPolynomial.totalDegree_X (R := F) c.nVars
    have := h.degree
    omega

theorem regular_wf (r : List F) {I : EqInstance F} (h : I.WellFormed) : (I.regular r).WellFormed where
  nMultilinears := by simp [EqInstance.regular, h.nMultilinears]
  compositions := by
    show List.Forall₂ _ (I.claim.sums.map _) (I.polys.map _)
    rw [List.forall₂_map_left_iff, List.forall₂_map_right_iff]
    refine h.compositions.imp fun s p hs => ?_
    obtain ⟨h1, h2, h3⟩ := hs
    refine ⟨?_, ?_⟩
    · have := extraProduct_represents h1 (by rw [h3]; exact h2)
      rw [h3] at this
      exact this
    · show s.composition.nVars + 1 = I.claim.nMultilinears + 1
      rw [h3]

theorem regular_holds (r : List F) {I : EqInstance F} (h : I.WellFormed)
    (hn : I.claim.nVars ≤ r.length) : (I.regular r).Holds ↔ I.Holds r := by
  unfold Instance.Holds EqInstance.Holds
  show List.Forall₂ _ (I.claim.sums.map _) (I.polys.map _) ↔ _
  rw [List.forall₂_map_left_iff, List.forall₂_map_right_iff]
  have key : ∀ p : MvPolynomial ℕ F, p.vars ⊆ range I.claim.nMultilinears →
      cubeSum (I.regular r).claim.nVars (I.regular r).tables (p * MvPolynomial.X I.claim.nMultilinears)
        = mle (fun b => evalAt p (I.tables.map fun t => t b)) (suffix I.claim.nVars r) := by
    intro p hv
    unfold cubeSum mle
    have hl : (suffix I.claim.nVars r).length = I.claim.nVars := by rw [suffix_length]; omega
    rw [hl]
    refine Finset.sum_congr rfl fun b _ => ?_
    show evalAt _ ((I.tables ++ [eqWeight (suffix I.claim.nVars r)]).map _) = _
    rw [List.map_append, List.map_singleton,
      evalAt_extra p _ hv _ (by rw [List.length_map, h.nMultilinears])]
    ring
  have hc := h.compositions
  clear h
  revert key hc
  generalize I.polys = ps
  generalize I.claim.sums = ss
  intro key hc
  induction hc with
  | nil => simp
  | cons hh _ ih =>
    rw [List.forall₂_cons, List.forall₂_cons, key _ hh.2.1]
    exact and_congr Iff.rfl ih

theorem collect_map_ok {A B : Type} (l : List A) (f : A → Except Error B) (g : A → B)
    (h : ∀ a ∈ l, f a = .ok (g a)) : collect (l.map f) = .ok (l.map g) := by
  induction l with
  | nil => rfl
  | cons a l ih =>
    rw [List.map_cons, h a (List.mem_cons_self ..), collect,
      ih fun b hb => h b (List.mem_cons_of_mem _ hb)]
    rfl

theorem reduce_ok (r : List F) (all : List (EqInstance F)) (hwf : ∀ I ∈ all, I.WellFormed) :
    reduceToRegularSumchecks (all.map fun I => I.claim)
      = .ok ((all.map fun I => I.regular r).map fun I => I.claim) := by
  unfold reduceToRegularSumchecks
  rw [List.map_map, List.map_map]
  refine collect_map_ok all _ _ fun I hI => ?_
  show Claim.new _ _ _ = _
  unfold Claim.new
  have : (List.find? (fun s : CompositeSum F => s.composition.nVars != I.claim.nMultilinears + 1)
      (I.claim.sums.map fun s => ⟨extraProduct s.composition, s.sum⟩)) = none := by
    rw [List.find?_eq_none]
    intro s hs
    obtain ⟨s', hs', rfl⟩ := List.mem_map.mp hs
    have h3 : s'.composition.nVars = I.claim.nMultilinears := by
      obtain ⟨i, hi, rfl⟩ := List.getElem_of_mem hs'
      have hl := (hwf I hI).compositions.length_eq
      exact ((List.forall₂_iff_get.mp (hwf I hI).compositions).2 i hi (by omega)).2.2
    show ¬ ((s'.composition.nVars + 1 != I.claim.nMultilinears + 1) = true)
    rw [h3]
    simp
  rw [this]
  rfl

theorem arrange_take (order : EvaluationOrder) (out : Output F) (n : Nat)
    (h : order = .highToLow ∨ out.challenges.length ≤ n) :
    arrange order (out.challenges.take n) = suffix n (reverseFor order out).challenges := by
  cases order with
  | highToLow =>
    show (out.challenges.take n).reverse = suffix n out.challenges.reverse
    unfold suffix
    rw [List.reverse_take, List.length_reverse]
  | lowToHigh =>
    rcases h with h | h
    · simp at h
    · show out.challenges.take n = suffix n out.challenges
      rw [List.take_of_length_le h, suffix_full _ _ h]

theorem reverseFor_evals (order : EvaluationOrder) (out : Output F) :
    (reverseFor order out).multilinearEvals = out.multilinearEvals ∧
    (reverseFor order out).challenges.length = out.challenges.length := by
  cases order <;> simp [reverseFor]

/-- An accepted output with correct evaluations comes from correct evaluations of the regular
claims. -/
theorem front_of_eq (order : EvaluationOrder) (sorting : SortingOrder) (all : List (EqInstance F))
    (r : List F) (hn : ∀ I ∈ all, I.claim.nVars ≤ r.length)
    (ho : order = .highToLow ∨ ∀ I ∈ all, I.claim.nVars = r.length) (out out' : Output F)
    (hv : verifySumcheckOutputs sorting (all.map fun I => I.claim) r (reverseFor order out) = .ok out')
    (hg : EqCorrectEvals all out') :
    FrontCorrectEvals order (all.map fun I => I.regular r) out := by
  obtain ⟨h1, h2, -, h4, h5⟩ := (verifyOutputs_iff _ _ _ _ _).mp hv
  obtain ⟨e1, e2⟩ := reverseFor_evals order out
  rw [e1] at h1 h5
  unfold EqCorrectEvals at hg
  rw [h4] at hg
  unfold FrontCorrectEvals
  rw [List.forall₂_map_left_iff]
  rw [List.length_map] at h1
  rw [List.forall₂_iff_get] at h5 hg ⊢
  refine ⟨by omega, fun i hi hi' => ?_⟩
  have hz : i < ((all.map fun I => I.claim).zip out.multilinearEvals).length := by
    simp [List.length_zip]; omega
  obtain ⟨-, he⟩ := h5.2 i hz (by omega)
  have hgi := hg.2 i hi (by omega)
  simp only [List.get_eq_getElem, List.getElem_zip, List.getElem_map] at he hgi ⊢
  rw [he, hgi]
  have hmem := List.getElem_mem hi
  have hni := hn _ hmem
  show _ = ((all[i]).tables ++ [_]).map _
  rw [List.map_append, List.map_singleton, arrange_take order out _ (by
    rcases ho with h | h
    · exact Or.inl h
    · right
      have := h _ hmem
      show out.challenges.length ≤ (all[i]).claim.nVars
      omega)]
  show _ = (all[i]).tables.map _ ++ [mle (eqWeight _) (suffix (all[i]).claim.nVars _)]
  rw [mle_eqWeight _ _ (by rw [suffix_length, suffix_length]; omega)]
  rfl

theorem front_to_eq (order : EvaluationOrder) (sorting : SortingOrder) (all : List (EqInstance F))
    (r : List F) (hwf : ∀ I ∈ all, I.WellFormed)
    (ho : order = .highToLow ∨ ∀ I ∈ all, I.claim.nVars = r.length) (out : Output F)
    (hlen : out.challenges.length = r.length)
    (hsort : OrderOk sorting r.length (all.map fun I => I.claim))
    (hg : FrontCorrectEvals order (all.map fun I => I.regular r) out) :
    let out' : Output F := ⟨(reverseFor order out).challenges,
      all.map fun I => I.tables.map fun t => mle t (suffix I.claim.nVars (reverseFor order out).challenges)⟩
    verifySumcheckOutputs sorting (all.map fun I => I.claim) r (reverseFor order out) = .ok out' := by
  intro out'
  obtain ⟨e1, e2⟩ := reverseFor_evals order out
  unfold FrontCorrectEvals at hg
  rw [List.forall₂_map_left_iff] at hg
  have hl := hg.length_eq
  rw [verifyOutputs_iff]
  refine ⟨by rw [e1, List.length_map, hl], by omega, by rw [e2, hlen]; exact hsort, rfl, ?_⟩
  rw [e1]
  rw [List.forall₂_iff_get] at hg ⊢
  refine ⟨by simp [out']; omega, fun i hi hi' => ?_⟩
  have hi2 : i < all.length := by simpa [out'] using hi'
  have hgi := hg.2 i hi2 (by omega)
  have hmem := List.getElem_mem hi2
  simp only [List.get_eq_getElem, List.getElem_zip, List.getElem_map, out'] at hgi ⊢
  refine ⟨by rw [List.length_map, (hwf _ hmem).nMultilinears], ?_⟩
  rw [hgi]
  show ((all[i]).tables ++ [_]).map _ = _
  rw [List.map_append, List.map_singleton, arrange_take order out _ (by
    rcases ho with h | h
    · exact Or.inl h
    · right
      have := h _ hmem
      show out.challenges.length ≤ (all[i]).claim.nVars
      omega)]
  show (all[i]).tables.map _ ++ [mle (eqWeight _) (suffix (all[i]).claim.nVars _)] = _
  rw [mle_eqWeight _ _ (by rw [suffix_length, suffix_length]; omega)]
  rfl

theorem regular_degree (r : List F) (I : EqInstance F) (D : Nat)
    (hD : ∀ s ∈ I.claim.sums, s.composition.degree ≤ D) :
    (I.regular r).claim.maxIndividualDegree ≤ D + 1 := by
  show (((I.claim.sums.map _).map _).max?).getD 0 ≤ _
  rw [List.map_map]
  cases hx : (I.claim.sums.map ((fun s => s.composition.degree) ∘
      fun s : CompositeSum F => (⟨extraProduct s.composition, s.sum⟩ : CompositeSum F))).max? with
  | none => simp
  | some m =>
    obtain ⟨hm, -⟩ := List.max?_eq_some_iff.mp hx
    obtain ⟨s, hs, rfl⟩ := List.mem_map.mp hm
    show s.composition.degree + 1 ≤ D + 1
    have := hD s hs
    omega

theorem regular_degree_pos (r : List F) (I : EqInstance F) (h : I.claim.sums ≠ []) :
    1 ≤ (I.regular r).claim.maxIndividualDegree := by
  obtain ⟨s, ss, e⟩ := List.exists_cons_of_ne_nil h
  have := degree_le_max (c := (I.regular r).claim)
    (s := ⟨extraProduct s.composition, s.sum⟩) (by
      show _ ∈ I.claim.sums.map _
      rw [e]
      exact List.mem_cons_self ..)
  have h2 : (extraProduct s.composition).degree = s.composition.degree + 1 := rfl
  simp only [h2] at this
  omega

/-- A false claim with an equality indicator is hard to defend. -/
theorem eqInd_err (order : EvaluationOrder) (sorting : SortingOrder) (all : List (EqInstance F))
    (r : List F) (hwf : ∀ I ∈ all, I.WellFormed)
    (big : EqInstance F) (hbig : big ∈ all) (hr : big.claim.nVars = r.length)
    (hmax : ∀ I ∈ all, I.claim.nVars ≤ r.length)
    (ho : order = .highToLow ∨ ∀ I ∈ all, I.claim.nVars = r.length)
    (hdeg : big.claim.nVars = 0 ∨ big.claim.sums ≠ [])
    (D : Nat) (hD : ∀ I ∈ all, ∀ s ∈ I.claim.sums, s.composition.degree ≤ D)
    (hfalse : ∃ I ∈ all, ¬ I.Holds r) :
    SoundErr (EqCorrectEvals all) (eqIndVerify order sorting (all.map fun I => I.claim) r)
      (r.length * (D + 1) + (all.map fun I => I.claim.sums.length).sum) := by
  unfold eqIndVerify
  rw [ofExcept_bind, reduce_ok r all hwf]
  simp only
  have hf := frontLoaded_err order (all.map fun I => I.regular r)
    (fun I hI => by
      obtain ⟨J, hJ, rfl⟩ := List.mem_map.mp hI
      exact regular_wf r (hwf J hJ))
    (big.regular r) (List.mem_map.mpr ⟨big, hbig, rfl⟩)
    (fun I hI => by
      obtain ⟨J, hJ, rfl⟩ := List.mem_map.mp hI
      show J.claim.nVars ≤ big.claim.nVars
      rw [hr]
      exact hmax J hJ)
    (by
      rcases hdeg with h | h
      · exact Or.inl h
      · exact Or.inr (regular_degree_pos r big h))
    (D + 1)
    (fun I hI => by
      obtain ⟨J, hJ, rfl⟩ := List.mem_map.mp hI
      exact regular_degree r J D (hD J hJ))
    (by
      obtain ⟨I, hI, hn⟩ := hfalse
      exact ⟨_, List.mem_map.mpr ⟨I, hI, rfl⟩, fun h => hn ((regular_holds r (hwf I hI) (hmax I hI)).mp h)⟩)
  have hs : ((all.map fun I => I.regular r).map fun I => I.claim.sums.length).sum
      = (all.map fun I => I.claim.sums.length).sum := by
    rw [List.map_map]
    congr 1
    refine List.map_congr_left fun I _ => ?_
    show (I.claim.sums.map _).length = _
    rw [List.length_map]
  rw [hs, show (big.regular r).claim.nVars = r.length from hr] at hf
  refine (soundErr_bind (ε' := 0) hf (Post.trivial _) fun out _ hng => ?_).mono (by omega)
  cases hv : verifySumcheckOutputs sorting (all.map fun I => I.claim) r (reverseFor order out) with
  | error e => exact .fail
  | ok out' => exact .ret fun hg => hng (front_of_eq order sorting all r hmax ho out out' hv hg)

theorem eqInd_samples (order : EvaluationOrder) (sorting : SortingOrder) (all : List (EqInstance F))
    (r : List F) (hwf : ∀ I ∈ all, I.WellFormed)
    (big : EqInstance F) (hbig : big ∈ all) (hr : big.claim.nVars = r.length)
    (hmax : ∀ I ∈ all, I.claim.nVars ≤ r.length) :
    (eqIndVerify order sorting (all.map fun I => I.claim) r).SamplesLe (all.length + r.length) := by
  unfold eqIndVerify
  rw [ofExcept_bind, reduce_ok r all hwf]
  simp only
  have := frontLoaded_samples (all.map fun I => I.regular r) (big.regular r)
    (List.mem_map.mpr ⟨big, hbig, rfl⟩) (fun I hI => by
      obtain ⟨J, hJ, rfl⟩ := List.mem_map.mp hI
      show J.claim.nVars ≤ big.claim.nVars
      rw [hr]
      exact hmax J hJ)
  rw [List.length_map, show (big.regular r).claim.nVars = r.length from hr] at this
  refine samplesLe_bind (M := 0) this fun out => ?_
  cases verifySumcheckOutputs sorting (all.map fun I => I.claim) r (reverseFor order out) <;> trivial

end Verif.Sumcheck
