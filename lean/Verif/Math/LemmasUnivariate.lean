import Verif.Math.ModelUnivariate
import Verif.Math.PropsMatrix
import Mathlib.LinearAlgebra.Lagrange

set_option linter.unusedSectionVars false

namespace Verif.Univariate

open Verif.Matrix Finset Polynomial

variable {F : Type*} [Field F] [DecidableEq F] {E : Type*} [Field E]

theorem foldl_mul_eq {ι : Type*} (l : List ι) (f : ι → F) (a : F) :
    l.foldl (fun acc j => acc * f j) a = a * (l.map f).prod := by
  induction l generalizing a with
  | nil => simp
  | cons j l ih => rw [List.foldl_cons, ih, List.map_cons, List.prod_cons, mul_assoc]

theorem foldl_add_eq (l : List E) (a : E) : l.foldl (· + ·) a = a + l.sum := by
  induction l generalizing a with
  | nil => simp
  | cons j l ih => rw [List.foldl_cons, ih, List.sum_cons, add_assoc]

theorem diffProduct_eq (points : List F) (i : Fin points.length) :
    diffProduct points i = ∏ j ∈ univ.erase i, (points[i] - points[j]) := by
  unfold diffProduct
  rw [foldl_mul_eq, one_mul]
  rw [Finset.prod_eq_multiset_prod]
  have : (univ.erase i : Finset (Fin points.length)).val =
      ((List.finRange points.length).filter (· ≠ i) : Multiset _) := by
    have : (univ.erase i : Finset (Fin points.length)) = univ.filter (· ≠ i) := by
      ext j; simp
    rw [this]
    rfl
  rw [this, Multiset.map_coe, Multiset.prod_coe]

theorem mapM_except {ι α ε : Type*} (l : List ι) (f : ι → Except ε α) (g : ι → α)
    (h : ∀ i ∈ l, f i = .ok (g i)) : l.mapM f = .ok (l.map g) := by
  induction l with
  | nil => rfl
  | cons i l ih =>
    rw [List.mapM_cons, h i List.mem_cons_self, ih fun j hj => h j (List.mem_cons_of_mem _ hj)]
    rfl

theorem mapM_except_error {ι α ε : Type*} (l : List ι) (f : ι → Except ε α) (e : ε)
    (hf : ∀ i ∈ l, (∃ a, f i = .ok a) ∨ f i = .error e) (h : ∃ i ∈ l, f i = .error e) :
    l.mapM f = .error e := by
  induction l with
  | nil => simp at h
  | cons i l ih =>
    rw [List.mapM_cons]
    rcases hf i List.mem_cons_self with ⟨a, ha⟩ | he
    · rw [ha]
      have : l.mapM f = .error e := ih (fun j hj => hf j (List.mem_cons_of_mem _ hj)) (by
        obtain ⟨j, hj, hje⟩ := h
        rcases List.mem_cons.1 hj with rfl | hj
        · rw [ha] at hje; cases hje
        · exact ⟨j, hj, hje⟩)
      show ((l.mapM f).bind fun x => Except.ok (a :: x)) = _
      rw [this]; rfl
    · rw [he]; rfl

theorem weights_ok (points : List F) (h : points.Nodup) :
    barycentricWeights points =
      .ok ((List.finRange points.length).map fun i => (∏ j ∈ univ.erase i, (points[i] - points[j]))⁻¹) := by
  unfold barycentricWeights
  refine mapM_except _ _ _ fun i _ => ?_
  rw [diffProduct_eq, if_neg]
  rw [Finset.prod_eq_zero_iff]
  rintro ⟨j, hj, h0⟩
  rw [mem_erase] at hj
  rw [sub_eq_zero] at h0
  exact hj.1 (Fin.ext ((h.getElem_inj_iff).1 h0).symm)

theorem weights_error (points : List F) (h : ¬ points.Nodup) :
    barycentricWeights points = .error .duplicateDomainPoint := by
  unfold barycentricWeights
  refine mapM_except_error _ _ _ (fun i _ => ?_) ?_
  · split
    · exact Or.inr rfl
    · exact Or.inl ⟨_, rfl⟩
  · rw [List.nodup_iff_injective_get, Function.Injective] at h
    push Not at h
    obtain ⟨i, j, hij, hne⟩ := h
    refine ⟨i, List.mem_finRange i, ?_⟩
    rw [if_pos]
    rw [diffProduct_eq, Finset.prod_eq_zero_iff]
    refine ⟨j, mem_erase.2 ⟨hne.symm, mem_univ _⟩, ?_⟩
    rw [sub_eq_zero]; exact hij

theorem suffixProducts_eq (emb : F → E) (x : E) (ps : List F) :
    suffixProducts emb x ps = (List.range ps.length).map fun i =>
      ((ps.drop (i + 1)).map fun p => x - emb p).prod := by
  induction ps with
  | nil => rfl
  | cons p ps ih =>
    cases ps with
    | nil => simp [suffixProducts]
    | cons p' ps =>
      rw [suffixProducts, ih]
      simp only [List.length_cons]
      rw [List.range_succ_eq_map (n := ps.length)]
      simp only [List.map_cons, List.drop_succ_cons, List.drop_zero, List.map_map]
      rw [List.range_succ_eq_map (n := ps.length + 1), List.map_cons, List.map_map,
        List.range_succ_eq_map (n := ps.length), List.map_cons, List.map_map]
      simp only [List.drop_zero, List.map_cons, List.prod_cons]
      congr 1
      ring

theorem prefixLoop_getElem? (emb : F → E) (x : E) (pre : E) (rs : List E) (ps ws : List F)
    (h1 : rs.length = ps.length) (h2 : ws.length = ps.length) (i : Nat) :
    (prefixLoop emb x pre rs ps ws)[i]? =
      (rs[i]?).bind fun r => (ws[i]?).map fun w =>
        r * ((pre * ((ps.take i).map fun p => x - emb p).prod) * emb w) := by
  induction rs generalizing pre ps ws i with
  | nil =>
    cases ps <;> simp [prefixLoop]
  | cons r rs ih =>
    cases ps with
    | nil => simp at h1
    | cons p ps =>
      cases ws with
      | nil => simp at h2
      | cons w ws =>
        rw [prefixLoop]
        cases i with
        | zero => simp
        | succ i =>
          simp only [List.getElem?_cons_succ]
          rw [ih _ _ _ (by simpa using h1) (by simpa using h2)]
          simp only [List.take_succ_cons, List.map_cons, List.prod_cons, mul_assoc]

theorem prefixLoop_length (emb : F → E) (x : E) (pre : E) (rs : List E) (ps ws : List F) :
    (prefixLoop emb x pre rs ps ws).length = rs.length := by
  induction rs generalizing pre ps ws with
  | nil => cases ps <;> simp [prefixLoop]
  | cons r rs ih =>
    cases ps with
    | nil => simp [prefixLoop]
    | cons p ps =>
      cases ws with
      | nil => simp [prefixLoop]
      | cons w ws => simp [prefixLoop, ih]

/-- The product over all points but one is prefix product times suffix product. -/
theorem prod_erase_eq (ps : List F) (f : F → E) (i : Fin ps.length) :
    ∏ j ∈ univ.erase i, f ps[j] = ((ps.take i).map f).prod * ((ps.drop (i + 1)).map f).prod := by
  induction ps with
  | nil => exact i.elim0
  | cons p ps ih =>
    refine Fin.cases ?_ (fun i => ?_) i
    · have : ∏ j ∈ (univ : Finset (Fin (ps.length + 1))).erase 0, f (p :: ps)[j] =
          ∏ j : Fin ps.length, f ps[j] := by
        rw [← Finset.compl_singleton, ← Fin.image_succ_univ, Finset.prod_image (by
          intro a _ b _ h; exact Fin.succ_injective _ h)]
        rfl
      refine this.trans ?_
      rw [← List.prod_ofFn]
      have : (List.ofFn fun j : Fin ps.length => f ps[j]) = ps.map f := by
        apply List.ext_getElem <;> simp
      rw [this]
      simp
    · have h1 : ∏ j ∈ (univ : Finset (Fin (ps.length + 1))).erase i.succ, f (p :: ps)[j] =
          f p * ∏ j ∈ univ.erase i, f ps[j] := by
        have : (univ : Finset (Fin (ps.length + 1))).erase i.succ =
            insert 0 ((univ.erase i).image Fin.succ) := by
          ext j
          refine Fin.cases ?_ (fun j => ?_) j
          · simp [Fin.succ_ne_zero, Ne.symm]
          · simp [Fin.succ_ne_zero]
        rw [this, Finset.prod_insert (by simp [Fin.succ_ne_zero]), Finset.prod_image (by
          intro a _ b _ h; exact Fin.succ_injective _ h)]
        rfl
      refine h1.trans ?_
      rw [ih i]
      simp only [Fin.val_succ, List.take_succ_cons, List.drop_succ_cons, List.map_cons, List.prod_cons]
      ring

theorem fromPoints_ok {points : List F} {inf : Bool} (h : points.Nodup) :
    Domain.fromPoints points inf = .ok ⟨points, (List.finRange points.length).map fun i =>
      (∏ j ∈ univ.erase i, (points[i] - points[j]))⁻¹, inf⟩ := by
  unfold Domain.fromPoints
  rw [weights_ok points h]

/-- The entries of `lagrange_evals` are the Lagrange basis polynomials at `x`. -/
theorem lagrangeEvals_eq (emb : F →+* E) (points : List F) (inf : Bool) (x : E) (h : points.Nodup)
    (d : Domain F) (hd : Domain.fromPoints points inf = .ok d) :
    d.lagrangeEvals emb x = List.ofFn fun i : Fin points.length =>
      (Lagrange.basis univ (fun j : Fin points.length => emb points[j]) i).eval x := by
  rw [fromPoints_ok h] at hd
  cases hd
  unfold Domain.lagrangeEvals
  dsimp only
  apply List.ext_getElem?
  intro i
  rw [prefixLoop_getElem? _ _ _ _ _ _ (by rw [suffixProducts_eq]; simp) (by simp)]
  rw [suffixProducts_eq]
  by_cases hi : i < points.length
  · rw [List.getElem?_map, List.getElem?_range hi, List.getElem?_map,
      List.getElem?_eq_getElem (by simpa using hi), List.getElem?_eq_getElem (by simpa using hi)]
    simp only [Option.map_some, Option.bind_some, List.getElem_ofFn, List.getElem_finRange, Fin.cast_mk]
    congr 1
    rw [one_mul]
    unfold Lagrange.basis
    rw [Polynomial.eval_prod]
    simp only [Lagrange.basisDivisor, Polynomial.eval_mul, Polynomial.eval_C, Polynomial.eval_sub,
      Polynomial.eval_X]
    rw [Finset.prod_mul_distrib, prod_erase_eq points (fun p => x - emb p) ⟨i, hi⟩, map_inv₀, map_prod,
      ← Finset.prod_inv_distrib]
    simp only [map_sub]
    ring
  · rw [List.getElem?_eq_none (by simpa using hi)]
    simp [hi]

theorem zipDot_ofFn {n : Nat} (l : Fin n → E) (vs : List E) (h : vs.length = n) :
    zipDot (List.ofFn l) vs = ∑ i : Fin n, vs[i] * l i := by
  unfold zipDot
  rw [foldl_add_eq, zero_add, ← List.sum_ofFn]
  congr 1
  apply List.ext_getElem
  · simp [h]
  · intro i h1 h2
    simp

/-- Interpolation at `x` from the Lagrange basis, for a polynomial of low degree. -/
theorem eval_eq_zipDot (emb : F →+* E) (points : List F) (inf : Bool) (x : E) (h : points.Nodup)
    (d : Domain F) (hd : Domain.fromPoints points inf = .ok d) (p : E[X])
    (hp : p.degree < points.length) :
    zipDot (d.lagrangeEvals emb x) (points.map fun a => p.eval (emb a)) = p.eval x := by
  rw [lagrangeEvals_eq emb points inf x h d hd, zipDot_ofFn _ _ (by simp)]
  have hinj : Set.InjOn (fun j : Fin points.length => emb points[j])
      (univ : Finset (Fin points.length)) := by
    intro a _ b _ hab
    exact Fin.ext ((h.getElem_inj_iff).1 (emb.injective hab))
  have := Lagrange.eq_interpolate_of_eval_eq (s := univ) (v := fun j : Fin points.length => emb points[j])
    (r := fun j => p.eval (emb points[j])) (f := p) hinj (by simpa using hp) (fun i _ => rfl)
  conv_rhs => rw [this]
  rw [Lagrange.interpolate_apply, Polynomial.eval_finsetSum]
  refine sum_congr rfl fun i _ => ?_
  rw [Polynomial.eval_mul, Polynomial.eval_C]
  simp

/-- The values a polynomial takes on a domain: at the finite points, then the coefficient of
`X^(size - 1)` when the domain has the infinity point. -/
def domainValues (emb : F → E) (d : Domain F) (p : E[X]) : List E :=
  d.finitePoints.map (fun a => p.eval (emb a)) ++
    if d.withInfinity then [p.coeff d.finitePoints.length] else []

theorem domainValues_length (emb : F → E) (d : Domain F) (p : E[X]) :
    (domainValues emb d p).length = d.size := by
  unfold domainValues Domain.size
  split <;> simp

theorem fromPoints_inv {points : List F} {inf : Bool} {d : Domain F}
    (hd : Domain.fromPoints points inf = .ok d) :
    points.Nodup ∧ d.finitePoints = points ∧ d.withInfinity = inf := by
  by_cases h : points.Nodup
  · rw [fromPoints_ok h] at hd
    cases hd
    exact ⟨h, rfl, rfl⟩
  · unfold Domain.fromPoints at hd
    rw [weights_error points h] at hd
    cases hd

theorem extrapolate_eq (emb : F →+* E) (points : List F) (inf : Bool) (d : Domain F)
    (hd : Domain.fromPoints points inf = .ok d) (p : E[X]) (hp : p.degree < d.size) (x : E) :
    d.extrapolate emb (domainValues emb d p) x = .ok (p.eval x) := by
  obtain ⟨hnd, h1, h2⟩ := fromPoints_inv hd
  unfold Domain.extrapolate
  rw [if_neg (by rw [not_not]; exact domainValues_length _ _ _)]
  by_cases hinf : d.withInfinity
  · rw [if_pos hinf]
    have hv : domainValues emb d p =
        points.map (fun a => p.eval (emb a)) ++ [p.coeff points.length] := by
      unfold domainValues; rw [if_pos hinf, h1]
    rw [hv, List.dropLast_concat, List.getLastD_concat, h1]
    dsimp only
    rw [List.length_map]
    set c := p.coeff points.length with hc
    set q := p - C c * X ^ points.length with hq
    have hqd : q.degree < points.length := by
      rw [Polynomial.degree_lt_iff_coeff_zero]
      intro m hm
      rw [hq, coeff_sub, coeff_C_mul, coeff_X_pow]
      by_cases hmn : m = points.length
      · rw [if_pos hmn, hmn, mul_one, ← hc, sub_self]
      · rw [if_neg hmn, mul_zero, sub_zero]
        refine Polynomial.coeff_eq_zero_of_degree_lt (lt_of_lt_of_le hp ?_)
        have : d.size ≤ m := by
          unfold Domain.size; rw [h1, if_pos hinf]; omega
        exact_mod_cast this
    have hz : List.zipWith (fun p v => v - c * emb p ^ points.length) points
        (points.map fun a => p.eval (emb a)) = points.map fun a => q.eval (emb a) := by
      rw [List.zipWith_map_right, List.zipWith_self]
      refine List.map_congr_left fun a _ => ?_
      rw [hq]; simp
    rw [hz, eval_eq_zipDot emb points inf x hnd d hd q hqd, hq]
    simp
  · rw [if_neg hinf]
    have hv : domainValues emb d p = points.map (fun a => p.eval (emb a)) := by
      unfold domainValues; rw [if_neg hinf, h1, List.append_nil]
    rw [hv, add_zero, eval_eq_zipDot emb points inf x hnd d hd p (by
      have : d.size = points.length := by unfold Domain.size; rw [h1, if_neg hinf, Nat.add_zero]
      rwa [this] at hp)]

/-- A polynomial of degree below the size of the domain vanishing on the domain is zero. -/
theorem eq_zero_of_values (emb : F →+* E) (points : List F) (inf : Bool) (d : Domain F)
    (hd : Domain.fromPoints points inf = .ok d) (p : E[X]) (hp : p.degree < d.size)
    (h : ∀ v ∈ domainValues emb d p, v = 0) : p = 0 := by
  obtain ⟨hnd, h1, h2⟩ := fromPoints_inv hd
  have hdeg : p.degree < points.length := by
    by_cases hinf : d.withInfinity
    · rw [Polynomial.degree_lt_iff_coeff_zero]
      intro m hm
      by_cases hmn : m = points.length
      · rw [hmn]
        refine h _ ?_
        unfold domainValues
        rw [if_pos hinf, h1]
        simp
      · refine Polynomial.coeff_eq_zero_of_degree_lt (lt_of_lt_of_le hp ?_)
        have : d.size ≤ m := by unfold Domain.size; rw [h1, if_pos hinf]; omega
        exact_mod_cast this
    · have : d.size = points.length := by unfold Domain.size; rw [h1, if_neg hinf, Nat.add_zero]
      rwa [this] at hp
  classical
  refine Polynomial.eq_zero_of_degree_lt_of_eval_finset_eq_zero (s := (points.map emb).toFinset) ?_ ?_
  · rw [List.toFinset_card_of_nodup (hnd.map emb.injective), List.length_map]
    exact hdeg
  · intro x hx
    rw [List.mem_toFinset, List.mem_map] at hx
    obtain ⟨a, ha, rfl⟩ := hx
    refine h _ ?_
    unfold domainValues
    rw [h1]
    exact List.mem_append_left _ (List.mem_map.2 ⟨a, ha, rfl⟩)

end Verif.Univariate
