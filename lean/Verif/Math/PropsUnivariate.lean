import Verif.Math.LemmasUnivariate

/-! C19: univariate interpolation and extrapolation. -/

set_option linter.unusedSectionVars false

namespace Verif.Univariate

open Verif.Matrix Finset Polynomial

variable {F : Type*} [Field F] [DecidableEq F] {E : Type*} [Field E]

/-- C19 (domains).  A domain is created exactly for distinct points; duplicates are reported. -/
theorem C19_from_points (points : List F) (inf : Bool) :
    (points.Nodup → ∃ d, Domain.fromPoints points inf = .ok d ∧ d.finitePoints = points ∧
      d.withInfinity = inf) ∧
    (¬ points.Nodup → Domain.fromPoints points inf = .error .duplicateDomainPoint) := by
  constructor
  · intro h
    rw [fromPoints_ok h]
    exact ⟨_, rfl, rfl, rfl⟩
  · intro h
    unfold Domain.fromPoints
    rw [weights_error points h]

/-- C19 (extrapolation).  For every polynomial of degree below the size of the domain, `extrapolate` on
its values returns its value at `x`.  The values are those at the finite points followed, when the domain
has the infinity point, by the coefficient of highest degree. -/
theorem C19_extrapolate (emb : F →+* E) (points : List F) (inf : Bool) (d : Domain F)
    (hd : Domain.fromPoints points inf = .ok d) (p : E[X])
    (hp : p.degree < (points.length + if inf then 1 else 0 : Nat)) (x : E) :
    d.extrapolate emb (points.map (fun a => p.eval (emb a)) ++ if inf then [p.coeff points.length] else []) x
      = .ok (p.eval x) := by
  obtain ⟨-, h1, h2⟩ := fromPoints_inv hd
  have hs : d.size = points.length + if inf then 1 else 0 := by unfold Domain.size; rw [h1, h2]
  have := extrapolate_eq emb points inf d hd p (by rw [hs]; exact hp) x
  unfold domainValues at this
  rw [h1, h2] at this
  exact this

/-- The list of coefficients `0 .. n-1`. -/
def coeffs (n : Nat) (p : E[X]) : List E := (List.range n).map p.coeff

theorem polyOf_coeff (n : Nat) (v : Nat → F) (m : Nat) :
    (∑ j ∈ range n, C (v j) * X ^ j : F[X]).coeff m = if m < n then v m else 0 := by
  simp only [finsetSum_coeff, coeff_C_mul, coeff_X_pow, mul_ite, mul_one, mul_zero]
  rw [sum_ite_eq (range n)]
  simp

theorem polyOf_degree (n : Nat) (v : Nat → F) :
    (∑ j ∈ range n, C (v j) * X ^ j : F[X]).degree < n := by
  rw [degree_lt_iff_coeff_zero]
  intro m hm
  rw [polyOf_coeff, if_neg (by omega)]

theorem eval_eq_range (n : Nat) (p : E[X]) (hp : p.degree < n) (x : E) :
    p.eval x = ∑ j ∈ range n, p.coeff j * x ^ j := by
  rcases eq_or_ne p 0 with rfl | h0
  · simp
  · rw [Polynomial.eval_eq_sum_range' (by
      have := (Polynomial.natDegree_lt_iff_degree_lt h0).2 hp
      exact this)]

theorem domainValues_finite (emb : F → E) (d : Domain F) (p : E[X]) (i : Nat) (h : i < d.finitePoints.length) :
    (domainValues emb d p)[i]? = some (p.eval (emb d.finitePoints[i])) := by
  unfold domainValues
  rw [List.getElem?_append_left (by simpa using h), List.getElem?_map, List.getElem?_eq_getElem h]
  rfl

theorem domainValues_inf (emb : F → E) (d : Domain F) (p : E[X]) (h : d.withInfinity = true) :
    (domainValues emb d p)[d.finitePoints.length]? = some (p.coeff d.finitePoints.length) := by
  unfold domainValues
  rw [List.getElem?_append_right (by simp), if_pos h]
  simp

/-- The rows of the Vandermonde matrix applied to the coefficients are the domain values. -/
theorem vandermonde_mul (emb : F →+* E) (d : Domain F) (p : E[X]) (hp : p.degree < d.size) (i : Nat)
    (hi : i < d.size) :
    ∑ j ∈ range d.size, emb ((vandermonde d.finitePoints d.withInfinity).at' i j) * p.coeff j =
      (domainValues emb d p)[i]'(by rw [domainValues_length]; exact hi) := by
  by_cases h : i < d.finitePoints.length
  · have e : (domainValues emb d p)[i]'(by rw [domainValues_length]; exact hi) =
        p.eval (emb d.finitePoints[i]) := by
      unfold domainValues
      rw [List.getElem_append_left (by simpa using h), List.getElem_map]
    rw [e, eval_eq_range d.size p hp]
    refine sum_congr rfl fun j _ => ?_
    simp only [vandermonde, List.getElem?_eq_getElem h, map_pow]
    ring
  · have hinf : d.withInfinity = true := by
      by_contra hn
      unfold Domain.size at hi
      rw [if_neg hn] at hi
      omega
    have hs : d.size = d.finitePoints.length + 1 := by unfold Domain.size; rw [if_pos hinf]
    have hi' : i = d.finitePoints.length := by omega
    have e : (domainValues emb d p)[i]'(by rw [domainValues_length]; exact hi) =
        p.coeff d.finitePoints.length := by
      unfold domainValues
      rw [List.getElem_append_right (by simpa using h)]
      simp [hinf]
    rw [e, hs, sum_range_succ, sum_eq_zero]
    · simp only [vandermonde, hinf, hi']
      simp
    · intro j hj
      rw [mem_range] at hj
      simp only [vandermonde, hinf, hi']
      simp [hj.ne]

/-- The interpolation matrix exists and inverts the Vandermonde matrix. -/
theorem from_ok (points : List F) (inf : Bool) (d : Domain F) (hd : Domain.fromPoints points inf = .ok d) :
    ∃ m, IDomain.from d = some ⟨d, m⟩ ∧ m.m = d.size ∧ m.n = d.size ∧
      ∀ r < d.size, ∀ c < d.size, ∑ k ∈ range d.size, m.at' r k *
        (vandermonde d.finitePoints d.withInfinity).at' k c = if r = c then 1 else 0 := by
  have hvm : (vandermonde d.finitePoints d.withInfinity).m = d.size := rfl
  have hvn : (vandermonde d.finitePoints d.withInfinity).n = d.size := rfl
  have hdims : ∀ b, (vandermonde d.finitePoints d.withInfinity).inverseInto (Mat.zeros d.size d.size)
      = some (.ok b) → b.m = d.size ∧ b.n = d.size := by
    intro b hb
    unfold Mat.inverseInto at hb
    rw [if_neg (by simp [hvm, hvn, Mat.zeros]), if_neg (by simp [hvm, hvn])] at hb
    have key : ∀ (k : Nat) (s s' : Mat F × Mat F), elimLoop d.size k s = .ok s' →
        s'.2.m = s.2.m ∧ s'.2.n = s.2.n := by
      intro k
      induction k with
      | zero => intro s s' h; cases h; exact ⟨rfl, rfl⟩
      | succ k ih =>
        intro s s' h
        rw [elimLoop] at h
        cases h1 : elimLoop d.size k s with
        | error e => rw [h1] at h; cases h
        | ok s1 =>
          rw [h1] at h
          dsimp only at h
          obtain ⟨i1, i2⟩ := ih s s1 h1
          rw [← i1, ← i2]
          unfold elimStep at h
          cases hp : findPivot d.size k s1.1 with
          | none => rw [hp] at h; cases h
          | some p =>
            rw [hp] at h
            dsimp only at h
            have hf : ∀ (l : List Nat) (s : Mat F × Mat F),
                (l.foldl (clearRow k) s).2.m = s.2.m ∧ (l.foldl (clearRow k) s).2.n = s.2.n := by
              intro l
              induction l with
              | nil => intro s; exact ⟨rfl, rfl⟩
              | cons j l ih => intro s; rw [List.foldl_cons]; exact ih (clearRow k s j)
            cases h
            obtain ⟨f1, f2⟩ := hf (List.range k ++ List.range' (k + 1) (d.size - (k + 1))) _
            rw [f1, f2]
            split <;> exact ⟨rfl, rfl⟩
    cases hl : elimLoop d.size d.size (vandermonde d.finitePoints d.withInfinity, Mat.identity d.size) with
    | error e => rw [hvn, hl] at hb; cases hb
    | ok s =>
      rw [hvn, hl] at hb
      cases hb
      exact key _ _ _ hl
  rcases inverseInto_cases (vandermonde d.finitePoints d.withInfinity) (Mat.zeros d.size d.size) rfl rfl rfl
    with ⟨m, h1, h2⟩ | ⟨h1, v, ⟨i, hi, hvi⟩, h3⟩
  · refine ⟨m, ?_, (hdims m h1).1, (hdims m h1).2, fun r hr c hc => ?_⟩
    · unfold IDomain.from
      rw [h1]
    · have h2' : toMatrix d.size m.at' *
          toMatrix d.size (vandermonde d.finitePoints d.withInfinity).at' = 1 := h2
      have := congrFun (congrFun h2' ⟨r, hr⟩) ⟨c, hc⟩
      rw [Matrix.mul_apply, Matrix.one_apply] at this
      simp only [toMatrix, Matrix.of_apply] at this
      rw [Finset.sum_range]
      refine this.trans ?_
      by_cases hrc : r = c
      · subst hrc; rw [if_pos rfl, if_pos rfl]
      · rw [if_neg hrc, if_neg (fun h => hrc (Fin.mk.inj h))]
  · exfalso
    rw [hvn] at hi h3
    have hz : (∑ j ∈ range d.size, C (v j) * X ^ j : F[X]) = 0 := by
      refine eq_zero_of_values (RingHom.id F) points inf d hd _ (polyOf_degree _ _) fun w hw => ?_
      obtain ⟨r, hr, rfl⟩ := List.mem_iff_getElem.1 hw
      rw [domainValues_length] at hr
      rw [← vandermonde_mul (RingHom.id F) d _ (polyOf_degree _ _) r hr, ← h3 r hr]
      refine sum_congr rfl fun j hj => ?_
      rw [polyOf_coeff, if_pos (mem_range.1 hj)]
      rfl
    have := congrArg (fun p => p.coeff i) hz
    simp only [polyOf_coeff, coeff_zero] at this
    rw [if_pos hi] at this
    exact hvi this

/-- C19 (interpolation).  The interpolation domain of every evaluation domain can be built (no panic),
and `interpolate` on the values of a polynomial of degree below the size returns its coefficients. -/
theorem C19_interpolate (emb : F →+* E) (points : List F) (inf : Bool) (d : Domain F)
    (hd : Domain.fromPoints points inf = .ok d) :
    ∃ i, IDomain.from d = some i ∧ ∀ p : E[X],
      p.degree < (points.length + if inf then 1 else 0 : Nat) →
      i.interpolate emb
          (points.map (fun a => p.eval (emb a)) ++ if inf then [p.coeff points.length] else [])
        = some (.ok (coeffs (points.length + if inf then 1 else 0) p)) := by
  obtain ⟨m, h1, hmm, hmn, h2⟩ := from_ok points inf d hd
  refine ⟨⟨d, m⟩, h1, fun p hp => ?_⟩
  obtain ⟨-, g1, g2⟩ := fromPoints_inv hd
  have hs : d.size = points.length + if inf then 1 else 0 := by unfold Domain.size; rw [g1, g2]
  rw [← hs] at hp ⊢
  have hv : points.map (fun a => p.eval (emb a)) ++ (if inf then [p.coeff points.length] else []) =
      domainValues emb d p := by unfold domainValues; rw [g1, g2]
  rw [hv]
  unfold IDomain.interpolate
  rw [if_neg (by rw [not_not]; exact domainValues_length _ _ _)]
  unfold Mat.mulVecInto
  rw [if_pos ⟨hmn.trans (domainValues_length emb d p).symm, hmm.trans (domainValues_length emb d p).symm⟩]
  refine congrArg some (congrArg Except.ok ?_)
  unfold coeffs
  refine List.ext_getElem (by simp [domainValues_length]) fun r hr1 hr => ?_
  rw [List.length_map, List.length_range] at hr
  rw [List.getElem_map, List.getElem_map, List.getElem_range, List.getElem_range]
  have e1 : ∑ j : Fin (domainValues emb d p).length, (domainValues emb d p)[j] * emb (m.at' r j) =
      ∑ j : Fin d.size, (∑ c ∈ range d.size,
        emb ((vandermonde d.finitePoints d.withInfinity).at' j c) * p.coeff c) * emb (m.at' r j) := by
    refine Fintype.sum_equiv (finCongr (domainValues_length emb d p)) _ _ fun j => ?_
    rw [show ((finCongr (domainValues_length emb d p)) j : Nat) = j from rfl,
      vandermonde_mul emb d p hp j (j.2.trans_eq (domainValues_length emb d p))]
    rfl
  rw [e1, ← Finset.sum_range (fun j => (∑ c ∈ range d.size,
        emb ((vandermonde d.finitePoints d.withInfinity).at' j c) * p.coeff c) * emb (m.at' r j))]
  simp only [sum_mul]
  rw [sum_comm]
  have e2 : ∀ c ∈ range d.size, ∑ j ∈ range d.size,
      emb ((vandermonde d.finitePoints d.withInfinity).at' j c) * p.coeff c * emb (m.at' r j) =
      (if r = c then 1 else 0) * p.coeff c := by
    intro c hc
    have := congrArg emb (h2 r hr c (mem_range.1 hc))
    rw [map_sum] at this
    have h3 : (emb (if r = c then 1 else 0)) = if r = c then 1 else 0 := by split <;> simp
    rw [h3] at this
    rw [← this, sum_mul]
    refine sum_congr rfl fun j _ => ?_
    rw [map_mul]; ring
  rw [sum_congr rfl e2]
  simp only [ite_mul, one_mul, zero_mul]
  rw [sum_ite_eq (range d.size), if_pos (mem_range.2 hr)]

/-- C19 (unique interpolation).  Every list of values of the right length belongs to exactly one polynomial
of degree below the size, so `C19_extrapolate` and `C19_interpolate` apply to every input. -/
theorem C19_unique (emb : F →+* E) (points : List F) (inf : Bool) (hnd : points.Nodup) (values : List E)
    (hv : values.length = points.length + if inf then 1 else 0) :
    ∃! p : E[X], p.degree < (points.length + if inf then 1 else 0 : Nat) ∧
      points.map (fun a => p.eval (emb a)) ++ (if inf then [p.coeff points.length] else []) = values := by
  obtain ⟨d, hd, g1, g2⟩ := (C19_from_points points inf).1 hnd
  have hs : d.size = points.length + if inf then 1 else 0 := by unfold Domain.size; rw [g1, g2]
  have hdv : ∀ p : E[X], points.map (fun a => p.eval (emb a)) ++ (if inf then [p.coeff points.length] else []) =
      domainValues emb d p := fun p => by unfold domainValues; rw [g1, g2]
  have huniq : ∀ p q : E[X], p.degree < d.size → q.degree < d.size →
      domainValues emb d p = domainValues emb d q → p = q := by
    intro p q hp hq h
    refine sub_eq_zero.1 (eq_zero_of_values emb points inf d hd (p - q)
      (lt_of_le_of_lt (degree_sub_le p q) (max_lt hp hq)) fun v hv => ?_)
    unfold domainValues at hv h
    rw [List.mem_append, List.mem_map] at hv
    have hlen : (d.finitePoints.map fun a => p.eval (emb a)).length =
        (d.finitePoints.map fun a => q.eval (emb a)).length := by simp
    obtain ⟨ha, hb⟩ := List.append_inj h hlen
    rcases hv with ⟨a, ham, rfl⟩ | hv
    · rw [eval_sub, (List.map_inj_left.1 ha) a ham, sub_self]
    · by_cases hinf : d.withInfinity
      · rw [if_pos hinf, List.mem_singleton] at hv
        rw [if_pos hinf, if_pos hinf, List.cons.injEq] at hb
        rw [hv, coeff_sub, hb.1, sub_self]
      · rw [if_neg hinf] at hv
        cases hv
  simp only [hdv]
  rw [← hs] at hv ⊢
  -- existence: subtract the leading term, then Lagrange
  have hex : ∃ p : E[X], p.degree < d.size ∧ domainValues emb d p = values := by
    have hinj : Set.InjOn (fun j : Fin points.length => emb points[j])
        (univ : Finset (Fin points.length)) := by
      intro a _ b _ hab
      exact Fin.ext ((hnd.getElem_inj_iff).1 (emb.injective hab))
    set c : E := if inf then values.getD points.length 0 else 0 with hc
    set r : Fin points.length → E := fun i => values.getD i 0 - c * (emb points[i]) ^ points.length with hr
    set q := Lagrange.interpolate univ (fun j : Fin points.length => emb points[j]) r with hq
    have hqd : q.degree < points.length := by
      have := Lagrange.degree_interpolate_lt (r := r) hinj
      rw [Finset.card_univ, Fintype.card_fin] at this
      exact this
    have hqe : ∀ i : Fin points.length, q.eval (emb points[i]) = r i := fun i =>
      Lagrange.eval_interpolate_at_node r hinj (mem_univ i)
    refine ⟨q + C c * X ^ points.length, ?_, ?_⟩
    · by_cases hinf : inf
      · rw [hs, if_pos hinf, degree_lt_iff_coeff_zero]
        intro m hm
        rw [coeff_add, coeff_C_mul, coeff_X_pow, if_neg (by omega), mul_zero, add_zero]
        refine coeff_eq_zero_of_degree_lt (lt_of_lt_of_le hqd ?_)
        have : points.length ≤ m := by omega
        exact_mod_cast this
      · rw [hs, if_neg hinf, hc, if_neg hinf, C_0, zero_mul, add_zero]
        exact hqd
    · have hqc : q.coeff points.length = 0 := coeff_eq_zero_of_degree_lt hqd
      refine List.ext_getElem? fun i => ?_
      by_cases hi : i < points.length
      · have hiv : i < values.length := by rw [hv, hs]; omega
        rw [domainValues_finite _ _ _ i (by rw [g1]; exact hi), List.getElem?_eq_getElem hiv]
        have : d.finitePoints[i]'(by rw [g1]; exact hi) = points[i] := by simp [g1]
        rw [this, eval_add]
        have e := hqe ⟨i, hi⟩
        simp only [Fin.getElem_fin] at e
        rw [e]
        simp only [hr, eval_mul, eval_C, eval_pow, eval_X]
        simp [hiv]
      · by_cases hinf : inf = true ∧ i = points.length
        · obtain ⟨hinf, hi'⟩ := hinf
          have hiv : i < values.length := by rw [hv, hs, if_pos hinf]; omega
          have := domainValues_inf emb d (q + C c * X ^ points.length) (by rw [g2]; exact hinf)
          rw [g1] at this
          rw [hi', this, coeff_add, coeff_C_mul, coeff_X_pow, hqc, if_pos rfl, mul_one, zero_add, hc,
            if_pos hinf, ← hi', List.getElem?_eq_getElem hiv]
          simp [hiv]
        · have hge : d.size ≤ i := by
            rw [hs]
            by_cases h : inf = true
            · rw [if_pos h]
              rw [not_and] at hinf
              have := hinf h
              omega
            · rw [if_neg h]; omega
          rw [List.getElem?_eq_none (by rw [domainValues_length]; exact hge),
            List.getElem?_eq_none (by rw [hv]; exact hge)]
  obtain ⟨p, hp1, hp2⟩ := hex
  exact ⟨p, ⟨hp1, hp2⟩, fun q hq => huniq q p hq.1 hp1 (hq.2.trans hp2.symm)⟩

/-- C19 (wrong number of values).  Both operations refuse value lists of another length. -/
theorem C19_refuses (emb : F →+* E) (d : Domain F) (i : IDomain F) (values : List E) (x : E)
    (h : values.length ≠ d.size) (hi : i.domain = d) :
    d.extrapolate emb values x = .error .extrapolateNumberOfEvaluations ∧
    i.interpolate emb values = some (.error .extrapolateNumberOfEvaluations) := by
  subst hi
  exact ⟨if_pos h, if_pos h⟩

/-- C19 (Horner).  `evaluate_univariate` is the value of the polynomial with the given coefficients. -/
theorem C19_evaluate_univariate (cs : List F) (x : F) :
    evaluateUnivariate cs x = ∑ i : Fin cs.length, cs[i] * x ^ (i : Nat) := by
  induction cs with
  | nil => rfl
  | cons c cs ih =>
    have h : evaluateUnivariate (c :: cs) x = evaluateUnivariate cs x * x + c := rfl
    rw [h, ih]
    refine Eq.trans ?_ (Fin.sum_univ_succ (fun i : Fin (cs.length + 1) => (c :: cs)[i] * x ^ (i : Nat))).symm
    rw [sum_mul, add_comm]
    simp only [Fin.val_zero, pow_zero, mul_one, Fin.val_succ]
    congr 1
    refine sum_congr rfl fun i _ => ?_
    rw [pow_succ, ← mul_assoc]
    rfl

/-- C19 (lines).  `extrapolate_line` is the value at `z` of the line through `(0, x0)` and `(1, x1)`. -/
theorem C19_extrapolate_line (emb : F →+* E) (x0 x1 : E) (z : F) (p : E[X]) (hp : p.degree < 2)
    (h0 : p.eval 0 = x0) (h1 : p.eval 1 = x1) : extrapolateLine emb x0 x1 z = p.eval (emb z) := by
  rw [eval_eq_range 2 p (by exact_mod_cast hp)] at h0 h1 ⊢
  simp [sum_range_succ] at h0 h1 ⊢
  unfold extrapolateLine
  rw [← h0, ← h1]
  ring

/-- The polynomial `X^2 + 3` on the points `0, 1` and infinity. -/
example : ∃ d, Domain.fromPoints [(0 : ℚ), 1] true = .ok d ∧
    d.extrapolate (RingHom.id ℚ) [3, 4, 1] 5 = .ok 28 := by
  obtain ⟨d, hd, -, -⟩ := (C19_from_points [(0 : ℚ), 1] true).1 (by simp)
  refine ⟨d, hd, ?_⟩
  have hdeg : (X ^ 2 + C 3 : ℚ[X]).degree < (([(0 : ℚ), 1].length + if true then 1 else 0 : Nat) : WithBot ℕ) := by
    have : (X ^ 2 + C 3 : ℚ[X]).degree = 2 := by compute_degree!
    rw [this]; norm_num
  have := C19_extrapolate (RingHom.id ℚ) [0, 1] true d hd (X ^ 2 + C 3) hdeg 5
  simp at this
  norm_num at this
  exact this

example : ∃ d i, Domain.fromPoints [(0 : ℚ), 1] true = .ok d ∧ IDomain.from d = some i ∧
    i.interpolate (RingHom.id ℚ) [3, 4, 1] = some (.ok [3, 0, 1]) := by
  obtain ⟨d, hd, -, -⟩ := (C19_from_points [(0 : ℚ), 1] true).1 (by simp)
  obtain ⟨i, hi, h⟩ := C19_interpolate (RingHom.id ℚ) [0, 1] true d hd
  refine ⟨d, i, hd, hi, ?_⟩
  have hdeg : (X ^ 2 + C 3 : ℚ[X]).degree < (([(0 : ℚ), 1].length + if true then 1 else 0 : Nat) : WithBot ℕ) := by
    have : (X ^ 2 + C 3 : ℚ[X]).degree = 2 := by compute_degree!
    rw [this]; norm_num
  have := h (X ^ 2 + C 3) hdeg
  simp [coeff_C, coeffs, List.range_succ, coeff_X_pow] at this
  norm_num at this
  exact this

end Verif.Univariate
