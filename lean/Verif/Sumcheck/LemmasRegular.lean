import Verif.Sumcheck.SpecProverState
import Verif.Sumcheck.LemmasProverFold
import Verif.Sumcheck.LemmasComplete
import Verif.Sumcheck.PropsSumcheck

/-! Lemmas for C66: the rounds of the regular sumcheck prover. -/

set_option linter.unusedSectionVars false

namespace Verif.Sumcheck

open Verif.Mle Verif.Univariate Verif.Tensor Verif.Fold Finset

variable {F D : Type} [Field F] [DecidableEq F] [Field D] [DecidableEq D]

/-! ## Sums over the current tables -/

/-- The sum of the polynomial over the tables after the challenges `rs`. -/
noncomputable def curSum (order : EvaluationOrder) (N n : Nat) (rs : List F) (tables : List (Nat → F)) (p : MvPolynomial ℕ F) : F :=
  ∑ x ∈ range (2 ^ n), evalAt p (tables.map fun t => cur order N t rs x)

theorem half_sum (order : EvaluationOrder) (n : Nat) (f : Nat → F) :
    ∑ x ∈ range (2 ^ n), f (half order n 0 x) + ∑ x ∈ range (2 ^ n), f (half order n 1 x) = ∑ x ∈ range (2 ^ (n + 1)), f x := by
  cases order with
  | lowToHigh =>
    rw [pow_succ, Nat.mul_comm, sum_range_mul, ← Finset.sum_add_distrib]
    refine Finset.sum_congr rfl fun x _ => ?_
    rw [Finset.sum_range_succ, Finset.sum_range_one]
    unfold half
    dsimp only
    congr 2 <;> ring
  | highToLow =>
    rw [pow_succ, Nat.mul_two, Finset.sum_range_add]
    unfold half
    dsimp only
    congr 1
    refine Finset.sum_congr rfl fun x _ => ?_
    congr 1
    ring

theorem curSum_split (order : EvaluationOrder) (N n : Nat) (rs : List F) (tables : List (Nat → F)) (p : MvPolynomial ℕ F)
    (hn : N = n + 1 + rs.length) : curSum order N n (rs ++ [0]) tables p + curSum order N n (rs ++ [1]) tables p =
      curSum order N (n + 1) rs tables p := by
  unfold curSum
  rw [← half_sum order n]
  congr 1
  · refine Finset.sum_congr rfl fun x _ => ?_
    congr 1
    refine List.map_congr_left fun t _ => ?_
    rw [cur_snoc order N n t rs hn]
    ring
  · refine Finset.sum_congr rfl fun x _ => ?_
    congr 1
    refine List.map_congr_left fun t _ => ?_
    rw [cur_snoc order N n t rs hn]
    ring

theorem curSum_cube (order : EvaluationOrder) (N n : Nat) (rs : List F) (tables : List (Nat → F)) (p : MvPolynomial ℕ F)
    (hn : N = n + rs.length) : curSum order N n rs tables p =
      cube n fun v => evalAt p (tables.map fun t => mle t (arrange order (rs ++ v))) := by
  cases order with
  | lowToHigh =>
    unfold curSum cube
    refine Finset.sum_congr rfl fun x hx => ?_
    congr 1
    refine List.map_congr_left fun t _ => ?_
    unfold cur arrange
    dsimp only
    rw [mle_append, mle_vertex _ _ _ (Finset.mem_range.1 hx)]
  | highToLow =>
    have hrev := cube_reverse n fun v => evalAt p (tables.map fun t => mle t (v ++ rs.reverse))
    simp only [arrange, List.reverse_append]
    rw [hrev]
    unfold curSum cube
    refine Finset.sum_congr rfl fun x hx => ?_
    congr 1
    refine List.map_congr_left fun t _ => ?_
    unfold cur
    dsimp only
    rw [mle_append, show N - rs.length = n by omega, vertex_length]
    refine mle_congr fun i _ => ?_
    rw [mle_vertex _ _ _ (Finset.mem_range.1 hx)]

/-! ## The domains -/

/-- An interpolation domain for degree `d` whose points are `pts 0, pts 1, …`, the last one being the point at infinity. -/
structure GoodDomain (emb : D → F) (pts : Nat → D) (d : Nat) (i : IDomain D) : Prop where
  points : i.domain.finitePoints = (List.range (if 2 ≤ d then d else d + 1)).map pts
  inf : i.domain.withInfinity = decide (2 ≤ d)
  interpolate : ∀ p : Polynomial F, p.natDegree ≤ d → i.interpolate emb
    (((List.range (if 2 ≤ d then d else d + 1)).map fun k => p.eval (emb (pts k))) ++ if 2 ≤ d then [p.coeff d] else []) =
      some (.ok (coeffs (d + 1) p))

theorem GoodDomain.size {emb : D → F} {pts : Nat → D} {d : Nat} {i : IDomain D} (h : GoodDomain emb pts d i) :
    i.domain.size = d + 1 := by
  unfold Domain.size
  rw [h.points, h.inf, List.length_map, List.length_range]
  by_cases hd : 2 ≤ d <;> simp [hd]

theorem create_good {K : Type} [Field K] (h2 : ∀ a : K, a + a = 0) (ι : K →+ D) (hι : Function.Injective ι)
    (s : Subspace.BinarySubspace K) (hl : s.basis.length ≤ 64) (hind : Subspace.Independent s.basis) (emb : D →+* F) (d : Nat)
    (hd : (if 2 ≤ d then d else d + 1) ≤ 2 ^ s.basis.length) :
    ∃ dom i, Subspace.createDomain ι s (d + 1) = .ok dom ∧ IDomain.from dom = some i ∧
      GoodDomain emb (fun k => ι (s.get k)) d i := by
  have h3 : (3 ≤ d + 1) = (2 ≤ d) := by
    simp only [eq_iff_iff]; omega
  have hm : (if 3 ≤ d + 1 then d + 1 - 1 else d + 1) = if 2 ≤ d then d else d + 1 := by
    simp only [h3, Nat.add_sub_cancel]
  have := (Subspace.C23_create_domain h2 ι hι s hl hind (d + 1)).1
  rw [hm] at this
  obtain ⟨dom, h1, h4, h5, h6⟩ := this hd
  have hfrom : Domain.fromPoints dom.finitePoints dom.withInfinity = .ok dom := by
    have h1' := h1
    unfold Subspace.createDomain at h1'
    dsimp only at h1'
    split at h1'
    · cases h1'
    · obtain ⟨-, e1, e2⟩ := fromPoints_inv h1'
      rw [e1, e2]
      exact h1'
  obtain ⟨i, hi, hint⟩ := C19_interpolate emb _ _ _ hfrom
  have hdom : i.domain = dom := by
    unfold IDomain.from at hi
    split at hi
    · cases hi; rfl
    · cases hi
  refine ⟨dom, i, h1, hi, ⟨by rw [hdom, h5], by rw [hdom, h6]; simp only [h3], fun p hp => ?_⟩⟩
  have hlen : dom.finitePoints.length = if 2 ≤ d then d else d + 1 := by rw [h5, List.length_map, List.length_range]
  have hinf : (dom.withInfinity = true) = (2 ≤ d) := by rw [h6, decide_eq_true_eq, h3]
  have hsz : (dom.finitePoints.length + if dom.withInfinity = true then 1 else 0) = d + 1 := by
    rw [hlen]
    simp only [hinf]
    by_cases hd : 2 ≤ d <;> simp [hd]
  have := hint p (by
    rw [hsz]
    exact lt_of_le_of_lt (Polynomial.degree_le_of_natDegree_le hp) (by exact_mod_cast Nat.lt_succ_self d))
  rw [hsz] at this
  rw [← this]
  congr 1
  simp only [hinf, hlen]
  rw [h5, List.map_map]
  by_cases hd : 2 ≤ d
  · simp only [hd, if_true]
    rfl
  · simp only [hd, if_false]
    rfl

theorem largestDomain_spec (ds : List (IDomain D)) :
    (largestDomain ds = none ↔ ds = []) ∧ ∀ l, largestDomain ds = some l → l ∈ ds ∧ ∀ e ∈ ds, e.domain.size ≤ l.domain.size := by
  induction ds with
  | nil => exact ⟨by simp [largestDomain], fun l h => by simp [largestDomain] at h⟩
  | cons d ds ih =>
    obtain ⟨ih1, ih2⟩ := ih
    unfold largestDomain
    cases hl : largestDomain ds with
    | none =>
      rw [hl] at ih1
      have : ds = [] := ih1.1 rfl
      subst this
      exact ⟨by simp, fun l h => by cases h; simp⟩
    | some e =>
      obtain ⟨h1, h2⟩ := ih2 e hl
      dsimp only
      refine ⟨by split <;> simp, fun l h => ?_⟩
      split at h
      next hge =>
        cases h
        refine ⟨List.mem_cons_of_mem _ h1, fun e' he' => ?_⟩
        rcases List.mem_cons.1 he' with rfl | he'
        · exact hge
        · exact h2 e' he'
      next hlt =>
        cases h
        refine ⟨List.mem_cons_self .., fun e' he' => ?_⟩
        rcases List.mem_cons.1 he' with rfl | he'
        · exact le_refl _
        · exact (h2 e' he').trans (by omega)

/-- A composition with its polynomial and its domain. -/
structure CompItem (D F : Type) [Field F] where
  comp : Comp F
  poly : MvPolynomial ℕ F
  dom : IDomain D

/-- What holds of the items. -/
structure CompItem.Good (emb : D → F) (pts : Nat → D) (nTables : Nat) (it : CompItem D F) : Prop where
  computes : Computes it.comp it.poly
  nVars : it.comp.nVars = nTables
  positive : 1 ≤ it.comp.degree
  domain : GoodDomain emb pts it.comp.degree it.dom

/-- The points the prover keeps fit all compositions. -/
structure GoodPoints (pts : Nat → D) (items : List (CompItem D F)) (points : List D) : Prop where
  length : points.length = ((items.map fun it => it.comp.degree).max?).getD 0 - 2
  value : ∀ k < points.length, points.getD k 0 = pts (k + 2)

theorem max?_spec (l : List Nat) (hne : l ≠ []) : (l.max?).getD 0 ∈ l ∧ ∀ x ∈ l, x ≤ (l.max?).getD 0 := by
  cases h : l.max? with
  | none => exact absurd (List.max?_eq_none_iff.1 h) hne
  | some m => exact List.max?_eq_some_iff.1 h

theorem nontrivialPoints_ok (emb : D → F) (pts : Nat → D) (h0 : pts 0 = 0) (h1 : pts 1 = 1) (nTables : Nat)
    (items : List (CompItem D F)) (hg : ∀ it ∈ items, it.Good emb pts nTables) :
    ∃ points, nontrivialPoints (items.map fun it => it.dom) = .ok points ∧ GoodPoints pts items points := by
  unfold nontrivialPoints
  obtain ⟨hs1, hs2⟩ := largestDomain_spec (items.map fun it => it.dom)
  cases hl : largestDomain (items.map fun it => it.dom) with
  | none =>
    have : items = [] := by simpa using hs1.1 hl
    subst this
    exact ⟨[], rfl, by simp, by simp⟩
  | some l =>
    obtain ⟨hmem, hmax⟩ := hs2 l hl
    obtain ⟨it, hit, rfl⟩ := List.mem_map.1 hmem
    have hgi := hg it hit
    have hne : (items.map fun it => it.comp.degree) ≠ [] := by
      intro h
      rw [List.map_eq_nil_iff] at h
      rw [h] at hit
      cases hit
    obtain ⟨hm1, hm2⟩ := max?_spec _ hne
    have hle : ∀ it' ∈ items, it'.comp.degree ≤ it.comp.degree := by
      intro it' h'
      have := hmax it'.dom (List.mem_map_of_mem h')
      rw [(hg it' h').domain.size, hgi.domain.size] at this
      omega
    have hdeg : ((items.map fun it => it.comp.degree).max?).getD 0 = it.comp.degree := by
      obtain ⟨it', h', e⟩ := List.mem_map.1 hm1
      have a := hle it' h'
      have b := hm2 _ (List.mem_map_of_mem hit)
      omega
    dsimp only
    have hall : (items.map fun it => it.dom).all (fun d => (d.domain.size ≤ 2 ∨ d.domain.withInfinity = true) ∧
        d.domain.finitePoints[0]?.getD 0 = 0 ∧ d.domain.finitePoints[1]?.getD 1 = 1) = true := by
      rw [List.all_eq_true]
      intro d hd
      obtain ⟨it', h', rfl⟩ := List.mem_map.1 hd
      have hg' := hg it' h'
      have hp := hg'.positive
      rw [decide_eq_true_eq]
      refine ⟨?_, ?_, ?_⟩
      · rw [hg'.domain.size, hg'.domain.inf, decide_eq_true_eq]
        omega
      · rw [hg'.domain.points, List.getElem?_map, List.getElem?_range (by split <;> omega)]
        exact h0
      · rw [hg'.domain.points, List.getElem?_map, List.getElem?_range (by split <;> omega)]
        exact h1
    have hany : ¬ ((items.map fun it => it.dom).any
        (fun d => ¬ d.domain.finitePoints <+: it.dom.domain.finitePoints) = true) := by
      rw [List.any_eq_true]
      rintro ⟨d, hd, hd'⟩
      obtain ⟨it', h', rfl⟩ := List.mem_map.1 hd
      rw [decide_eq_true_eq] at hd'
      apply hd'
      rw [(hg it' h').domain.points, hgi.domain.points]
      have hle' := hle it' h'
      have hp' := (hg it' h').positive
      refine ⟨((List.range (if 2 ≤ it.comp.degree then it.comp.degree else it.comp.degree + 1)).map pts).drop
        (if 2 ≤ it'.comp.degree then it'.comp.degree else it'.comp.degree + 1), ?_⟩
      have : (List.range (if 2 ≤ it'.comp.degree then it'.comp.degree else it'.comp.degree + 1)).map pts =
          ((List.range (if 2 ≤ it.comp.degree then it.comp.degree else it.comp.degree + 1)).map pts).take
            (if 2 ≤ it'.comp.degree then it'.comp.degree else it'.comp.degree + 1) := by
        rw [← List.map_take, List.take_range]
        congr 2
        split <;> split <;> omega
      rw [this, List.take_append_drop]
    rw [if_neg (by rw [hall]; simp), if_neg hany]
    refine ⟨_, rfl, ?_⟩
    have hp := hgi.positive
    have hlen : it.dom.domain.finitePoints.length = if 2 ≤ it.comp.degree then it.comp.degree else it.comp.degree + 1 := by
      rw [hgi.domain.points, List.length_map, List.length_range]
    have h2 : min 2 it.dom.domain.finitePoints.length = 2 := by rw [hlen]; split <;> omega
    rw [h2]
    refine ⟨?_, fun k hk => ?_⟩
    · rw [List.length_drop, hdeg, hlen]
      split <;> omega
    · rw [List.length_drop] at hk
      rw [List.getD_eq_getElem?_getD, List.getElem?_drop, hgi.domain.points, List.getElem?_map,
        List.getElem?_range (by rw [hlen] at hk; omega)]
      simp only [Option.map_some, Option.getD_some]
      rw [Nat.add_comm]

/-! ## A round -/

theorem unionRange_regular (cs : List (Comp F)) :
    (unionRange (cs.map regularEvaluator)).2 = if cs = [] then 0 else ((cs.map fun c => c.degree).max?).getD 0 + 1 := by
  induction cs with
  | nil => rfl
  | cons c cs ih =>
    cases cs with
    | nil => simp [unionRange, regularEvaluator]
    | cons c' cs =>
      rw [List.map_cons, List.map_cons, unionRange]
      rw [List.map_cons] at ih
      rw [ih]
      · simp only [List.map_cons, reduceCtorEq, if_false]
        obtain ⟨m, hm⟩ : ∃ m, (c'.degree :: cs.map fun c => c.degree).max? = some m := ⟨_, rfl⟩
        rw [List.max?_cons (x := c.degree), hm]
        simp only [Option.elim_some, Option.getD_some]
        show max (c.degree + 1) (m + 1) = max c.degree m + 1
        omega
      · simp

/-- The round polynomial of an item, and the values that `calculate_round_evals` gives for it. -/
theorem regular_evals {emb : D → F} {pts : Nat → D} {w N n : Nat} {order : EvaluationOrder} {rs : List F}
    {tables : List (Nat → F)} {ms : List (SumMultilin F)} {q : Query F} {points : List D} {s : Nat} {es : List (Evaluator F)}
    {stale : Nat → Nat → Nat → F} {first : Nat} (it : CompItem D F) (hg : it.Good emb pts tables.length)
    (hn : N = n + 1 + rs.length) (hms : List.Forall₂ (fun t m => Stands w order N (n + 1) t rs m) tables ms)
    (hq : ∀ m ∈ ms, m.switchover? ≠ none → QueryOk w order q rs) (hs : s ≤ n) (hsw : s < w → s = n)
    (he : regularEvaluator it.comp ∈ es) (hj : it.comp.degree ≤ points.length + 2) :
    ∃ R : Polynomial F, R.natDegree ≤ it.comp.degree ∧ (∀ x, R.eval x = curSum order N n (rs ++ [x]) tables it.poly) ∧
      evaluatorEvals emb w order (n + 1) ms q points s (multilinCount (n + 1) s es) stale first (regularEvaluator it.comp) =
        .ok ((List.range' 1 it.comp.degree).map fun j =>
          if j = 2 then R.coeff it.comp.degree else R.eval (if j = 1 then 1 else emb (points.getD (j - 3) 0))) := by
  obtain ⟨hc, hv, hpos, -⟩ := hg
  have hline := fun x : Nat => comp_line hc.built hc.degree tables (fun t => ends order N n rs t 0 x)
    (fun t => ends order N n rs t 1 x) (by rw [← hv]; exact hc.nVars)
  choose P hP1 hP2 hP3 using hline
  refine ⟨∑ x ∈ range (2 ^ n), P x, ?_, fun x => ?_, ?_⟩
  · exact Polynomial.natDegree_sum_le_of_forall_le _ _ fun x _ => hP1 x
  · rw [Polynomial.eval_finsetSum]
    unfold curSum
    refine Finset.sum_congr rfl fun y _ => ?_
    have h1 := hP2 y x
    rw [hc.expression _ (by simp [hv])] at h1
    rw [← Option.some.inj h1]
    congr 1
    refine List.map_congr_left fun t _ => ?_
    rw [cur_snoc order N n t rs hn]
    unfold ends
    ring
  · have hcount : evaluatorCount (n + 1) s (regularEvaluator it.comp) * 2 ^ s = 2 ^ n := by
      unfold evaluatorCount
      show divCeil (2 ^ n - 0) (2 ^ s) * 2 ^ s = _
      rw [Nat.sub_zero]
      have hb := divCeil_bounds (2 ^ n) (2 ^ s) (Nat.two_pow_pos s)
      have hns : 2 ^ (n - s) * 2 ^ s = 2 ^ n := by rw [← pow_add]; congr 1; omega
      have := divCeil_le (a := 2 ^ n) (b := 2 ^ s) (c := 2 ^ (n - s)) (Nat.two_pow_pos s) (by omega)
      have := Nat.mul_le_mul_right (2 ^ s) this
      omega
    have := evaluatorEvals_ok (emb := emb) (points := points) (stale := stale) (first := first) (k := fun _ => 0)
      (g := fun j x => if j = 2 then (P x).coeff it.comp.degree else
        (P x).eval (if j = 1 then 1 else emb (points.getD (j - 3) 0)))
      hn hms hq hs hsw he (by show 0 ≤ _; omega) (by show it.comp.degree + 1 ≤ _; omega)
      (fun _ _ _ => rfl) (fun j hj1 hj2 x hx vals hl hu => by
        have hj1' : 1 ≤ j := hj1
        refine ⟨_, 1, ?_, rfl, mul_one _⟩
        show (if (j == 2) = true then (Arith.leadingTerm it.comp.expr).bind fun lt => Arith.evaluate lt vals
          else it.comp.evaluate vals) = _
        by_cases h2 : j = 2
        · subst h2
          rw [if_pos (by rfl)]
          obtain ⟨lt, e1, e2⟩ := hP3 x
          rw [e1, Option.bind_some]
          exact e2 vals hl hu
        · rw [if_neg (by simpa using h2), if_neg h2, hc.evaluate _ (by rw [hl, hv]), ← hc.expression _ (by rw [hl, hv])]
          have e := hP2 x (if j = 1 then 1 else emb (points.getD (j - 3) 0))
          refine evaluate_used hc.built.wf.1 (fun i hi => ?_) e
          have hlt : i < tables.length :=
            lt_of_lt_of_le ((Arith.nVars_spec _).1 i hi) (by rw [← hv]; exact hc.nVars)
          rw [hu i tables[i] ((usage_mem _ i).2 hi) (List.getElem?_eq_getElem hlt), List.getElem?_map,
            List.getElem?_eq_getElem hlt, Option.map_some]
          congr 1
          match j, hj1', h2 with
          | 1, _, _ => unfold zPure; simp
          | j + 3, _, _ => unfold zPure; simp)
    rw [this]
    congr 1
    show (List.range' 1 (it.comp.degree + 1 - 1)).map _ = _
    rw [Nat.add_sub_cancel]
    refine List.map_congr_left fun j _ => ?_
    rw [hcount, add_zero]
    by_cases h2 : j = 2
    · simp only [h2, if_true]
      rw [Polynomial.finset_sum_coeff]
    · simp only [h2, if_false]
      rw [Polynomial.eval_finsetSum]

theorem reorder_eq (a b : F) (h : Nat → F) (d : Nat) (hd : 1 ≤ d) :
    reorderEvals (a :: b :: (List.range' 2 (d - 1)).map h) =
      a :: b :: ((List.range' 3 (d - 2)).map h ++ if 2 ≤ d then [h 2] else []) := by
  match d, hd with
  | 1, _ => rfl
  | 2, _ => rfl
  | d + 3, _ =>
    have e1 : d + 3 - 1 = d + 1 + 1 := by omega
    have e2 : d + 3 - 2 = d + 1 := by omega
    rw [e1, e2, List.range'_succ, List.range'_succ, if_pos (by omega)]
    rfl

theorem regular_coeffs {emb : D →+* F} {pts : Nat → D} (h0 : pts 0 = 0) (h1 : pts 1 = 1) {d : Nat} (hd : 1 ≤ d)
    {dom : IDomain D} (hg : GoodDomain emb pts d dom) {points : List D} (hlen : d ≤ points.length + 2)
    (hpts : ∀ k < points.length, points.getD k 0 = pts (k + 2)) (R : Polynomial F) (hR : R.natDegree ≤ d) (sum : F)
    (hsum : R.eval 0 + R.eval 1 = sum) :
    regularCoeffs emb dom sum ((List.range' 1 d).map fun j =>
      if j = 2 then R.coeff d else R.eval (if j = 1 then 1 else emb (points.getD (j - 3) 0))) = .ok (coeffs (d + 1) R) := by
  set h : Nat → F := fun j => if j = 2 then R.coeff d else R.eval (if j = 1 then 1 else emb (points.getD (j - 3) 0)) with hh
  have hr : (List.range' 1 d).map h = h 1 :: (List.range' 2 (d - 1)).map h := by
    obtain ⟨k, rfl⟩ : ∃ k, d = k + 1 := ⟨d - 1, by omega⟩
    rw [List.range'_succ, Nat.add_sub_cancel]
    rfl
  rw [hr]
  unfold regularCoeffs
  dsimp only
  rw [reorder_eq _ _ _ _ hd]
  have hvals : (sum - h 1) :: h 1 :: ((List.range' 3 (d - 2)).map h ++ if 2 ≤ d then [h 2] else []) =
      ((List.range (if 2 ≤ d then d else d + 1)).map fun k => R.eval (emb (pts k))) ++ if 2 ≤ d then [R.coeff d] else [] := by
    have e1 : h 1 = R.eval 1 := rfl
    have e0 : sum - h 1 = R.eval 0 := by rw [e1, ← hsum]; ring
    have ep : (List.range (if 2 ≤ d then d else d + 1)).map (fun k => R.eval (emb (pts k))) =
        R.eval 0 :: R.eval 1 :: (List.range' 3 (d - 2)).map h := by
      have : (if 2 ≤ d then d else d + 1) = (d - 2) + 1 + 1 := by split <;> omega
      rw [this, List.range_eq_range', List.range'_succ, List.range'_succ, List.map_cons, List.map_cons, h0, map_zero]
      simp only [Nat.zero_add, h1, map_one]
      congr 2
      rw [List.range'_eq_map_range, List.range'_eq_map_range, List.map_map, List.map_map]
      refine List.map_congr_left fun k hk => ?_
      have hk' := List.mem_range.1 hk
      show R.eval (emb (pts (1 + 1 + k))) = if 3 + k = 2 then _ else R.eval (if 3 + k = 1 then 1 else emb (points.getD (3 + k - 3) 0))
      rw [if_neg (by omega), if_neg (by omega), show 3 + k - 3 = k by omega, hpts k (by omega)]
      congr 3
      omega
    rw [e0, e1, ep]
    rfl
  rw [hvals, hg.interpolate R hR]

end Verif.Sumcheck
