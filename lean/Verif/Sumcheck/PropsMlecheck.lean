import Verif.Sumcheck.SpecMlecheck
import Verif.Sumcheck.PropsEqIndProver
import Verif.Sumcheck.PropsBivariate

/-! # C71: the prover for products of two multilinears with an equality indicator -/

set_option linter.unusedSectionVars false

namespace Verif.Sumcheck

open Verif.Mle Verif.Univariate Finset

variable {F : Type} [Field F] [DecidableEq F]

/-! ## Lemmas -/

/-- The sum that a composition asks for. -/
def eqProdSum (n : Nat) (rows : List (Nat → F)) (eq : Nat → F) (c : Nat × Nat) : F :=
  match rows[c.1]?, rows[c.2]? with
  | some a, some b => ∑ v ∈ range (2 ^ n), a v * b v * eq v
  | _, _ => 0

theorem accumulateEq_ok (n : Nat) (rows : List (Nat → F)) (eq : Nat → F) (α : F) (cs : List (Nat × Nat)) (p acc : F)
    (h : ∀ c ∈ cs, c.1 < rows.length ∧ c.2 < rows.length) :
    accumulateEqProducts n rows eq α cs p acc = .ok (acc + innerPowers α p (cs.map (eqProdSum n rows eq))) := by
  induction cs generalizing p acc with
  | nil => simp [accumulateEqProducts, innerPowers]
  | cons c cs ih =>
    obtain ⟨h1, h2⟩ := h c (List.mem_cons_self ..)
    unfold accumulateEqProducts sumEqProducts
    rw [List.getElem?_eq_getElem h1, List.getElem?_eq_getElem h2]
    simp only
    rw [ih _ _ fun d hd => h d (List.mem_cons_of_mem _ hd), List.map_cons, innerPowers, range_sum]
    unfold eqProdSum
    rw [List.getElem?_eq_getElem h1, List.getElem?_eq_getElem h2, add_assoc]

/-- The batched sum of the products of the rows with the indicator. -/
def eqBatched (n : Nat) (rows : List (Nat → F)) (eq : Nat → F) (α : F) (cs : List (Nat × Nat)) : F :=
  innerPowers α 1 (cs.map (eqProdSum n rows eq))

theorem eqProdSum_line (n : Nat) (rows : List (Nat → F)) (eq : Nat → F) (c : Nat × Nat) (h2 : (2 : F) = 0) (x : F) :
    eqProdSum n (rows.map (foldTable n x)) eq c =
      eqProdSum n rows eq c +
      (eqProdSum n (rows.map fun t i => t (i + 2 ^ n)) eq c - eqProdSum n rows eq c
        - eqProdSum n (rows.map fun t i => t i + t (i + 2 ^ n)) eq c) * x +
      eqProdSum n (rows.map fun t i => t i + t (i + 2 ^ n)) eq c * x ^ 2 := by
  unfold eqProdSum
  simp only [List.getElem?_map]
  rcases rows[c.1]? with _ | a
  · simp
  rcases rows[c.2]? with _ | b
  · simp
  simp only [Option.map_some]
  rw [← Finset.sum_sub_distrib, ← Finset.sum_sub_distrib, Finset.sum_mul, Finset.sum_mul, ← Finset.sum_add_distrib,
    ← Finset.sum_add_distrib]
  refine Finset.sum_congr rfl fun v _ => ?_
  unfold foldTable
  linear_combination (- a v * b (v + 2 ^ n) * x ^ 2 - a (v + 2 ^ n) * b v * x ^ 2
    + a v * b (v + 2 ^ n) * x + a (v + 2 ^ n) * b v * x) * eq v * h2

/-- The coefficients that `execute` keeps are those of the batched sum on a line. -/
theorem eqCoeffs_eval (h2 : (2 : F) = 0) (n : Nat) (rows : List (Nat → F)) (eq : Nat → F) (α : F) (cs : List (Nat × Nat)) (β : F)
    (hβ : β ≠ 1) (sum : F)
    (hs : sum = (1 - β) * eqBatched n rows eq α cs + β * eqBatched n (rows.map fun t i => t (i + 2 ^ n)) eq α cs) (x : F) :
    evaluateUnivariate (eqRoundCoeffsFromEvals sum
      (eqBatched n (rows.map fun t i => t (i + 2 ^ n)) eq α cs, eqBatched n (rows.map fun t i => t i + t (i + 2 ^ n)) eq α cs) β) x =
      eqBatched n (rows.map (foldTable n x)) eq α cs := by
  have hne : (1 : F) - β ≠ 0 := fun h => hβ (sub_eq_zero.1 h).symm
  have h0 : (sum - eqBatched n (rows.map fun t i => t (i + 2 ^ n)) eq α cs * β) * (1 - β)⁻¹ = eqBatched n rows eq α cs := by
    rw [hs]
    field_simp
    ring
  unfold eqRoundCoeffsFromEvals
  simp only
  rw [h0, eval3]
  unfold eqBatched
  rw [innerPowers_lin α 1 cs _ _ _ _ x (x ^ 2) (eqProdSum_line n rows eq · h2 x), innerPowers_sub, innerPowers_sub]

theorem timesEqLine_eval (α pre : F) (cs : List F) (x : F) :
    evaluateUnivariate (timesEqLine α pre cs) x = pre * eqFn α x * evaluateUnivariate cs x := by
  have hc : ∀ l : List F, evaluateUnivariate ((0 : F) :: l) x = x * evaluateUnivariate l x := by
    intro l
    simp only [evaluateUnivariate, List.foldr_cons]
    ring
  unfold timesEqLine
  rw [scaleCoeffs_eval, addCoeffs_eval, scaleCoeffs_eval, hc, eqFn_eq, scaleCoeffs_eval]
  ring

theorem timesEqLine_length (α pre : F) (cs : List F) : (timesEqLine α pre cs).length = cs.length + 1 := by
  unfold timesEqLine
  have hs : ∀ (l : List F) (c : F), (scaleCoeffs l c).length = l.length := fun l c => by simp [scaleCoeffs]
  rw [hs, addCoeffs_length, hs, List.length_cons, hs]
  omega

/-- The polynomials of the compositions. -/
noncomputable def prodPolys (cs : List (Nat × Nat)) : List (MvPolynomial ℕ F) :=
  cs.map fun c => MvPolynomial.X c.1 * MvPolynomial.X c.2

/-- What remains of the tables. -/
def curRows (N : Nat) (tables : List (Nat → F)) (rs : List F) : List (Nat → F) := tables.map fun t => cur .highToLow N t rs

theorem curRows_snoc (N n : Nat) (tables : List (Nat → F)) (rs : List F) (hn : N = n + 1 + rs.length) (x : F) :
    curRows N tables (rs ++ [x]) = (curRows N tables rs).map (foldTable n x) := by
  unfold curRows
  rw [List.map_map]
  refine List.map_congr_left fun t _ => ?_
  funext i
  rw [cur_snoc .highToLow N n t rs hn]
  simp only [Function.comp, foldTable, half, Nat.mul_zero, Nat.mul_one, Nat.add_zero]
  ring

/-- The batched sum with the indicator is that of the compositions. -/
theorem eqBatched_eqSum (N n : Nat) (r : List F) (tables : List (Nat → F)) (rs : List F) (eq : Nat → F) (α : F)
    (cs : List (Nat × Nat)) (hc : ∀ c ∈ cs, c.1 < tables.length ∧ c.2 < tables.length) (hr : n ≤ r.length)
    (heq : ∀ x < 2 ^ n, eq x = eqWeight (rem .highToLow n r) x) :
    eqBatched n (curRows N tables rs) eq α cs =
      innerPowers α 1 ((prodPolys cs).map fun p => eqSum .highToLow N n r rs tables p) := by
  unfold eqBatched prodPolys
  rw [List.map_map]
  congr 1
  refine List.map_congr_left fun c hm => ?_
  obtain ⟨h1, h2⟩ := hc c hm
  unfold eqProdSum curRows
  rw [List.getElem?_map, List.getElem?_map, List.getElem?_eq_getElem h1, List.getElem?_eq_getElem h2]
  simp only [Option.map_some, Function.comp]
  unfold eqSum
  rw [mle_eq_sum, rem_length _ _ _ hr]
  refine Finset.sum_congr rfl fun v hv => ?_
  rw [evalAt_product _ c.1 c.2 (cur .highToLow N tables[c.1] rs v) (cur .highToLow N tables[c.2] rs v) (by simp [h1]) (by simp [h2]),
    heq v (Finset.mem_range.1 hv)]
  ring

/-- The prover before a round. -/
structure MleReady (N n : Nat) (r : List F) (tables : List (Nat → F)) (cs : List (Nat × Nat)) (α : F) (rs : List F)
    (s : Mlecheck F) : Prop where
  total : N = n + rs.length
  length : r.length = N
  vars : s.nVarsRemaining = n
  mults : s.multilins = curRows N tables rs
  comps : s.compositions = cs
  chals : s.challenges = r
  last : (∃ sums, s.last = .initialSums sums ∧
      evaluateUnivariate sums α = innerPowers α 1 ((prodPolys cs).map fun p => eqSum .highToLow N n r rs tables p)) ∨
    s.last = .batchedSum (innerPowers α 1 ((prodPolys cs).map fun p => eqSum .highToLow N n r rs tables p))
  prefixed : s.prefixEval = eqInd (arrange .highToLow rs) (bound .highToLow n r)
  eqs : ∀ x < 2 ^ (n - 1), 1 ≤ n → s.partialEvals x = eqWeight (rem .highToLow (n - 1) r) x

theorem MleReady.execute {N n : Nat} {r : List F} {tables : List (Nat → F)} {cs : List (Nat × Nat)} {α : F} {rs : List F}
    {s : Mlecheck F} (h2 : (2 : F) = 0) (hr1 : (1 : F) ∉ r) (h : MleReady N (n + 1) r tables cs α rs s)
    (hc : ∀ c ∈ cs, c.1 < tables.length ∧ c.2 < tables.length) :
    ∃ prime, prime.length = 3 ∧
      (∀ x, evaluateUnivariate prime x = innerPowers α 1 ((prodPolys cs).map fun p => eqSum .highToLow N n r (rs ++ [x]) tables p)) ∧
      s.execute α = .ok (timesEqLine (nextCoord .highToLow n r) s.prefixEval prime, { s with last := .coeffs prime }) ∧
      r[n]? = some (nextCoord .highToLow n r) := by
  have htot := h.total
  have hlen := h.length
  have hβ : nextCoord .highToLow n r ≠ 1 := fun e => hr1 (e ▸ nextCoord_mem .highToLow _ r (by omega))
  have hget : r[n]? = some (nextCoord .highToLow n r) := by
    simp only [nextCoord]
    rw [List.getD_eq_getElem _ _ (by omega), List.getElem?_eq_getElem]
  have hrows : (curRows N tables rs).length = tables.length := by simp [curRows]
  have hev : ∀ x < 2 ^ n, s.partialEvals x = eqWeight (rem .highToLow n r) x := fun x hx => h.eqs x hx (by omega)
  set rows := curRows N tables rs with hrowsdef
  have he : calculateEqRoundEvals s.nVarsRemaining α s.multilins s.partialEvals s.compositions =
      .ok (eqBatched n (rows.map fun t i => t (i + 2 ^ n)) s.partialEvals α cs,
        eqBatched n (rows.map fun t i => t i + t (i + 2 ^ n)) s.partialEvals α cs) := by
    rw [h.vars, h.mults, h.comps, ← hrowsdef]
    unfold calculateEqRoundEvals
    rw [if_neg (by omega)]
    simp only [Nat.add_sub_cancel]
    rw [accumulateEq_ok _ _ _ _ _ _ _ (fun c hc' => by rw [List.length_map, hrows]; exact hc c hc')]
    simp only
    rw [accumulateEq_ok _ _ _ _ _ _ _ (fun c hc' => by rw [List.length_map, hrows]; exact hc c hc')]
    simp only [zero_add]
    rfl
  have hline : ∀ x, eqBatched n (rows.map (foldTable n x)) s.partialEvals α cs =
      innerPowers α 1 ((prodPolys cs).map fun p => eqSum .highToLow N n r (rs ++ [x]) tables p) := by
    intro x
    rw [hrowsdef, ← curRows_snoc N n tables rs htot x, eqBatched_eqSum N n r tables _ _ α cs hc (by omega) hev]
  have e0 : rows.map (foldTable n 0) = rows := by
    rw [List.map_congr_left (g := id)]
    · simp
    · intro t _; funext i; simp [foldTable]
  have e1 : rows.map (foldTable n 1) = rows.map fun t i => t (i + 2 ^ n) := by
    refine List.map_congr_left fun t _ => ?_
    funext i; simp [foldTable]
  have hsum : innerPowers α 1 ((prodPolys cs).map fun p => eqSum .highToLow N (n + 1) r rs tables p) =
      (1 - nextCoord .highToLow n r) * eqBatched n rows s.partialEvals α cs +
        nextCoord .highToLow n r * eqBatched n (rows.map fun t i => t (i + 2 ^ n)) s.partialEvals α cs := by
    have a0 := hline 0
    have a1 := hline 1
    rw [e0] at a0
    rw [e1] at a1
    rw [a0, a1, innerPowers_map, innerPowers_map, innerPowers_map, Finset.mul_sum, Finset.mul_sum, ← Finset.sum_add_distrib]
    refine Finset.sum_congr rfl fun i _ => ?_
    rw [← eqSum_split .highToLow N n r rs tables _ htot hlen]
    ring
  refine ⟨eqRoundCoeffsFromEvals (innerPowers α 1 ((prodPolys cs).map fun p => eqSum .highToLow N (n + 1) r rs tables p))
    (eqBatched n (rows.map fun t i => t (i + 2 ^ n)) s.partialEvals α cs,
      eqBatched n (rows.map fun t i => t i + t (i + 2 ^ n)) s.partialEvals α cs) (nextCoord .highToLow n r), rfl, fun x => ?_, ?_, hget⟩
  · exact (eqCoeffs_eval h2 n rows s.partialEvals α cs _ hβ _ hsum x).trans (hline x)
  · unfold Mlecheck.execute
    rw [he]
    simp only
    rw [h.chals, h.vars, Nat.add_sub_cancel, hget]
    rcases h.last with ⟨sums, hl, hs⟩ | hl
    · rw [hl]
      simp only [hs]
    · rw [hl]

theorem MleReady.fold {N n : Nat} {r : List F} {tables : List (Nat → F)} {cs : List (Nat × Nat)} {α : F} {rs : List F}
    {s : Mlecheck F} (h2 : (2 : F) = 0) (hr1 : (1 : F) ∉ r) (h : MleReady N (n + 1) r tables cs α rs s)
    (hc : ∀ c ∈ cs, c.1 < tables.length ∧ c.2 < tables.length) (c : F) :
    ∃ p s', s.execute α = .ok p ∧ p.2.fold c = .ok s' ∧ MleReady N n r tables cs α (rs ++ [c]) s' ∧
      s'.preFold = false ∧ s'.allocated = s.allocated + foldAllocates (n + 1) tables.length s.preFold ∧
      s'.nVarsInitial = s.nVarsInitial := by
  obtain ⟨prime, -, hp, he, hget⟩ := h.execute h2 hr1 hc
  have htot := h.total
  have hlen := h.length
  refine ⟨_, { s with
    last := .batchedSum (evaluateUnivariate prime c)
    prefixEval := s.prefixEval * eqFn (nextCoord .highToLow n r) c
    multilins := s.multilins.map fun t i => t i + (t (i + 2 ^ n) - t i) * c
    partialEvals := if n ≠ 0 then foldEqInd (n + 1) s.partialEvals else s.partialEvals
    nVarsRemaining := n
    preFold := false
    allocated := s.allocated + foldAllocates (n + 1) s.multilins.length s.preFold }, he, ?_, ?_⟩
  · unfold Mlecheck.fold
    simp only
    rw [if_neg (by rw [h.vars]; omega), h.chals, h.vars, Nat.add_sub_cancel, hget]
  · refine ⟨⟨by simp only [List.length_append, List.length_singleton]; omega, hlen, rfl, ?_, h.comps, h.chals, Or.inr ?_, ?_, ?_⟩, rfl, ?_, rfl⟩
    · simp only
      rw [h.mults, curRows_snoc N n tables rs htot c]
      rfl
    · simp only
      rw [hp c]
    · simp only
      rw [h.prefixed, prefix_succ .highToLow n r rs (by omega) c]
    · intro x hx hn
      simp only
      rw [if_pos (by omega)]
      obtain ⟨k, rfl⟩ : ∃ k, n = k + 1 := ⟨n - 1, by omega⟩
      simp only [Nat.add_sub_cancel] at hx ⊢
      unfold foldEqInd
      have hk : (2 : Nat) ^ (k + 1) = 2 * 2 ^ k := pow_succ' 2 k
      rw [show k + 1 + 1 - 2 = k by omega, h.eqs x (by simp only [Nat.add_sub_cancel]; omega) (by omega),
        h.eqs (x + 2 ^ k) (by simp only [Nat.add_sub_cancel]; omega) (by omega)]
      have := eqWeight_fold .highToLow k r (by omega) x hx
      simpa [half] using this
    · simp only
      rw [h.mults]
      simp [curRows]

theorem MleReady.rounds {N n : Nat} {r : List F} {tables : List (Nat → F)} {cs : List (Nat × Nat)} {α : F}
    (h2 : (2 : F) = 0) (hr1 : (1 : F) ∉ r) (hc : ∀ c ∈ cs, c.1 < tables.length ∧ c.2 < tables.length) (qs : List F) {rs : List F}
    {s : Mlecheck F} (h : MleReady N (n + qs.length) r tables cs α rs s) :
    ∃ s', s.rounds α qs = .ok s' ∧ MleReady N n r tables cs α (rs ++ qs) s' ∧
      s'.allocated = s.allocated + if qs = [] then 0 else foldAllocates (n + qs.length) tables.length s.preFold := by
  induction qs generalizing rs s with
  | nil => exact ⟨s, rfl, by simpa using h, by simp⟩
  | cons c qs ih =>
    have h' : MleReady N (n + qs.length + 1) r tables cs α rs s := h
    obtain ⟨p, s', e1, e2, e3, e4, e5, -⟩ := h'.fold h2 hr1 hc c
    obtain ⟨s'', g1, g2, g3⟩ := ih e3
    refine ⟨s'', ?_, by simpa using g2, ?_⟩
    · rw [Mlecheck.rounds, e1]
      simp only [Except.bind]
      rw [e2]
      exact g1
    · have h0 : foldAllocates (n + qs.length) tables.length false = 0 := rfl
      rw [g3, e5, e4, if_neg (List.cons_ne_nil _ _), h0, ite_self, Nat.add_zero]
      rfl

theorem MleReady.finish {N : Nat} {r : List F} {tables : List (Nat → F)} {cs : List (Nat × Nat)} {α : F} {rs : List F}
    {s : Mlecheck F} (h : MleReady N 0 r tables cs α rs s) :
    s.finish = .ok ((tables ++ [eqWeight r]).map fun t => mle t (arrange .highToLow rs)) := by
  have htot := h.total
  have hlen := h.length
  have hb : bound .highToLow 0 r = r := by simp [bound]
  have hal : (arrange .highToLow rs).length = r.length := by simp [arrange]; omega
  have : s.finish = .ok ((s.multilins.map fun t => t 0) ++ [s.prefixEval]) := by
    unfold Mlecheck.finish
    rcases h.last with ⟨sums, hl, -⟩ | hl
    · rw [hl]; simp only; rw [if_pos h.vars]
    · rw [hl]; simp only; rw [if_pos h.vars]
  rw [this, h.mults, h.prefixed, hb, List.map_append, List.map_singleton, mle_eqWeight _ _ hal]
  unfold curRows
  rw [List.map_map]
  congr 2
  refine List.map_congr_left fun t _ => ?_
  exact cur_full .highToLow N t rs (by omega)

theorem product_index {r : List F} {tables : List (Nat → F)} {sums : List ((Nat × Nat) × F)} (h : ProductEqSums r tables sums) :
    ∀ c ∈ sums.map Prod.fst, c.1 < tables.length ∧ c.2 < tables.length := by
  intro c hc
  obtain ⟨s, hs, rfl⟩ := List.mem_map.mp hc
  obtain ⟨a, b, h1, h2, -⟩ := h s hs
  exact ⟨(List.getElem?_eq_some_iff.mp h1).1, (List.getElem?_eq_some_iff.mp h2).1⟩

theorem mle_ready (n : Nat) (r : List F) (tables : List (Nat → F)) (sums : List ((Nat × Nat) × F)) (e : Nat → F)
    (hr : r.length = n) (he : ∀ x < 2 ^ (n - 1), e x = eqWeight (r.take (n - 1)) x) (hs : ProductEqSums r tables sums) (α : F) :
    MleReady n n r tables (sums.map Prod.fst) α []
      ⟨n, n, tables, sums.map Prod.fst, .initialSums (sums.map Prod.snd), 1, e, r, true, 0⟩ := by
  refine ⟨rfl, hr, rfl, ?_, rfl, rfl, Or.inl ⟨_, rfl, ?_⟩, ?_, fun x hx _ => he x hx⟩
  · unfold curRows
    have : (fun t : Nat → F => cur .highToLow n t []) = id := by
      funext t x
      rw [cur_nil]; rfl
    rw [this, List.map_id]
  · unfold prodPolys
    rw [innerPowers_eval, one_mul, List.map_map, List.map_map]
    congr 1
    refine List.map_congr_left fun s hm => ?_
    obtain ⟨a, b, h1, h2, h3⟩ := hs s hm
    simp only [Function.comp]
    unfold eqSum
    have hrem : rem .highToLow n r = r := by simp [rem, hr]
    rw [hrem, h3]
    congr 1
    funext v
    rw [evalAt_product _ s.1.1 s.1.2 (a v) (b v)]
    · rw [List.getElem?_map, h1, Option.map_some, cur_nil]
    · rw [List.getElem?_map, h2, Option.map_some, cur_nil]
  · simp [arrange, bound, eqInd]

/-! ## The properties -/

/-- **C71.** Over a field of characteristic 2, for every number of variables, all tables, all true claims on sums of products of
two of them (at least one) times the equality indicator of a point none of whose coordinates is one, given the expanded indicator
of all coordinates but the last: `new` succeeds, in every round, whatever the challenges and the batching coefficient, `execute`
gives the round polynomial of the batch of the products with the indicator, and `finish` the evaluations of the multilinears and
of the indicator at the challenges. -/
theorem C71_honest (h2 : (2 : F) = 0) (n : Nat) (r : List F) (sums : List ((Nat × Nat) × F)) (multilins : List (Nat × (Nat → F)))
    (e : Nat → F) (hr : r.length = n) (hr1 : (1 : F) ∉ r) (hn : ∀ m ∈ multilins, m.1 = n)
    (he : ∀ x < 2 ^ (n - 1), e x = eqWeight (r.take (n - 1)) x) (hne : sums ≠ [])
    (hs : ProductEqSums r (multilins.map Prod.snd) sums) :
    ∃ s, Mlecheck.new n multilins.length sums multilins (2 ^ (n - 1), e) r = .ok s ∧ s.toProver.evaluationOrder = .highToLow ∧
      ∀ I, IsProductEqInstance n (multilins.map Prod.snd) sums I → Honest s.toProver (I.regular r) := by
  set tables := multilins.map Prod.snd with htables
  have hready := mle_ready n r tables sums e hr he hs
  have hc := product_index hs
  refine ⟨⟨n, n, tables, sums.map Prod.fst, .initialSums (sums.map Prod.snd), 1, e, r, true, 0⟩, ?_, rfl, fun I hI => ?_⟩
  · unfold Mlecheck.new
    rw [if_neg (by simp), if_neg, if_neg (by simp)]
    simp only [ne_eq, decide_not, List.any_eq_true, Bool.not_eq_eq_eq_not, Bool.not_true, decide_eq_false_iff_not, not_exists,
      not_and, not_not]
    exact hn
  have hInv : (I.regular r).claim.nVars = n := hI.nVars
  have hIt : (I.regular r).tables = tables ++ [eqWeight r] := by
    show I.tables ++ [eqWeight (suffix I.claim.nVars r)] = _
    rw [hI.tables, hI.nVars, suffix_full _ _ (by omega)]
  have hIp : (I.regular r).polys = (prodPolys (sums.map Prod.fst)).map fun p => p * MvPolynomial.X tables.length := by
    show I.polys.map _ = _
    rw [hI.polys, hI.nMultilinears]
    unfold prodPolys
    rw [List.map_map, List.map_map, List.map_map]
    rfl
  refine ⟨hInv.symm, fun folded coeff hlt => ?_, fun folded hl => ?_⟩
  · rw [hInv] at hlt ⊢
    obtain ⟨k, hk⟩ : ∃ k, n = k + 1 + folded.length := ⟨n - folded.length - 1, by omega⟩
    have hd := hready coeff
    conv at hd => arg 2; rw [hk]
    obtain ⟨s', e1, e3, -⟩ := hd.rounds h2 hr1 hc folded
    rw [List.nil_append] at e3
    obtain ⟨prime, hp3, hp, hex, -⟩ := e3.execute h2 hr1 hc
    refine ⟨timesEqLine (nextCoord .highToLow k r) s'.prefixEval prime, ?_, ?_, fun x => ?_⟩
    · show (Mlecheck.rounds _ _ _).bind _ = _
      rw [e1]
      simp only [Except.bind]
      rw [hex]
    · rw [timesEqLine_length, hp3]
      have hdg : (I.regular r).claim.maxIndividualDegree = 3 := by
        show (((I.claim.sums.map _).map fun s : CompositeSum F => s.composition.degree).max?).getD 0 = _
        have a1 : (I.claim.sums.map (fun s => (⟨extraProduct s.composition, s.sum⟩ : CompositeSum F))).map
            (fun s => s.composition.degree) = (I.claim.sums.map fun s => s.composition.degree).map (· + 1) := by
          rw [List.map_map, List.map_map]; rfl
        rw [a1, hI.degrees, List.map_map]
        have : ∀ l : List ((Nat × Nat) × F), l ≠ [] → (l.map ((fun x => x + 1) ∘ fun _ => 2)).max?.getD 0 = 3 := by
          intro l hl
          have : (l.map ((fun x => x + 1) ∘ fun _ => 2)).max? = some 3 := by
            rw [List.max?_eq_some_iff]
            constructor
            · cases l with
              | nil => exact absurd rfl hl
              | cons a l => simp
            · intro b hb
              simp at hb
              omega
          rw [this]; rfl
        exact this sums hne
      rw [hdg]
    · rw [← C19_evaluate_univariate, timesEqLine_eval, hp x, e3.prefixed, ← prefix_succ .highToLow k r folded (by omega) x]
      have h3 : eqInd (arrange .highToLow (folded ++ [x])) (bound .highToLow k r) *
          innerPowers coeff 1 ((prodPolys (sums.map Prod.fst)).map fun p => eqSum .highToLow n k r (folded ++ [x]) tables p) =
          innerPowers coeff 1 ((I.regular r).polys.map fun p => curSum .highToLow n k (folded ++ [x]) (I.regular r).tables p) := by
        rw [hIp, hIt, List.map_map, innerPowers_map, innerPowers_map, Finset.mul_sum]
        refine Finset.sum_congr rfl fun i _ => ?_
        have hv : (prodPolys (F := F) (sums.map Prod.fst))[i].vars ⊆ range tables.length := by
          have hmem : (prodPolys (F := F) (sums.map Prod.fst))[i] ∈ prodPolys (F := F) (sums.map Prod.fst) := List.getElem_mem _
          obtain ⟨c, hcm, e⟩ := List.mem_map.1 hmem
          rw [← e]
          obtain ⟨a1, a2⟩ := hc c hcm
          refine (MvPolynomial.vars_mul _ _).trans ?_
          rw [MvPolynomial.vars_X, MvPolynomial.vars_X]
          intro j hj
          simp only [Finset.mem_union, Finset.mem_singleton] at hj
          rw [Finset.mem_range]
          rcases hj with rfl | rfl <;> assumption
        show _ = _ * curSum .highToLow n k (folded ++ [x]) (tables ++ [eqWeight r])
          ((prodPolys (sums.map Prod.fst))[i] * MvPolynomial.X tables.length)
        rw [curSum_eqSum .highToLow n k r (folded ++ [x]) tables _ (by rw [List.length_append, List.length_singleton]; omega) hr hv]
        ring
      rw [h3, innerPowers_map, show n - folded.length - 1 = k by omega, Finset.sum_comm]
      refine Finset.sum_congr rfl fun i _ => ?_
      rw [curSum_cube _ _ _ _ _ _ (by rw [List.length_append, List.length_singleton]; omega)]
      unfold cube
      rw [one_mul, Finset.mul_sum]
      refine Finset.sum_congr rfl fun b _ => ?_
      simp only [List.append_assoc, List.singleton_append]
      rfl
  · rw [hInv] at hl
    have hd := hready 0
    conv at hd => arg 2; rw [show n = 0 + folded.length by omega]
    obtain ⟨s', e1, e3, -⟩ := hd.rounds h2 hr1 hc folded
    rw [List.nil_append] at e3
    show (Mlecheck.rounds _ _ _).bind _ = _
    rw [e1]
    simp only [Except.bind]
    rw [e3.finish, hIt]
    rfl

/-- The hypotheses are met: over the tower field with four elements, two variables, a point with a coordinate that is not a bit,
and the product of two tables. -/
example : ∃ (r : List (Field.T 1)) (tables : List (Nat → Field.T 1)) (sums : List ((Nat × Nat) × Field.T 1)) (e : Nat → Field.T 1),
    (2 : Field.T 1) = 0 ∧ r.length = 2 ∧ (1 : Field.T 1) ∉ r ∧ sums ≠ [] ∧ ProductEqSums r tables sums ∧
    (∀ x < 2 ^ (2 - 1), e x = eqWeight (r.take (2 - 1)) x) ∧ ∃ q ∈ r, q ≠ 0 := by
  obtain ⟨z, hz0, hz1⟩ : ∃ z : Field.T 1, z ≠ 0 ∧ z ≠ 1 := by
    refine ⟨show Field.T 1 from (false, true), fun h => ?_, fun h => ?_⟩
    · exact absurd (congrArg (fun x : Bool × Bool => x.2) h) (by decide)
    · exact absurd (congrArg (fun x : Bool × Bool => x.2) h) (by decide)
  have hex : ∃ v, ProductEqSums [z, 0] [fun i => (i : Field.T 1), fun _ => 1] [((0, 1), v)] := by
    refine ⟨mle (fun v => (fun i : Nat => (i : Field.T 1)) v * (fun _ => 1) v) [z, 0], fun s hs => ?_⟩
    rw [List.mem_singleton] at hs
    subst hs
    exact ⟨_, _, rfl, rfl, rfl⟩
  obtain ⟨v, hv⟩ := hex
  refine ⟨[z, 0], [fun i => (i : Field.T 1), fun _ => 1], [((0, 1), v)], eqWeight [z], CharTwo.two_eq_zero, rfl, ?_,
    by simp, hv, fun x _ => rfl, z, List.mem_cons_self .., hz0⟩
  simp only [List.mem_cons, List.not_mem_nil, or_false, not_or]
  exact ⟨fun h => hz1 h.symm, one_ne_zero⟩

/-- There is an instance for all tables and sums. -/
example (n : Nat) (tables : List (Nat → F)) (sums : List ((Nat × Nat) × F)) : ∃ I, IsProductEqInstance n tables sums I :=
  ⟨⟨⟨n, tables.length, sums.map fun s => ⟨⟨tables.length, 2, fun q => .ok (q.getD s.1.1 0 * q.getD s.1.2 0)⟩, s.2⟩⟩,
    sums.map fun s => MvPolynomial.X s.1.1 * MvPolynomial.X s.1.2, tables⟩, rfl, rfl, List.map_map .., rfl, rfl⟩

/-- **C71.** What `finish` gives does not depend on the batching coefficient of the rounds, and the device memory allocated over
all the rounds is half of every table and a quarter of a table for the indicator. -/
theorem C71_rounds (h2 : (2 : F) = 0) (n : Nat) (r : List F) (sums : List ((Nat × Nat) × F)) (multilins : List (Nat × (Nat → F)))
    (e : Nat → F) (hr : r.length = n) (hr1 : (1 : F) ∉ r)
    (he : ∀ x < 2 ^ (n - 1), e x = eqWeight (r.take (n - 1)) x) (hs : ProductEqSums r (multilins.map Prod.snd) sums)
    (s : Mlecheck F) (hnew : Mlecheck.new n multilins.length sums multilins (2 ^ (n - 1), e) r = .ok s) (α : F) (folded : List F)
    (hl : folded.length = n) :
    ∃ s', s.rounds α folded = .ok s' ∧ s'.finish = s.toProver.finish folded ∧
      (2 ≤ n → s'.allocated = multilins.length * 2 ^ (n - 1) + 2 ^ (n - 2)) := by
  have hready := mle_ready n r (multilins.map Prod.snd) sums e hr he hs
  have hc := product_index hs
  unfold Mlecheck.new at hnew
  split at hnew
  · cases hnew
  split at hnew
  · cases hnew
  split at hnew
  · cases hnew
  injection hnew with hnew
  subst hnew
  have hd := hready α
  conv at hd => arg 2; rw [show n = 0 + folded.length by omega]
  have hd0 := hready 0
  conv at hd0 => arg 2; rw [show n = 0 + folded.length by omega]
  obtain ⟨s', e1, e3, e4⟩ := hd.rounds h2 hr1 hc folded
  obtain ⟨s'', g1, g3, -⟩ := hd0.rounds h2 hr1 hc folded
  refine ⟨s', e1, ?_, fun h => ?_⟩
  · show _ = (Mlecheck.rounds _ _ _).bind _
    rw [g1]
    simp only [Except.bind]
    rw [e3.finish, g3.finish]
  · rw [e4, if_neg (by rintro rfl; simp at hl; omega), Nat.zero_add, Nat.zero_add, hl]
    unfold foldAllocates
    rw [if_pos rfl, if_pos (by omega), List.length_map]

/-- **C71 (finding).** `required_device_memory` without room for the indicator is less than what the prover allocates, and with
it is enough. -/
theorem C71_device_memory (n m : Nat) (hn : 2 ≤ n) :
    ∃ a b, Mlecheck.requiredDeviceMemory n m true = some a ∧ Mlecheck.requiredDeviceMemory n m false = some b ∧
      a < m * 2 ^ (n - 1) + 2 ^ (n - 2) ∧ m * 2 ^ (n - 1) + 2 ^ (n - 2) ≤ b := by
  refine ⟨(m + 0) * 2 ^ (n - 1), (m + 1) * 2 ^ (n - 1), ?_, ?_, ?_, ?_⟩
  · unfold Mlecheck.requiredDeviceMemory
    rw [if_neg (by omega)]; rfl
  · unfold Mlecheck.requiredDeviceMemory
    rw [if_neg (by omega)]; rfl
  · have := Nat.two_pow_pos (n - 2)
    rw [Nat.add_zero]
    omega
  · have := Nat.pow_le_pow_right (n := 2) (by omega) (show n - 2 ≤ n - 1 by omega)
    rw [Nat.add_mul, Nat.one_mul]
    omega

/-- **C71.** `new` accepts exactly multilinears of the right number and size with an expanded indicator of the right size; it does
not look at the length of the point. -/
theorem C71_new (n m : Nat) (sums : List ((Nat × Nat) × F)) (multilins : List (Nat × (Nat → F))) (e : Nat × (Nat → F)) (r : List F) :
    (∃ s, Mlecheck.new n m sums multilins e r = .ok s) ↔
      m = multilins.length ∧ (∀ t ∈ multilins, t.1 = n) ∧ e.1 = 2 ^ (n - 1) := by
  have hany : (multilins.any (fun m => m.1 ≠ n) = true) ↔ ¬ ∀ t ∈ multilins, t.1 = n := by
    simp only [ne_eq, decide_not, List.any_eq_true, Bool.not_eq_eq_eq_not, Bool.not_true, decide_eq_false_iff_not, not_forall,
      exists_prop]
  unfold Mlecheck.new
  constructor
  · rintro ⟨s, hs⟩
    split at hs
    · cases hs
    next h1 =>
    split at hs
    · cases hs
    next h2 =>
    split at hs
    · cases hs
    next h3 => exact ⟨not_not.1 h1, not_not.1 fun h => h2 (hany.2 h), not_not.1 h3⟩
  · rintro ⟨h1, h2, h3⟩
    rw [if_neg (not_not.2 h1), if_neg (fun h => hany.1 h h2), if_neg (not_not.2 h3)]
    exact ⟨_, rfl⟩

/-- **C71.** The prover refuses calls out of turn: `fold` before `execute`, `execute` twice, `finish` between `execute` and `fold` or
before the last round, and `fold` after the last. -/
theorem C71_refuses (s : Mlecheck F) (coeffs : List F) (α c : F) :
    (s.nVarsRemaining = 0 → s.fold c = .error .expectedFinish) ∧
    (0 < s.nVarsRemaining → (∀ c, s.last ≠ .coeffs c) → s.fold c = .error .expectedExecution) ∧
    (0 < s.nVarsRemaining → (∀ c ∈ s.compositions, c.1 < s.multilins.length ∧ c.2 < s.multilins.length) →
      s.last = .coeffs coeffs → s.execute α = .error .expectedFold) ∧
    (s.last = .coeffs coeffs → s.finish = .error .expectedFold) ∧
    (0 < s.nVarsRemaining → (∀ c, s.last ≠ .coeffs c) → s.finish = .error .expectedExecution) := by
  refine ⟨fun h => ?_, fun h hl => ?_, fun h hc hl => ?_, fun hl => ?_, fun h hl => ?_⟩
  · unfold Mlecheck.fold
    rw [if_pos h]
  · unfold Mlecheck.fold
    rw [if_neg (by omega)]
    split
    next c hc => exact absurd hc (hl c)
    next => rfl
  · unfold Mlecheck.execute calculateEqRoundEvals
    rw [if_neg (by omega)]
    simp only
    rw [accumulateEq_ok _ _ _ _ _ _ _ (fun c hc' => by simpa using hc c hc')]
    simp only
    rw [accumulateEq_ok _ _ _ _ _ _ _ (fun c hc' => by simpa using hc c hc')]
    simp only
    rw [hl]
  · unfold Mlecheck.finish
    rw [hl]
  · unfold Mlecheck.finish
    split
    next c hc => exact absurd hc (hl c)
    next => rw [if_neg (by omega)]

/-- **C71 (findings).** `execute` panics on no variables, and in the first round if the point is too short. -/
theorem C71_panics (s : Mlecheck F) (α : F) :
    (s.nVarsRemaining = 0 → s.execute α = .error .panic) ∧
    ∀ (n : Nat) (sums : List ((Nat × Nat) × F)) (multilins : List (Nat × (Nat → F))) (e : Nat × (Nat → F)) (r : List F),
      Mlecheck.new n multilins.length sums multilins e r = .ok s → r.length < n → s.execute α = .error .panic := by
  constructor
  · intro h
    unfold Mlecheck.execute calculateEqRoundEvals
    rw [if_pos h]
  · intro n sums multilins e r hnew hlt
    unfold Mlecheck.new at hnew
    split at hnew
    · cases hnew
    split at hnew
    · cases hnew
    split at hnew
    · cases hnew
    injection hnew with hnew
    subst hnew
    have herr : ∀ (k : Nat) (rows : List (Nat → F)) (eq : Nat → F) (cs : List (Nat × Nat)) (p acc : F) (x : Error),
        accumulateEqProducts k rows eq α cs p acc = .error x → x = .panic := by
      intro k rows eq cs
      induction cs with
      | nil => intro p acc x h; cases h
      | cons c cs ih =>
        intro p acc x h
        unfold accumulateEqProducts sumEqProducts at h
        split at h
        next e' he' =>
          split at he'
          · cases he'
          · cases he'; cases h; rfl
        next a ha => exact ih _ _ _ h
    have hget : r[n - 1]? = none := List.getElem?_eq_none (by omega)
    unfold Mlecheck.execute
    split
    next x hx =>
      unfold calculateEqRoundEvals at hx
      split at hx
      · cases hx; rfl
      · simp only at hx
        split at hx
        next y hy => cases hx; exact congrArg _ (herr _ _ _ _ _ _ _ hy)
        next y hy =>
          split at hx
          next z hz => cases hx; exact congrArg _ (herr _ _ _ _ _ _ _ hz)
          next => cases hx
    next => simp only [hget]

/-- **C71 (finding).** For a claim without sums, `BivariateSumcheckProver` sends nothing, but this prover sends four coefficients,
where the degree of the claim is zero, so it is not honest. -/
theorem C71_no_sums (h2 : (2 : F) = 0) (n : Nat) (hn : 0 < n) (r : List F) (multilins : List (Nat × (Nat → F))) (e : Nat → F)
    (hr : r.length = n) (hr1 : (1 : F) ∉ r) (he : ∀ x < 2 ^ (n - 1), e x = eqWeight (r.take (n - 1)) x)
    (s : Mlecheck F) (hnew : Mlecheck.new n multilins.length [] multilins (2 ^ (n - 1), e) r = .ok s) :
    (∀ α, ∃ cs, s.toProver.execute [] α = .ok cs ∧ cs.length = 4) ∧
    ∀ I, IsProductEqInstance n (multilins.map Prod.snd) [] I → ¬ Honest s.toProver (I.regular r) := by
  have hs : ProductEqSums r (multilins.map Prod.snd) [] := fun s hs => (nomatch hs)
  have hready := mle_ready n r (multilins.map Prod.snd) [] e hr he hs
  unfold Mlecheck.new at hnew
  split at hnew
  · cases hnew
  split at hnew
  · cases hnew
  split at hnew
  · cases hnew
  injection hnew with hnew
  obtain ⟨k, rfl⟩ : ∃ k, n = k + 1 := ⟨n - 1, by omega⟩
  have hex : ∀ α, ∃ cs, s.toProver.execute [] α = .ok cs ∧ cs.length = 4 := by
    intro α
    subst hnew
    obtain ⟨prime, hp, -, hx, -⟩ := (hready α).execute h2 hr1 (product_index hs)
    refine ⟨timesEqLine (nextCoord .highToLow k r) 1 prime, ?_, by rw [timesEqLine_length, hp]⟩
    show (Mlecheck.execute _ _).map _ = _
    rw [hx]
    rfl
  refine ⟨hex, fun I hI hh => ?_⟩
  obtain ⟨cs, h3, h4, -⟩ := hh.execute [] 0 (by show 0 < I.claim.nVars; rw [hI.nVars]; omega)
  obtain ⟨cs', h5, h6⟩ := hex 0
  rw [h5] at h3
  injection h3 with h3
  subst h3
  have hd := hI.degrees
  rw [List.map_nil, List.map_eq_nil_iff] at hd
  have : (I.regular r).claim.maxIndividualDegree = 0 := by
    show (((I.claim.sums.map _).map fun s : CompositeSum F => s.composition.degree).max?).getD 0 = _
    rw [hd]; rfl
  omega

/-- **C71 (finding).** If a coordinate of the point is one, the value at zero cannot be computed from the sum: the prover divides
by zero and takes zero instead.  In one variable, with the table (1, 0), the point 1, and the claim that the sum of its square is
0, which is true, the prover is not honest, over every field with more than two elements. -/
theorem C71_coordinate_one (z : F) (hz0 : z ≠ 0) (hz1 : z ≠ 1) :
    ∃ s : Mlecheck F, Mlecheck.new 1 1 [((0, 0), 0)] [(1, fun x => if x = 0 then 1 else 0)] (1, fun _ => 1) [1] = .ok s ∧
      ProductEqSums [1] [fun x => if x = 0 then (1 : F) else 0] [((0, 0), 0)] ∧
      ∀ I, IsProductEqInstance 1 [fun x => if x = 0 then (1 : F) else 0] [((0, 0), 0)] I → ¬ Honest s.toProver (I.regular [1]) := by
  set T : Nat → F := fun x => if x = 0 then 1 else 0 with hT
  refine ⟨_, rfl, ?_, fun I hI hh => ?_⟩
  · intro s hs
    rw [List.mem_singleton] at hs
    subst hs
    refine ⟨_, _, rfl, rfl, ?_⟩
    simp [mle_singleton, hT]
  obtain ⟨cs, c1, -, c3⟩ := hh.execute [] 1 (by show 0 < I.claim.nVars; rw [hI.nVars]; omega)
  have hrun : cs = timesEqLine 1 1 [0, -1, 1] := by
    have : (Except.ok cs : Except Error (List F)) = .ok (timesEqLine 1 1 [0, -1, 1]) := by
      rw [← c1]
      simp [Mlecheck.toProver, Mlecheck.rounds, Except.bind, Mlecheck.execute, calculateEqRoundEvals, accumulateEqProducts,
        sumEqProducts, hT, eqRoundCoeffsFromEvals, evaluateUnivariate]
    exact Except.ok.inj this
  have hz := c3 z
  rw [← C19_evaluate_univariate, hrun, timesEqLine_eval] at hz
  have hIn : (I.regular [1]).claim.nVars = 1 := hI.nVars
  have hIt : (I.regular [1]).tables = [T, eqWeight [1]] := by
    show I.tables ++ [eqWeight (suffix I.claim.nVars [1])] = _
    rw [hI.tables, hI.nVars]
    rfl
  have hIp : (I.regular [1]).polys = [MvPolynomial.X 0 * MvPolynomial.X 0 * MvPolynomial.X 1] := by
    show I.polys.map _ = _
    rw [hI.polys, hI.nMultilinears]
    rfl
  have harr : ∀ o : EvaluationOrder, arrange o [z] = [z] := fun o => by cases o <;> rfl
  rw [hIn, hIt] at hz
  have hsum : ∀ g : MvPolynomial ℕ F → F, ∀ l, l = [MvPolynomial.X 0 * MvPolynomial.X 0 * MvPolynomial.X 1] →
      (∑ i : Fin l.length, (1 : F) ^ (i : Nat) * g l[i]) = g (MvPolynomial.X 0 * MvPolynomial.X 0 * MvPolynomial.X 1) := by
    rintro g l rfl
    simp
  simp only [List.length_nil, Nat.sub_self, Nat.sub_zero, pow_zero, Finset.sum_range_one, List.nil_append] at hz
  rw [hsum (fun g => evalAt g _) _ hIp] at hz
  simp only [vertex, List.range_zero, List.map_nil, harr, List.map_cons, mle_singleton] at hz
  rw [eqFn_eq, eval3] at hz
  simp [evalAt, hT, eqWeight_cons] at hz
  have h0 : z * (z - 1) = 0 := by linear_combination hz
  rcases mul_eq_zero.1 h0 with h | h
  · exact hz0 h
  · exact hz1 (sub_eq_zero.1 h)

/-- The hypotheses of `C71_coordinate_one` are met in the tower field with four elements. -/
example : ∃ z : Field.T 1, z ≠ 0 ∧ z ≠ 1 := by
  refine ⟨show Field.T 1 from (false, true), fun h => ?_, fun h => ?_⟩
  · exact absurd (congrArg (fun x : Bool × Bool => x.2) h) (by decide)
  · exact absurd (congrArg (fun x : Bool × Bool => x.2) h) (by decide)

end Verif.Sumcheck
