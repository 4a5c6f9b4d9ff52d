import Verif.Sumcheck.LemmasEqRound
import Verif.Sumcheck.PropsRegular
import Verif.Field.Tower

/-! C67: the sumcheck prover with an equality indicator, which leaves the indicator's current variable out of its round
polynomials until the end and treats constant suffixes apart, sends the round polynomials of the product with the indicator. -/

set_option linter.unusedSectionVars false

namespace Verif.Sumcheck

open Verif.Mle Verif.Univariate Verif.Tensor Verif.Fold Finset

variable {F D : Type} [Field F] [DecidableEq F] [Field D] [DecidableEq D]

/-! ## The state between the rounds -/

/-- The state of the prover after the rounds with the challenges `rs`, when a round polynomial is due. -/
structure EqDue (emb : D → F) (pts : Nat → D) (w : Nat) (order : EvaluationOrder) (N n : Nat) (r : List F)
    (tables : List (Nat → F)) (pairs : List (CompItem D F × ConstSuffix F)) (M : Nat) (rs : List F) (s : EqProver D F) : Prop where
  nVars : s.nVars = N
  challenges : s.challenges = r
  length : r.length = N
  holding : Holding w order N n tables M rs s.state
  comps : s.comps = pairs.map fun p => (p.1.comp, p.2)
  suffixes : ∀ p ∈ pairs, SuffixOk order N n rs tables p.1.comp p.2
  domains : s.domains = pairs.map fun p => p.1.dom
  good : ∀ p ∈ pairs, p.1.Good emb pts tables.length
  points : GoodPoints pts (pairs.map Prod.fst) s.state.points
  last : s.state.last = .sums (pairs.map fun p => eqSum order N n r rs tables p.1.poly)
  prefixed : s.prefixEval = eqInd (arrange order rs) (bound order n r)
  evals : ∀ k, n = k + 1 → EvalsOk w order k r s.partialEvals
  ones : ∀ l, s.ones = some l → ∀ k, n = k + 1 → l = pairs.map fun p => eqSum order N k r (rs ++ [1]) tables p.1.poly

theorem EqDue.alpha {emb : D → F} {pts : Nat → D} {w N n M : Nat} {order : EvaluationOrder} {r : List F}
    {tables : List (Nat → F)} {pairs : List (CompItem D F × ConstSuffix F)} {rs : List F} {s : EqProver D F}
    (h : EqDue emb pts w order N (n + 1) r tables pairs M rs s) :
    s.alpha = .ok (nextCoord order n r) ∧ s.later = rem order n r := by
  have htot := h.holding.total
  have hlen := h.length
  unfold EqProver.alpha EqProver.later
  rw [h.nVars, h.challenges, h.holding.vars, h.holding.ordered]
  dsimp only
  cases order with
  | lowToHigh =>
    refine ⟨?_, ?_⟩
    · rw [show N - (n + 1) = r.length - (n + 1) by omega, List.getElem?_eq_getElem (by omega)]
      simp only [orPanic, nextCoord]
      rw [List.getD_eq_getElem _ _ (by omega)]
    · simp only [rem]
      congr 1
      omega
  | highToLow =>
    refine ⟨?_, ?_⟩
    · dsimp only
      rw [if_pos (by omega), show r.length - 1 - (N - (n + 1)) = n by omega, List.getElem?_eq_getElem (by omega)]
      simp only [orPanic, nextCoord]
      rw [List.getD_eq_getElem _ _ (by omega)]
    · simp only [rem]
      congr 1
      omega

/-- The update of the suffix of an item. -/
def updated (order : EvaluationOrder) (n : Nat) (p : CompItem D F × ConstSuffix F) : CompItem D F × ConstSuffix F :=
  (p.1, match p.2.update order n with
    | .ok k => k
    | .error _ => p.2)

theorem EqDue.degrees {emb : D → F} {pts : Nat → D} {w N n M : Nat} {order : EvaluationOrder} {r : List F}
    {tables : List (Nat → F)} {pairs : List (CompItem D F × ConstSuffix F)} {rs : List F} {s : EqProver D F}
    (h : EqDue emb pts w order N n r tables pairs M rs s) :
    ∀ p ∈ pairs, p.1.comp.degree ≤ s.state.points.length + 2 := by
  intro p hp
  have hmem : p.1.comp.degree ∈ (pairs.map Prod.fst).map fun it => it.comp.degree :=
    List.mem_map_of_mem (List.mem_map_of_mem hp)
  have := (max?_spec _ (List.ne_nil_of_mem hmem)).2 _ hmem
  rw [h.points.length]
  omega

/-- The values that `execute` computes for an item. -/
noncomputable def roundVals (emb : D → F) (points : List D) (ones : Bool) (d : Nat) (R : Polynomial F) : List F :=
  (List.range' (if ones then 2 else 1) (d + 1 - if ones then 2 else 1)).map fun j =>
    if j = 2 then R.coeff d else R.eval (if j = 1 then 1 else emb (points.getD (j - 3) 0))

theorem EqDue.roundEvals {emb : D →+* F} {pts : Nat → D} {w N n M : Nat} (bits : Nat)
    {order : EvaluationOrder} {r : List F} {tables : List (Nat → F)} {pairs : List (CompItem D F × ConstSuffix F)} {rs : List F}
    {s : EqProver D F} (stale : Nat → Nat → Nat → F) (coeff : F) (h : EqDue emb pts w order N (n + 1) r tables pairs M rs s) :
    ∃ R : CompItem D F × ConstSuffix F → Polynomial F,
      (∀ p ∈ pairs, (R p).natDegree ≤ p.1.comp.degree ∧
        ∀ x, (R p).eval x = eqSum order N n r (rs ++ [x]) tables p.1.poly) ∧
      s.execute emb w bits stale coeff = (s.state.roundCoeffs (s.domains.zipIdx.map (eqInterpolator emb (nextCoord order n r) s.ones)) coeff
        (pairs.map fun p => roundVals emb s.state.points s.ones.isSome p.1.comp.degree (R p))).bind fun c =>
          .ok (timesEq (nextCoord order n r) s.prefixEval c.1, { s with
            state := c.2
            comps := (pairs.map (updated order (n + 1))).map fun p => (p.1.comp, p.2)
            ones := none }) := by
  have htot := h.holding.total
  obtain ⟨ha, hlater⟩ := h.alpha
  -- the tensor query
  obtain ⟨q, hq, hq'⟩ : ∃ q, s.state.query.or (Query.withCapacity w 0) = some q ∧
      ∀ m ∈ s.state.multilins, m.switchover? ≠ none → QueryOk w order q rs := by
    cases hsq : s.state.query with
    | none =>
      obtain ⟨q, hq, -⟩ := C17_with_capacity (F := F) w 0
      refine ⟨q, by rw [hq]; rfl, fun m hm hne => absurd hsq (h.holding.present m hm hne)⟩
    | some q => exact ⟨q, rfl, fun _ _ _ => (h.holding.query q hsq).1⟩
  have hdeg := h.degrees
  -- the suffixes
  have hupd : ∀ p ∈ pairs, p.2.update order (n + 1) = .ok (updated order (n + 1) p).2 := by
    intro p hp
    obtain ⟨k', e, -⟩ := update_ok order n p.2 (h.suffixes p hp).le
    unfold updated
    rw [e]
  have hcomps : collect (s.comps.map fun c => (c.2.update s.state.order s.state.nVars).bind fun k => .ok (c.1, k)) =
      .ok ((pairs.map (updated order (n + 1))).map fun p => (p.1.comp, p.2)) := by
    rw [h.comps, List.map_map, List.map_map, h.holding.ordered, h.holding.vars]
    refine collect_eq pairs _ _ fun p hp => ?_
    show (p.2.update order (n + 1)).bind _ = _
    rw [hupd p hp, ebind_ok]
    rfl
  set ev : CompItem D F × ConstSuffix F → Evaluator F := fun p =>
    eqEvaluator (n + 1) (rem order n r) s.partialEvals s.ones.isSome p.1.comp (updated order (n + 1) p).2 with hev
  have hround := fun (p : CompItem D F × ConstSuffix F) (hp : p ∈ pairs) =>
    eq_evals (emb := emb) (stale := stale) p.1 (h.good p hp) htot h.length h.holding.multilins hq'
      (subcubeVars_le w bits n q.nVars n) (subcubeVars_lt w bits n q.nVars n) (h.suffixes p hp) (hupd p hp)
      (h.evals n rfl) s.ones.isSome (es := pairs.map ev) (List.mem_map_of_mem hp) (hdeg p hp)
  choose! R hR1 hR2 hR3 using hround
  refine ⟨R, fun p hp => ⟨hR1 p hp, hR2 p hp⟩, ?_⟩
  let vals : CompItem D F × ConstSuffix F → List F := fun p =>
    roundVals emb s.state.points s.ones.isSome p.1.comp.degree (R p)
  have hcalc : calcRoundEvals emb w bits s.state.order s.state.nVars s.state.query s.state.multilins
      (((pairs.map (updated order (n + 1))).map fun p => (p.1.comp, p.2)).map fun c =>
        eqEvaluator s.state.nVars s.later s.partialEvals s.ones.isSome c.1 c.2) s.state.points stale = .ok (pairs.map vals) := by
    have hes : (((pairs.map (updated order (n + 1))).map fun p => (p.1.comp, p.2)).map fun c =>
        eqEvaluator s.state.nVars s.later s.partialEvals s.ones.isSome c.1 c.2) = pairs.map ev := by
      rw [List.map_map, List.map_map, h.holding.vars, hlater]
      rfl
    rw [hes]
    obtain ⟨hu1, hu2⟩ := unionRange_eq (n + 1) (rem order n r) s.partialEvals s.ones.isSome (fun p : CompItem D F × ConstSuffix F => p.1.comp)
      (fun p => (updated order (n + 1) p).2) pairs
    unfold calcRoundEvals
    rw [h.holding.vars, h.holding.ordered, if_neg (by omega), hq]
    dsimp only
    rw [if_neg]
    · rw [Nat.add_sub_cancel, List.map_map]
      refine collect_eq pairs _ _ fun p hp => ?_
      have hfirst : (unionRange (pairs.map ev)).1 = if s.ones.isSome then 2 else 1 := hu2 (List.ne_nil_of_mem hp)
      show evaluatorEvals _ _ _ _ _ _ _ _ _ _ (unionRange (pairs.map ev)).1 (ev p) = _
      rw [hfirst]
      exact hR3 p hp
    · rw [not_not, h.points.length]
      refine Eq.trans ?_ (congrArg (· - 3) hu1).symm
      rw [List.map_map]
      cases pairs with
      | nil => rfl
      | cons p pairs =>
        rw [if_neg (by simp)]
        show _ - 2 = (((p :: pairs).map fun p => p.1.comp.degree).max?).getD 0 + 1 - 3
        show (((p :: pairs).map fun p => p.1.comp.degree).max?).getD 0 - 2 = _
        omega
  unfold EqProver.execute
  rw [ha, ebind_ok, hcomps, ebind_ok, hcalc, ebind_ok]

theorem EqDue.execute {emb : D →+* F} {pts : Nat → D} (h0 : pts 0 = 0) (h1 : pts 1 = 1) {w N n M : Nat} (bits : Nat)
    {order : EvaluationOrder} {r : List F} {tables : List (Nat → F)} {pairs : List (CompItem D F × ConstSuffix F)} {rs : List F}
    {s : EqProver D F} (stale : Nat → Nat → Nat → F) (coeff : F) (h : EqDue emb pts w order N (n + 1) r tables pairs M rs s)
    (hα : nextCoord order n r ≠ 1) :
    ∃ R : CompItem D F × ConstSuffix F → Polynomial F,
      (∀ p ∈ pairs, (R p).natDegree ≤ p.1.comp.degree ∧
        ∀ x, (R p).eval x = eqSum order N n r (rs ++ [x]) tables p.1.poly) ∧
      s.execute emb w bits stale coeff = .ok (timesEq (nextCoord order n r) s.prefixEval
          (batchCoeffs coeff 1 [] (pairs.map fun p => coeffs (p.1.comp.degree + 1) (R p))),
        { s with
          state := { s.state with last := .coeffs (pairs.map fun p => coeffs (p.1.comp.degree + 1) (R p)) }
          comps := (pairs.map (updated order (n + 1))).map fun p => (p.1.comp, p.2)
          ones := none }) := by
  have htot := h.holding.total
  have hdeg := h.degrees
  obtain ⟨R, hR, he⟩ := h.roundEvals bits stale coeff
  refine ⟨R, hR, ?_⟩
  have hR1 := fun p hp => (hR p hp).1
  have hR2 := fun p hp => (hR p hp).2
  set vals : CompItem D F × ConstSuffix F → List F := fun p =>
    roundVals emb s.state.points s.ones.isSome p.1.comp.degree (R p) with hvals
  have hcoeffs : s.state.roundCoeffs (s.domains.zipIdx.map (eqInterpolator emb (nextCoord order n r) s.ones)) coeff (pairs.map vals) =
      .ok (batchCoeffs coeff 1 [] (pairs.map fun p => coeffs (p.1.comp.degree + 1) (R p)),
        { s.state with last := .coeffs (pairs.map fun p => coeffs (p.1.comp.degree + 1) (R p)) }) := by
    unfold ProverState.roundCoeffs
    rw [h.last]
    dsimp only
    have hcol : collect (List.zipWith (fun f (p : F × List F) => f p.1 p.2)
        (s.domains.zipIdx.map (eqInterpolator emb (nextCoord order n r) s.ones))
        ((pairs.map fun p => eqSum order N (n + 1) r rs tables p.1.poly).zip (pairs.map vals))) =
        .ok (pairs.map fun p => coeffs (p.1.comp.degree + 1) (R p)) := by
      have hzip : List.zipWith (fun f (p : F × List F) => f p.1 p.2)
          (s.domains.zipIdx.map (eqInterpolator emb (nextCoord order n r) s.ones))
          ((pairs.map fun p => eqSum order N (n + 1) r rs tables p.1.poly).zip (pairs.map vals)) =
          pairs.zipIdx.map fun p => eqInterpolator emb (nextCoord order n r) s.ones (p.1.1.dom, p.2)
            (eqSum order N (n + 1) r rs tables p.1.1.poly) (vals p.1) := by
        apply List.ext_getElem
        · simp [h.domains]
        · intro i hi1 hi2
          simp [h.domains]
      rw [hzip, collect_eq pairs.zipIdx _ (fun p => coeffs (p.1.1.comp.degree + 1) (R p.1))]
      · congr 1
        have := List.zipIdx_map_fst 0 pairs
        conv_rhs => rw [← this]
        rw [List.map_map]
        rfl
      · rintro ⟨p, i⟩ hpi
        have hpi' := List.mem_zipIdx_iff_getElem?.1 hpi
        dsimp only at hpi' ⊢
        have hp : p ∈ pairs := List.mem_of_getElem? hpi'
        have hg := h.good p hp
        have key := eq_coeffs (emb := emb) h0 h1 hg.positive hg.domain (hdeg p hp) h.points.value (R p) (hR1 p hp) (nextCoord order n r)
          (eqSum order N (n + 1) r rs tables p.1.poly) hα (by
            rw [hR2 p hp, hR2 p hp]
            exact eqSum_split order N n r rs tables p.1.poly htot h.length)
        unfold eqInterpolator
        cases ho : s.ones with
        | none =>
          dsimp only
          have : vals p = (List.range' 1 p.1.comp.degree).map fun j => if j = 2 then (R p).coeff p.1.comp.degree
              else (R p).eval (if j = 1 then 1 else emb (s.state.points.getD (j - 3) 0)) := by
            simp only [hvals, roundVals, ho, Option.isSome_none, Bool.false_eq_true, if_false, Nat.add_sub_cancel]
          rw [this]
          exact key
        | some l =>
          have hl := h.ones l ho n rfl
          have hli : l[i]? = some ((R p).eval 1) := by
            rw [hl, List.getElem?_map, hpi', Option.map_some, hR2 p hp]
          dsimp only
          rw [hli]
          dsimp only
          have : (R p).eval 1 :: vals p = (List.range' 1 p.1.comp.degree).map fun j => if j = 2 then (R p).coeff p.1.comp.degree
              else (R p).eval (if j = 1 then 1 else emb (s.state.points.getD (j - 3) 0)) := by
            obtain ⟨k, hk⟩ : ∃ k, p.1.comp.degree = k + 1 := ⟨p.1.comp.degree - 1, by have := hg.positive; omega⟩
            simp only [hvals, roundVals, ho, Option.isSome_some, if_true, hk]
            rw [List.range'_succ, List.map_cons, show k + 1 + 1 - 2 = k by omega]
            simp
          rw [this]
          exact key
    rw [if_neg (by simp [h.domains])]
    rw [hcol]
    rfl
  rw [he, hcoeffs, ebind_ok]

theorem EqDue.fold {emb : D →+* F} {pts : Nat → D} (h0 : pts 0 = 0) (h1 : pts 1 = 1) {w N n M : Nat} (bits : Nat)
    {order : EvaluationOrder} {r : List F} {tables : List (Nat → F)} {pairs : List (CompItem D F × ConstSuffix F)} {rs : List F}
    {s : EqProver D F} (stale : Nat → Nat → Nat → F) (coeff : F) (h : EqDue emb pts w order N (n + 1) r tables pairs M rs s)
    (hα : nextCoord order n r ≠ 1) (c : F) :
    ∃ p s', s.execute emb w bits stale coeff = .ok p ∧ p.2.fold w bits c = .ok s' ∧
      EqDue emb pts w order N n r tables (pairs.map (updated order (n + 1))) M (rs ++ [c]) s' := by
  have htot := h.holding.total
  have hlen := h.length
  obtain ⟨R, hR, he⟩ := h.execute h0 h1 bits stale coeff hα
  obtain ⟨ha, -⟩ := h.alpha
  have hhold : Holding w order N (n + 1) tables M rs
      { s.state with last := .coeffs (pairs.map fun p => coeffs (p.1.comp.degree + 1) (R p)) } := by
    obtain ⟨a1, a2, a3, a4, a5, a6, a7, a8⟩ := h.holding
    exact ⟨a1, a2, a3, a4, a5, a6, a7, a8⟩
  obtain ⟨st', f1, f2, f3, f4⟩ := fold_holding bits hhold _ rfl c
  -- the expanded equality indicator
  obtain ⟨e', g1, g2⟩ : ∃ e', foldPartialEqInd w order n s.partialEvals = some e' ∧ ∀ k, n = k + 1 → EvalsOk w order k r e' := by
    cases n with
    | zero => exact ⟨_, if_pos rfl, by omega⟩
    | succ k =>
      obtain ⟨e', g1, g2⟩ := foldPartialEqInd_ok w order k r (by omega) s.partialEvals (h.evals (k + 1) rfl)
      refine ⟨e', g1, fun k' hk' => ?_⟩
      obtain rfl : k = k' := by omega
      exact g2
  refine ⟨_, { s with
    state := st'
    comps := (pairs.map (updated order (n + 1))).map fun p => (p.1.comp, p.2)
    ones := none
    prefixEval := s.prefixEval * eqFn (nextCoord order n r) c
    partialEvals := e' }, he, ?_, ?_⟩
  · unfold EqProver.fold
    have ha' : EqProver.alpha { s with
          state := { s.state with last := .coeffs (pairs.map fun p => coeffs (p.1.comp.degree + 1) (R p)) }
          comps := (pairs.map (updated order (n + 1))).map fun p => (p.1.comp, p.2)
          ones := none } = .ok (nextCoord order n r) := ha
    rw [ha', ebind_ok]
    dsimp only
    have g1' : foldPartialEqInd w s.state.order (s.state.nVars - 1) s.partialEvals = some e' := by
      rw [h.holding.vars, h.holding.ordered, Nat.add_sub_cancel, g1]
    rw [if_neg (by rw [h.holding.vars]; omega), g1']
    dsimp only [orPanic] at f1 ⊢
    rw [ebind_ok, f1, ebind_ok]
  · have hmap : (pairs.map (updated order (n + 1))).map Prod.fst = pairs.map Prod.fst := by
      rw [List.map_map]
      rfl
    refine ⟨h.nVars, h.challenges, h.length, f2, rfl, ?_, ?_, ?_, ?_, ?_, ?_, g2, ?_⟩
    · intro p' hp'
      obtain ⟨p, hp, rfl⟩ := List.mem_map.1 hp'
      have hs := h.suffixes p hp
      obtain ⟨k', e, -⟩ := update_ok order n p.2 hs.le
      have : (updated order (n + 1) p).2 = k' := by unfold updated; rw [e]
      rw [this]
      exact hs.fold htot e c
    · show s.domains = _
      rw [List.map_map]
      exact h.domains
    · intro p' hp'
      obtain ⟨p, hp, rfl⟩ := List.mem_map.1 hp'
      exact h.good p hp
    · rw [hmap]
      show GoodPoints _ _ st'.points
      rw [f4]
      exact h.points
    · show st'.last = _
      rw [f3, List.map_map, List.map_map]
      congr 1
      refine List.map_congr_left fun p hp => ?_
      show evaluateUnivariate (coeffs _ _) c = _
      rw [coeffs_value _ _ (hR p hp).1, (hR p hp).2]
      rfl
    · show s.prefixEval * _ = _
      rw [prefix_succ order n r rs (by omega), h.prefixed]
    · intro l hl
      cases hl

theorem nextCoord_mem (order : EvaluationOrder) (n : Nat) (r : List F) (h : n < r.length) : nextCoord order n r ∈ r := by
  cases order with
  | lowToHigh => simp only [nextCoord]; rw [List.getD_eq_getElem _ _ (by omega)]; exact List.getElem_mem _
  | highToLow => simp only [nextCoord]; rw [List.getD_eq_getElem _ _ h]; exact List.getElem_mem _

theorem EqDue.rounds {emb : D →+* F} {pts : Nat → D} (h0 : pts 0 = 0) (h1 : pts 1 = 1) {w N n M : Nat} (bits : Nat)
    {order : EvaluationOrder} {r : List F} (hr : (1 : F) ∉ r) {tables : List (Nat → F)} {s : EqProver D F}
    (stale : Nat → Nat → Nat → F) (coeff : F) (cs : List F) {pairs : List (CompItem D F × ConstSuffix F)} {rs : List F}
    (h : EqDue emb pts w order N (n + cs.length) r tables pairs M rs s) :
    ∃ s' pairs', s.rounds emb w bits stale coeff cs = .ok s' ∧ pairs'.map Prod.fst = pairs.map Prod.fst ∧
      EqDue emb pts w order N n r tables pairs' M (rs ++ cs) s' := by
  induction cs generalizing rs s pairs with
  | nil => exact ⟨s, pairs, rfl, rfl, by simpa using h⟩
  | cons c cs ih =>
    have htot := h.holding.total
    have hlen := h.length
    rw [List.length_cons] at htot
    have hα : nextCoord order (n + cs.length) r ≠ 1 := fun e => hr (e ▸ nextCoord_mem order _ r (by omega))
    obtain ⟨p, s', e1, e2, e3⟩ := EqDue.fold h0 h1 bits stale coeff (n := n + cs.length) h hα c
    obtain ⟨s'', pairs', g1, g2, g3⟩ := ih e3
    refine ⟨s'', pairs', ?_, ?_, by simpa using g3⟩
    · rw [EqProver.rounds, e1, ebind_ok, e2, ebind_ok]
      exact g1
    · rw [g2, List.map_map]
      rfl

theorem EqDue.finish {emb : D →+* F} {pts : Nat → D} {w N M : Nat} {order : EvaluationOrder} {r : List F}
    {tables : List (Nat → F)} {pairs : List (CompItem D F × ConstSuffix F)} {s : EqProver D F} {rs : List F}
    (h : EqDue emb pts w order N 0 r tables pairs M rs s) :
    s.finish w = .ok ((tables ++ [eqWeight r]).map fun t => mle t (arrange order rs)) := by
  have htot := h.holding.total
  have hlen := h.length
  unfold EqProver.finish
  rw [finish_holding h.holding _ h.last, ebind_ok, List.map_append, List.map_singleton, h.prefixed]
  have hb : bound order 0 r = r := by cases order <;> simp [bound]
  have hal : (arrange order rs).length = r.length := by
    cases order <;> simp [arrange] <;> omega
  rw [mle_eqWeight _ _ hal, hb]

/-! ## Construction -/

theorem evals_ok (w : Nat) (order : EvaluationOrder) (r : List F) (tables : List (Nat → F)) (polys : List (MvPolynomial ℕ F))
    (b : EqBuilder F) (ht : Truthful w order r tables polys b) (hr : r.length = b.nVars) :
    ∃ e, b.evals w order r = .ok e ∧ ∀ k, b.nVars = k + 1 → EvalsOk w order k r e := by
  have hrem : ∀ k, b.nVars = k + 1 → others order r = rem order k r := by
    intro k hk
    cases order with
    | lowToHigh => simp only [others, rem]; congr 1; omega
    | highToLow => simp only [others, rem]; congr 1; omega
  unfold EqBuilder.evals
  cases hp : b.partialEvals with
  | some e =>
    obtain ⟨h1, h2⟩ := ht.partialEvals e hp
    dsimp only
    have : packedLen w e = 2 ^ (b.nVars - (w + 1)) := by
      unfold packedLen
      rw [h1, Nat.mul_div_cancel _ (Nat.two_pow_pos w)]
    rw [if_neg (by rw [this]; simp)]
    refine ⟨e, rfl, fun k hk => ⟨?_, fun x hx => ?_⟩⟩
    · rw [h1]
      congr 2
      omega
    · rw [h2 x (by rw [hk]; exact hx), hrem k hk]
  | none =>
    have hex : eqIndExpand w order r = eqIndPartialEval w (others order r) := by
      unfold eqIndExpand others
      cases order with
      | lowToHigh =>
        dsimp only
        congr 1
        cases r with
        | nil => rfl
        | cons a r => simp
      | highToLow => rfl
    obtain ⟨e, e1, e2, e3, -⟩ := eqIndPartialEval_eq w (others order r)
    dsimp only
    rw [hex, e1]
    refine ⟨e, rfl, fun k hk => ?_⟩
    have hl : (others order r).length = k := by rw [hrem k hk]; exact rem_length order k r (by omega)
    rw [hl] at e2 e3
    exact ⟨e2, fun x hx => by rw [e3 x hx, hrem k hk]⟩

theorem build_due {K : Type} [Field K] (hK : ∀ a : K, a + a = 0) (ι : K →+ D) (hι : Function.Injective ι)
    (sub : Subspace.BinarySubspace K) (hsub : sub.basis.length ≤ 64) (hind : Subspace.Independent sub.basis)
    (hone : ι (sub.get 1) = 1) (emb : D →+* F) (h2 : (1 : F) + 1 = 0) (chk : Bool) (w : Nat) (order : EvaluationOrder) (r : List F)
    (b : EqBuilder F) (tables : List (Nat → F)) (claims : List (Comp F × F)) (polys : List (MvPolynomial ℕ F))
    (hr : r.length = b.nVars) (ht : Truthful w order r tables polys b)
    (hc : TrueEqSums r tables claims polys) (hpos : ∀ c ∈ claims, 1 ≤ c.1.degree)
    (hdeg : ∀ c ∈ claims, (if 2 ≤ c.1.degree then c.1.degree else c.1.degree + 1) ≤ 2 ^ sub.basis.length)
    (hsmall : ∀ c ∈ claims, SmallPowers c.1.expr) :
    ∃ s M pairs, b.build chk w (Subspace.createDomain ι sub) order r claims = .ok s ∧
      EqDue emb (fun k => ι (sub.get k)) w order b.nVars b.nVars r tables pairs M [] s ∧
      pairs.map (fun p => p.1.poly) = polys ∧ pairs.map (fun p => p.1.comp) = claims.map Prod.fst ∧
      (∀ p ∈ pairs, p.1.poly.vars ⊆ range tables.length) ∧ s.ones = b.ones := by
  have hzero : ι (sub.get 0) = 0 := by
    have : sub.get 0 = 0 := by simp [Subspace.BinarySubspace.get]
    rw [this, map_zero]
  have hml : b.multilins.length = tables.length := ht.multilins.length_eq.symm
  have hrem : rem order b.nVars r = r := by
    cases order with
    | lowToHigh => simp [rem, hr]
    | highToLow => simp [rem, ← hr]
  -- the items
  have hitems : ∀ (cl : List (Comp F × F)) (ps : List (MvPolynomial ℕ F)),
      TrueEqSums r tables cl ps → (∀ c ∈ cl, 1 ≤ c.1.degree) →
      (∀ c ∈ cl, (if 2 ≤ c.1.degree then c.1.degree else c.1.degree + 1) ≤ 2 ^ sub.basis.length) →
      (∀ c ∈ cl, SmallPowers c.1.expr) →
      ∃ pairs : List (CompItem D F × ConstSuffix F), domainsFor (Subspace.createDomain ι sub) (cl.map fun c => c.1.degree) =
          .ok (pairs.map fun p => p.1.dom) ∧
        collect (cl.map fun c => orPanic (determineSuffix chk
          (sortSuffixes (b.multilins.map (SumMultilin.constSuffix w b.nVars))) c.1)) = .ok (pairs.map Prod.snd) ∧
        (∀ p ∈ pairs, p.1.Good emb (fun k => ι (sub.get k)) tables.length) ∧
        (∀ p ∈ pairs, SuffixOk order b.nVars b.nVars [] tables p.1.comp p.2) ∧
        pairs.map (fun p => p.1.poly) = ps ∧ pairs.map (fun p => p.1.comp) = cl.map Prod.fst ∧
        (∀ p ∈ pairs, p.1.poly.vars ⊆ range tables.length) ∧
        cl.map Prod.snd = pairs.map fun p => eqSum order b.nVars b.nVars r [] tables p.1.poly := by
    intro cl ps h hp hd hs
    induction h with
    | nil => exact ⟨[], rfl, rfl, by simp, by simp, rfl, rfl, by simp, rfl⟩
    | @cons c p cl ps hcp hrest ih =>
      obtain ⟨pairs, i1, i2, i3, i4, i5, i6, i7, i8⟩ := ih (fun c hc => hp c (List.mem_cons_of_mem _ hc))
        (fun c hc => hd c (List.mem_cons_of_mem _ hc)) fun c hc => hs c (List.mem_cons_of_mem _ hc)
      obtain ⟨dom, i, d1, d2, d3⟩ := create_good hK ι hι sub hsub hind emb c.1.degree (hd c (List.mem_cons_self ..))
      obtain ⟨k, k1, k2⟩ := determineSuffix_spec chk h2 w order b.nVars tables b.multilins ht.multilins c.1 hcp.1.built
        (by rw [hml]; exact hcp.2.1) (hs c (List.mem_cons_self ..))
      refine ⟨(⟨c.1, p, i⟩, k) :: pairs, ?_, ?_, ?_, ?_, ?_, ?_, ?_, ?_⟩
      · unfold domainsFor at i1 ⊢
        rw [List.map_cons, List.map_cons, d1]
        dsimp only
        rw [d2]
        dsimp only
        rw [collect, i1]
        rfl
      · rw [List.map_cons, k1]
        show collect (.ok k :: _) = _
        rw [collect, i2]
        rfl
      · intro it hit
        rcases List.mem_cons.1 hit with rfl | hit
        · exact ⟨hcp.1, hcp.2.1, hp c (List.mem_cons_self ..), d3⟩
        · exact i3 it hit
      · intro it hit
        rcases List.mem_cons.1 hit with rfl | hit
        · exact k2
        · exact i4 it hit
      · rw [List.map_cons, i5]
      · rw [List.map_cons, i6]; rfl
      · intro it hit
        rcases List.mem_cons.1 hit with rfl | hit
        · exact hcp.2.2.1
        · exact i7 it hit
      · rw [List.map_cons, List.map_cons, i8, hcp.2.2.2]
        unfold eqSum
        rw [hrem]
        simp only [cur_nil]
  obtain ⟨pairs, i1, i2, i3, i4, i5, i6, i7, i8⟩ := hitems claims polys hc hpos hdeg hsmall
  obtain ⟨points, p1, p2⟩ := nontrivialPoints_ok (F := F) emb (fun k => ι (sub.get k)) hzero hone tables.length (pairs.map Prod.fst)
    (fun it hit => by
      obtain ⟨p, hp, rfl⟩ := List.mem_map.1 hit
      exact i3 p hp)
  rw [List.map_map] at p1
  obtain ⟨st, M, s1, s2, s3, s4⟩ := new_holding w order b.nVars b.multilins (claims.map Prod.snd) points tables
    (ht.multilins.imp fun t m hm => by
      cases m with
      | transparent N t' so sfx =>
        obtain ⟨sv, sl⟩ := sfx
        obtain ⟨a1, a2, a3, a4⟩ := hm
        exact ⟨a1, a2, a3, a4⟩
      | folded evals sv =>
        obtain ⟨a1, a2⟩ := hm
        exact ⟨a1, fun x hx => by rw [cur_nil]; exact (a2 x hx).symm⟩)
  obtain ⟨e, e1, e2⟩ := evals_ok w order r tables polys b ht hr
  have hcl : claims.length = polys.length := hc.length_eq
  refine ⟨⟨b.nVars, st, 1, e, r, (claims.map Prod.fst).zip (pairs.map Prod.snd), pairs.map fun p => p.1.dom, b.ones⟩, M, pairs,
    ?_, ?_, i5, i6, i7, rfl⟩
  · unfold EqBuilder.build
    rw [if_neg (by rw [hr]; simp), e1, ebind_ok]
    have hones : ¬ (b.ones.any fun l => l.length ≠ claims.length) = true := by
      cases ho : b.ones with
      | none => simp
      | some l =>
        have := ht.ones l ho
        simp [this, hcl]
    rw [if_neg hones]
    have hfind : claims.find? (fun c => c.1.nVars != b.multilins.length) = none := by
      rw [List.find?_eq_none]
      intro c hc'
      have hmem : c.1 ∈ pairs.map fun p => p.1.comp := by rw [i6]; exact List.mem_map_of_mem hc'
      obtain ⟨p, hp, e⟩ := List.mem_map.1 hmem
      have := (i3 p hp).nVars
      rw [e] at this
      simp [this, hml]
    rw [hfind]
    dsimp only
    rw [i2, ebind_ok, i1, ebind_ok]
    have p1' : nontrivialPoints (pairs.map fun p => p.1.dom) = .ok points := p1
    rw [p1', ebind_ok, s1]
    rfl
  · refine ⟨rfl, rfl, hr, s2, ?_, i4, rfl, i3, ?_, ?_, ?_, e2, ?_⟩
    · show (claims.map Prod.fst).zip _ = _
      rw [← i6, List.zip_map']
    · show GoodPoints _ _ st.points
      rw [s4]
      exact p2
    · show st.last = _
      rw [s3, i8]
    · show (1 : F) = _
      have : bound order b.nVars r = [] := by
        cases order with
        | lowToHigh => simp [bound, hr]
        | highToLow => simp [bound, hr]
      rw [this]
      cases order <;> simp [arrange, eqInd]
    · intro l hl k hk
      rw [ht.ones l hl, ← i5, List.map_map]
      refine List.map_congr_left fun p _ => ?_
      show mle _ (others order r) = _
      have ho : others order r = rem order k r := by
        cases order with
        | lowToHigh => simp only [others, rem]; congr 1; omega
        | highToLow => simp only [others, rem]; congr 1; omega
      unfold eqSum
      rw [ho]
      congr 1
      funext x
      congr 1
      refine List.map_congr_left fun t _ => ?_
      have := cur_snoc order b.nVars k t [] (by simp; omega) 1 x
      rw [this, cur_nil, cur_nil]
      have hat : atOne order b.nVars x = half order k 1 x := by
        unfold atOne half
        cases order with
        | lowToHigh => rfl
        | highToLow => simp [hk]
      rw [hat]
      ring

/-! ## The properties -/

/-- **C67.** In characteristic 2, for every number of variables, all tables (given in full or folded, with true constant
suffixes), all compositions of positive degree and all true claims on the sums of the composites times the equality indicator of
a point none of whose coordinates is one; with a domain factory on a subspace that starts with 0 and 1 and has enough points;
whether or not the expanded indicator and the values at one of the first round are given; whatever the evaluation order, the
packing width, the switchover rounds, the sizes of the subcubes and the contents of the reused buffers: `build` succeeds, in every
round, whatever the challenges and the batching coefficient, `execute` gives the round polynomial of the batch of the products
with the indicator, and `finish` the evaluations of the multilinears and of the indicator at the challenges. -/
theorem C67_honest {K : Type} [Field K] (hK : ∀ a : K, a + a = 0) (ι : K →+ D) (hι : Function.Injective ι)
    (sub : Subspace.BinarySubspace K) (hsub : sub.basis.length ≤ 64) (hind : Subspace.Independent sub.basis)
    (hone : ι (sub.get 1) = 1) (emb : D →+* F) (h2 : (1 : F) + 1 = 0) (chk : Bool) (w bits : Nat) (order : EvaluationOrder) (r : List F)
    (b : EqBuilder F) (tables : List (Nat → F)) (claims : List (Comp F × F)) (polys : List (MvPolynomial ℕ F))
    (hr : r.length = b.nVars) (hr1 : (1 : F) ∉ r) (ht : Truthful w order r tables polys b)
    (hc : TrueEqSums r tables claims polys) (hpos : ∀ c ∈ claims, 1 ≤ c.1.degree)
    (hdeg : ∀ c ∈ claims, (if 2 ≤ c.1.degree then c.1.degree else c.1.degree + 1) ≤ 2 ^ sub.basis.length)
    (hsmall : ∀ c ∈ claims, SmallPowers c.1.expr) (stale : Nat → Nat → Nat → F) :
    ∃ s, b.build chk w (Subspace.createDomain ι sub) order r claims = .ok s ∧
      (s.toProver emb w bits stale).evaluationOrder = order ∧
      ∀ I, IsEqInstance b.nVars tables claims polys I → Honest (s.toProver emb w bits stale) (I.regular r) := by
  obtain ⟨s, M, pairs, hnew, hdue, hpolys, hcomps, hvars, -⟩ := build_due hK ι hι sub hsub hind hone emb h2 chk w order r b tables claims
    polys hr ht hc hpos hdeg hsmall
  have hzero : ι (sub.get 0) = 0 := by
    have : sub.get 0 = 0 := by simp [Subspace.BinarySubspace.get]
    rw [this, map_zero]
  set n := b.nVars with hn
  refine ⟨s, hnew, hdue.holding.ordered, fun I hI => ?_⟩
  have hord : (s.toProver emb w bits stale).evaluationOrder = order := hdue.holding.ordered
  have hInv : (I.regular r).claim.nVars = n := hI.nVars
  have hIt : (I.regular r).tables = tables ++ [eqWeight r] := by
    show I.tables ++ [eqWeight (suffix I.claim.nVars r)] = _
    rw [hI.tables, hI.nVars, suffix_full _ _ (by omega)]
  have hIp : (I.regular r).polys = polys.map fun p => p * MvPolynomial.X tables.length := by
    show I.polys.map _ = _
    rw [hI.polys, hI.nMultilinears]
  refine ⟨?_, fun folded coeff hlt => ?_, fun folded hl => ?_⟩
  · rw [hInv]
    exact hdue.nVars
  · rw [hInv] at hlt ⊢
    obtain ⟨k, hk⟩ : ∃ k, n = k + 1 + folded.length := ⟨n - folded.length - 1, by omega⟩
    have hdue' : EqDue emb (fun k => ι (sub.get k)) w order n (k + 1 + folded.length) r tables pairs M [] s := by
      rw [← hk]; exact hdue
    obtain ⟨s', pairs', e1, e2, e3⟩ := hdue'.rounds hzero hone bits hr1 stale coeff folded
    rw [List.nil_append] at e3
    have hα : nextCoord order k r ≠ 1 := fun e => hr1 (e ▸ nextCoord_mem order _ r (by omega))
    obtain ⟨R, hR, e4⟩ := e3.execute hzero hone bits stale coeff hα
    have hpolys' : pairs'.map (fun p => p.1.poly) = polys := by
      rw [← hpolys]
      have := congrArg (List.map fun it : CompItem D F => it.poly) e2
      rwa [List.map_map, List.map_map] at this
    refine ⟨timesEq (nextCoord order k r) s'.prefixEval
      (batchCoeffs coeff 1 [] (pairs'.map fun p => coeffs (p.1.comp.degree + 1) (R p))), ?_, ?_, fun x => ?_⟩
    · show (s.rounds emb w bits stale coeff folded).bind _ = _
      rw [e1, ebind_ok, e4]
      rfl
    · have hdg : (I.regular r).claim.maxIndividualDegree = (((pairs'.map fun p => p.1.comp.degree).map (· + 1)).max?).getD 0 := by
        have h1 : (pairs'.map fun p => p.1.comp.degree) = claims.map fun c => c.1.degree := by
          have a1 := congrArg (List.map fun it : CompItem D F => it.comp.degree) e2
          have a2 := congrArg (List.map fun c : Comp F => c.degree) hcomps
          rw [List.map_map, List.map_map] at a1 a2
          exact a1.trans a2
        show (((I.claim.sums.map _).map fun s : CompositeSum F => s.composition.degree).max?).getD 0 = _
        rw [h1, ← hI.degrees, List.map_map, List.map_map]
        rfl
      rw [timesEq_length, batchCoeffs_length, List.map_map, hdg, List.map_map]
      have : (List.length ∘ fun p : CompItem D F × ConstSuffix F => coeffs (p.1.comp.degree + 1) (R p)) =
          fun p => p.1.comp.degree + 1 := by
        funext p
        simp [coeffs]
      rw [this]
      simp only [List.length_nil, Nat.zero_max]
      rfl
    · rw [← C19_evaluate_univariate, timesEq_eval, batchCoeffs_eval, List.map_map, e3.prefixed,
        ← prefix_succ order k r folded (by omega) x]
      have h1 : pairs'.map ((fun c => evaluateUnivariate c x) ∘ fun p => coeffs (p.1.comp.degree + 1) (R p)) =
          polys.map fun p => eqSum order n k r (folded ++ [x]) tables p := by
        rw [← hpolys', List.map_map]
        refine List.map_congr_left fun p hp => ?_
        show evaluateUnivariate (coeffs _ _) x = _
        rw [coeffs_value _ _ (hR p hp).1, (hR p hp).2]
        rfl
      have h3 : eqInd (arrange order (folded ++ [x])) (bound order k r) *
          innerPowers coeff 1 (polys.map fun p => eqSum order n k r (folded ++ [x]) tables p) =
          innerPowers coeff 1 ((I.regular r).polys.map fun p => curSum order n k (folded ++ [x]) (I.regular r).tables p) := by
        rw [hIp, hIt, List.map_map, innerPowers_map, innerPowers_map, Finset.mul_sum]
        refine Finset.sum_congr rfl fun i _ => ?_
        have hv : polys[i].vars ⊆ range tables.length := by
          have hmem : polys[i] ∈ pairs.map fun p => p.1.poly := by rw [hpolys]; exact List.getElem_mem _
          obtain ⟨p, hp, e⟩ := List.mem_map.1 hmem
          rw [← e]
          exact hvars p hp
        show _ = _ * curSum order n k (folded ++ [x]) (tables ++ [eqWeight r]) (polys[i] * MvPolynomial.X tables.length)
        rw [curSum_eqSum order n k r (folded ++ [x]) tables _ (by rw [List.length_append, List.length_singleton]; omega) hr hv]
        ring
      rw [h1]
      simp only [evaluateUnivariate, List.foldr_nil, zero_add]
      rw [h3, innerPowers_map, show n - folded.length - 1 = k by omega, Finset.sum_comm]
      refine Finset.sum_congr rfl fun i _ => ?_
      rw [curSum_cube _ _ _ _ _ _ (by rw [List.length_append, List.length_singleton]; omega), hord]
      unfold cube
      rw [one_mul, Finset.mul_sum]
      refine Finset.sum_congr rfl fun b _ => ?_
      simp only [List.append_assoc, List.singleton_append]
  · rw [hInv] at hl
    have hdue' : EqDue emb (fun k => ι (sub.get k)) w order n (0 + folded.length) r tables pairs M [] s := by
      rw [Nat.zero_add, hl]; exact hdue
    obtain ⟨s', pairs', e1, e2, e3⟩ := hdue'.rounds hzero hone bits hr1 stale 0 folded
    rw [List.nil_append] at e3
    show (s.rounds emb w bits stale 0 folded).bind _ = _
    rw [e1, ebind_ok, e3.finish, hIt, hord]

/-! ## The builders -/

/-- **C67.** What `with_switchover` builds from multilinears is true of their tables. -/
theorem C67_with_switchover (w n : Nat) (order : EvaluationOrder) (r : List F) (polys : List (MvPolynomial ℕ F))
    (multilins : List (Nat × (Nat → F) × Nat)) (hm : ∀ m ∈ multilins, m.1 = n) (hne : multilins = [] → n = 0) :
    ∃ b, EqBuilder.withSwitchover multilins = .ok b ∧ b.nVars = n ∧ b.partialEvals = none ∧ b.ones = none ∧
      Truthful w order r (multilins.map fun m => m.2.1) polys b := by
  refine ⟨⟨n, none, none, multilins.map fun m => .transparent m.1 m.2.1 m.2.2 (0, 0)⟩, ?_, rfl, rfl, rfl, ?_, (by simp), (by simp)⟩
  · unfold EqBuilder.withSwitchover
    rw [equalNVars_ok _ n (by simpa using hm) (by simpa using hne), ebind_ok]
  · show List.Forall₂ _ _ (multilins.map _)
    rw [List.forall₂_map_left_iff, List.forall₂_map_right_iff]
    refine List.forall₂_same.2 fun m hm' => ?_
    exact ⟨hm m hm', fun _ _ => rfl, Nat.zero_le _, fun x h1 h2 => by omega⟩

/-- **C67.** What `without_switchover` builds is true of the tables given, with zeros where they end. -/
theorem C67_without_switchover (w n : Nat) (order : EvaluationOrder) (r : List F) (polys : List (MvPolynomial ℕ F))
    (multilins : List (Slice F)) (hm : ∀ m ∈ multilins, ∃ p, m.size = p * 2 ^ w ∧ p ≤ 2 ^ (n - w)) :
    (EqBuilder.withoutSwitchover n multilins).nVars = n ∧ (EqBuilder.withoutSwitchover n multilins).partialEvals = none ∧
      (EqBuilder.withoutSwitchover n multilins).ones = none ∧
      Truthful w order r (multilins.map fun m x => if x < m.size then m.val x else 0) polys
        (EqBuilder.withoutSwitchover n multilins) := by
  refine ⟨rfl, rfl, rfl, ?_, (by simp [EqBuilder.withoutSwitchover]), (by simp [EqBuilder.withoutSwitchover])⟩
  show List.Forall₂ _ _ (multilins.map _)
  rw [List.forall₂_map_left_iff, List.forall₂_map_right_iff]
  exact List.forall₂_same.2 fun m hm' => ⟨hm m hm', fun _ _ => rfl⟩

/-- **C67.** Constant suffixes that are true are accepted and kept true, as long as no folded multilinear has been cut before the
start of its suffix. -/
theorem C67_with_const_suffixes (w : Nat) (order : EvaluationOrder) (r : List F) (tables : List (Nat → F))
    (polys : List (MvPolynomial ℕ F)) (b : EqBuilder F) (ht : Truthful w order r tables polys b) (suffixes : List (F × Nat))
    (hs : TrueSuffixes b.nVars tables suffixes) (hfit : List.Forall₂ (SuffixFits b.nVars) suffixes b.multilins) :
    ∃ b', b.withConstSuffixes w suffixes = .ok b' ∧ b'.nVars = b.nVars ∧ b'.partialEvals = b.partialEvals ∧ b'.ones = b.ones ∧
      Truthful w order r tables polys b' := by
  have hl : suffixes.length = b.multilins.length := hfit.length_eq
  have hl2 : tables.length = suffixes.length := hs.length_eq
  refine ⟨{ b with multilins := List.zipWith (fun m s => SumMultilin.updateConstSuffix w b.nVars s m) b.multilins suffixes },
    ?_, rfl, rfl, rfl, ?_, ht.partialEvals, ht.ones⟩
  · unfold EqBuilder.withConstSuffixes
    rw [if_neg (by rw [hl]; simp), if_neg]
    rw [List.any_eq_true]
    rintro ⟨s, hmem, hgt⟩
    obtain ⟨i, hi, rfl⟩ := List.getElem_of_mem hmem
    have := ((List.forall₂_iff_get.1 hs).2 i (by omega) hi).1
    simp only [List.get_eq_getElem] at this
    rw [decide_eq_true_eq] at hgt
    omega
  · rw [List.forall₂_iff_get]
    refine ⟨by simp; omega, fun i h1 h2 => ?_⟩
    have hi : i < suffixes.length := by omega
    have hi' : i < b.multilins.length := by omega
    have a1 := (List.forall₂_iff_get.1 ht.multilins).2 i h1 hi'
    have a2 := (List.forall₂_iff_get.1 hs).2 i h1 hi
    have a3 := (List.forall₂_iff_get.1 hfit).2 i hi hi'
    simp only [List.get_eq_getElem, List.getElem_zipWith] at a1 a2 a3 ⊢
    generalize tables[i] = t at *
    generalize suffixes[i] = s at *
    generalize b.multilins[i] = m at *
    obtain ⟨sv', sl'⟩ := s
    obtain ⟨c1, c2⟩ := a2
    cases m with
    | transparent N t' so sfx =>
      obtain ⟨sv, sl⟩ := sfx
      obtain ⟨d1, d2, -, -⟩ := a1
      exact ⟨d1, d2, c1, c2⟩
    | folded evals sv =>
      obtain ⟨⟨p, hp, hple⟩, d2⟩ := a1
      have hpl : packedLen w evals = p := by
        unfold packedLen
        rw [hp, Nat.mul_div_cancel _ (Nat.two_pow_pos w)]
      show (∃ p, min (packedLen w evals) (divCeil (2 ^ b.nVars - sl') (2 ^ w)) * 2 ^ w = p * 2 ^ w ∧ _) ∧ _
      rw [hpl]
      refine ⟨⟨_, rfl, (min_le_left _ _).trans hple⟩, fun x hx => ?_⟩
      show t x = if x < min p (divCeil (2 ^ b.nVars - sl') (2 ^ w)) * 2 ^ w then evals.val x else sv'
      set c := divCeil (2 ^ b.nVars - sl') (2 ^ w) with hc
      have hcb : 2 ^ b.nVars - sl' ≤ c * 2 ^ w := (divCeil_bounds _ _ (Nat.two_pow_pos w)).1
      have hmin : min p c * 2 ^ w = min (p * 2 ^ w) (c * 2 ^ w) := by
        rw [Nat.mul_comm, ← Nat.mul_min_mul_left, Nat.mul_comm, Nat.mul_comm c]
      rw [hmin]
      by_cases hlt : x < min (p * 2 ^ w) (c * 2 ^ w)
      · rw [if_pos hlt, d2 x hx, if_pos (by rw [hp]; omega)]
      · rw [if_neg hlt]
        rcases Nat.lt_or_ge x (c * 2 ^ w) with h | h
        · have hge : evals.size ≤ x := by rw [hp]; omega
          rcases (show sv = sv' ∨ 2 ^ b.nVars - sl' ≤ evals.size from a3) with e | e
          · rw [d2 x hx, if_neg (by omega), e]
          · exact c2 x (by omega) hx
        · exact c2 x (by omega) hx

/-- **C67.** The builder refuses what does not fit: `build` succeeds only if there is a coordinate for each variable, the expanded
indicator given has half the size of the cube, there is a value at one for each claim, and each composition takes all
multilinears; `with_const_suffixes` succeeds exactly if there is a suffix for each multilinear and none is longer than the cube. -/
theorem C67_refuses (chk : Bool) (w : Nat) (create : Nat → Except Univariate.Error (Domain D)) (order : EvaluationOrder) (r : List F)
    (claims : List (Comp F × F)) (b : EqBuilder F) :
    (∀ s, b.build chk w create order r claims = .ok s → r.length = b.nVars ∧
      (∀ e, b.partialEvals = some e → e.size / 2 ^ w = 2 ^ (b.nVars - (w + 1))) ∧
      (∀ l, b.ones = some l → l.length = claims.length) ∧ ∀ c ∈ claims, c.1.nVars = b.multilins.length) ∧
    ∀ suffixes, ((∃ b', b.withConstSuffixes w suffixes = .ok b') ↔
      suffixes.length = b.multilins.length ∧ ∀ s ∈ suffixes, s.2 ≤ 2 ^ b.nVars) := by
  refine ⟨fun s hs => ?_, fun suffixes => ?_⟩
  · unfold EqBuilder.build at hs
    split at hs
    · cases hs
    rename_i hl
    cases he : b.evals w order r with
    | error e => rw [he] at hs; cases hs
    | ok evals =>
      rw [he, ebind_ok] at hs
      split at hs
      · cases hs
      rename_i ho
      split at hs
      · cases hs
      rename_i hfind
      refine ⟨not_not.1 hl, fun e hb => ?_, fun l hb => ?_, fun c hc => ?_⟩
      · unfold EqBuilder.evals at he
        rw [hb] at he
        dsimp only at he
        split at he
        · cases he
        · rename_i h; exact not_not.1 h
      · rw [hb] at ho
        simpa using ho
      · simpa using List.find?_eq_none.1 hfind c hc
  · unfold EqBuilder.withConstSuffixes
    constructor
    · rintro ⟨b', h⟩
      split at h
      · cases h
      rename_i hl
      split at h
      · cases h
      rename_i ha
      refine ⟨not_not.1 hl, fun s hs => ?_⟩
      by_contra hlt
      exact ha (List.any_eq_true.2 ⟨s, hs, decide_eq_true (by omega)⟩)
    · rintro ⟨h1, h2⟩
      rw [if_neg (not_not.2 h1), if_neg]
      · exact ⟨_, rfl⟩
      · rw [List.any_eq_true]
        rintro ⟨s, hs, hgt⟩
        have := h2 s hs
        rw [decide_eq_true_eq] at hgt
        omega

theorem noPow_small (c : Arith.Circuit F) (h : ∀ s ∈ c, ∀ b e, s ≠ .pow b e) : SmallExponents c := by
  refine ⟨fun _ => 1, fun _ => ⟨le_refl 1, by norm_num⟩, fun j s hj => ?_⟩
  have := h s (List.mem_of_getElem? hj)
  cases s with
  | pow b e => exact absurd rfl (this b e)
  | _ => simp [WeightOk]

/-- Non-vacuity of `C67_honest`: the product of two multilinears in two variables over `ZMod 2`, one with a constant suffix, at a
point without a coordinate one. -/
example : ∃ (ι : ZMod 2 →+ ZMod 2) (sub : Subspace.BinarySubspace (ZMod 2)) (b : EqBuilder (ZMod 2)) (tables : List (Nat → ZMod 2))
    (claims : List (Comp (ZMod 2) × ZMod 2)) (polys : List (MvPolynomial ℕ (ZMod 2))),
    (∀ a : ZMod 2, a + a = 0) ∧ Function.Injective ι ∧ sub.basis.length ≤ 64 ∧ Subspace.Independent sub.basis ∧
    ι (sub.get 1) = 1 ∧ b.nVars = 2 ∧ (1 : ZMod 2) ∉ [(0 : ZMod 2), 0] ∧ Truthful 0 .lowToHigh [0, 0] tables polys b ∧
    TrueEqSums [0, 0] tables claims polys ∧ tables.length = 2 ∧ claims.length = 1 ∧ (∀ c ∈ claims, c.1.degree = 2) ∧
    (∀ c ∈ claims, (if 2 ≤ c.1.degree then c.1.degree else c.1.degree + 1) ≤ 2 ^ sub.basis.length) ∧
    (∃ m ∈ b.multilins, (m.constSuffix 0 2).2 = 3) ∧ ∀ c ∈ claims, SmallPowers c.1.expr := by
  refine ⟨AddMonoidHom.id _, ⟨[1]⟩, ⟨2, none, none, [.transparent 2 (fun _ => 1) 1 (1, 0), .folded ⟨1, fun _ => 1⟩ 0]⟩,
    [fun _ => 1, fun i => if i = 0 then 1 else 0],
    [(⟨2, 2, Arith.mul (Arith.var 0) (Arith.var 1), fun q => Arith.evaluate (Arith.mul (Arith.var 0) (Arith.var 1)) q⟩, 1)],
    [MvPolynomial.X 0 * MvPolynomial.X 1], by decide, Function.injective_id, by simp, independent_one, by decide, rfl, by decide,
    ⟨?_, by simp, by simp⟩, ?_, rfl, rfl, by simp, by simp, ⟨_, List.mem_cons_of_mem _ (List.mem_cons_self ..), rfl⟩, ?_⟩
  · refine .cons ⟨rfl, fun _ _ => rfl, Nat.zero_le _, fun x h1 h2 => ?_⟩ (.cons ⟨⟨1, rfl, by norm_num⟩, fun x _ => ?_⟩ .nil)
    · dsimp only at h1 h2; omega
    · dsimp only
      by_cases h : x = 0 <;> simp [h]
  · refine .cons ⟨⟨.mul (.var 0) (.var 1), by decide, by decide, fun q hq => product_value q hq, fun q hq => product_value q hq⟩, rfl, ?_, ?_⟩ .nil
    · intro i hi
      have := (MvPolynomial.vars_mul _ _) hi
      simp only [MvPolynomial.vars_X, Finset.mem_union, Finset.mem_singleton] at this
      simp; omega
    · simp [mle_cons, mle_nil, evalAt]
  · intro c hc
    rw [List.mem_singleton.1 hc]
    refine ⟨noPow_small _ (by simp [Arith.mul, Arith.var, Arith.addOffset, Arith.Step.relabel]), fun lt hlt => noPow_small _ ?_⟩
    have : lt = Arith.mul (Arith.var 0) (Arith.var 1) := (Option.some.inj hlt).symm
    subst this
    simp [Arith.mul, Arith.var, Arith.addOffset, Arith.Step.relabel]

/-! ## Findings -/

theorem var_small (i : Nat) : SmallPowers (Arith.var i : Arith.Circuit F) := by
  have h : SmallExponents (Arith.var i : Arith.Circuit F) := by
    refine ⟨fun _ => 1, fun _ => ⟨le_refl 1, by norm_num⟩, fun j s hj => ?_⟩
    have : s = .var i := by
      have := List.mem_of_getElem? hj
      simpa [Arith.var] using this
    subst this
    exact True.intro
  refine ⟨h, fun lt hlt => ?_⟩
  have : lt = Arith.var i := (Option.some.inj hlt).symm
  subst this
  exact h

theorem var_computes : Computes (⟨1, 1, Arith.var 0, fun q => q[0]?⟩ : Comp F) (MvPolynomial.X 0) := by
  have key : ∀ q : List F, q.length = 1 → q[0]? = some (evalAt (MvPolynomial.X 0) q) := by
    intro q hq
    match q, hq with
    | [a], _ => simp [evalAt]
  refine ⟨.var 0, Nat.le_refl 1, rfl, key, fun q hq => ?_⟩
  rw [← key q hq]
  match q, hq with
  | [a], _ => rfl

/-- **C67.** If a coordinate of the point is one, the value at zero cannot be computed from the sum: the prover divides by zero and
takes zero instead.  In one variable, with the table (1, 0), the point 1, and the claim that the sum is 0, which is true, `build`
succeeds and the prover is not honest, over every field of characteristic 2 with more than two elements. -/
theorem C67_coordinate_one {K : Type} [Field K] (hK : ∀ a : K, a + a = 0) (ι : K →+ D) (hι : Function.Injective ι)
    (sub : Subspace.BinarySubspace K) (hsub : sub.basis.length ≤ 64) (hind : Subspace.Independent sub.basis)
    (hone : ι (sub.get 1) = 1) (hlen : 1 ≤ sub.basis.length) (emb : D →+* F) (h2 : (1 : F) + 1 = 0) (z : F) (hz0 : z ≠ 0) (hz1 : z ≠ 1)
    (chk : Bool) (w bits : Nat) (order : EvaluationOrder) (stale : Nat → Nat → Nat → F) :
    ∃ (c : Comp F) (b : EqBuilder F) (s : EqProver D F), Computes c (MvPolynomial.X 0) ∧
      TrueEqSums [1] [fun x => if x = 0 then 1 else 0] [(c, 0)] [MvPolynomial.X 0] ∧
      Truthful w order [1] [fun x => if x = 0 then 1 else 0] [MvPolynomial.X 0] b ∧
      b.build chk w (Subspace.createDomain ι sub) order [1] [(c, 0)] = .ok s ∧
      ∀ I, IsEqInstance 1 [fun x => if x = 0 then 1 else 0] [(c, 0)] [MvPolynomial.X 0] I →
        ¬ Honest (s.toProver emb w bits stale) (I.regular [1]) := by
  set T : Nat → F := fun x => if x = 0 then 1 else 0 with hT
  obtain ⟨b, b1, b2, b3, b4, b5⟩ := C67_with_switchover w 1 order [(1 : F)] [MvPolynomial.X 0] [(1, T, 0)] (by simp) (by simp)
  have hsums : TrueEqSums [1] [T] [((⟨1, 1, Arith.var 0, fun q => q[0]?⟩ : Comp F), (0 : F))] [MvPolynomial.X 0] := by
    refine .cons ⟨var_computes, rfl, by simp [MvPolynomial.vars_X], ?_⟩ .nil
    simp [mle_singleton, evalAt, hT]
  obtain ⟨s, M, pairs, e1, e2, e3, e4, -, e5⟩ := build_due hK ι hι sub hsub hind hone emb h2 chk w order [(1 : F)] b [T] _ _
    (by rw [b2]; rfl) b5 hsums (by simp) (by
      simp
      exact (Nat.pow_le_pow_right (by omega) hlen : 2 ^ 1 ≤ _)) (by
      intro c hc
      rw [List.mem_singleton.1 hc]
      exact var_small 0)
  refine ⟨_, b, s, var_computes, hsums, b5, e1, fun I hI hh => ?_⟩
  rw [b2] at e2
  rw [b4] at e5
  obtain ⟨R, hR, he⟩ := e2.roundEvals (n := 0) bits stale 1
  obtain ⟨cs, c1, -, c3⟩ := hh.execute [] 1 (by show 0 < I.claim.nVars; rw [hI.nVars]; omega)
  obtain ⟨p, rfl⟩ : ∃ p, pairs = [p] := by
    have := congrArg List.length e3
    rw [List.length_map] at this
    exact List.length_eq_one_iff.1 this
  have hp : p ∈ [p] := List.mem_cons_self ..
  have hcomp : p.1.comp = ⟨1, 1, Arith.var 0, fun q => q[0]?⟩ := by simpa using e4
  have hpoly : p.1.poly = MvPolynomial.X 0 := by simpa using e3
  have hdeg : p.1.comp.degree = 1 := by rw [hcomp]
  have hα : nextCoord order 0 [(1 : F)] = 1 := by cases order <;> rfl
  have hrem : rem order 0 [(1 : F)] = [] := by cases order <;> rfl
  have hR1 : (R p).eval 1 = 0 := by
    rw [(hR p hp).2, hpoly]
    unfold eqSum
    rw [hrem, mle_nil]
    have := cur_snoc order 1 0 T [] rfl 1 0
    rw [List.nil_append] at this ⊢
    simp only [evalAt, List.map_cons, List.map_nil, MvPolynomial.eval_X, List.getD_cons_zero]
    rw [this, cur_nil, cur_nil]
    cases order <;> simp [half, hT]
  have hint := (e2.good p hp).domain.interpolate 0 (by simp)
  rw [hdeg] at hint
  have hvals : roundVals emb s.state.points s.ones.isSome p.1.comp.degree (R p) = [0] := by
    rw [hdeg, e5]
    simp [roundVals, List.range'_succ, hR1]
  have hrc : s.state.roundCoeffs (s.domains.zipIdx.map (eqInterpolator emb (nextCoord order 0 [1]) s.ones)) 1
      [roundVals emb s.state.points s.ones.isSome p.1.comp.degree (R p)] =
      .ok (batchCoeffs 1 1 [] [coeffs 2 0], { s.state with last := .coeffs [coeffs 2 0] }) := by
    unfold ProverState.roundCoeffs
    rw [e2.last, e2.domains, hvals, hα, e5]
    have : eqInterpolator emb (1 : F) none (p.1.dom, 0) (eqSum order 1 1 [1] [] [T] p.1.poly) [0] = .ok (coeffs 2 0) := by
      unfold eqInterpolator eqCoeffs
      dsimp only
      rw [sub_self, inv_zero, mul_zero]
      have h' : reorderEvals [(0 : F), 0] = (List.range (if 2 ≤ 1 then 1 else 1 + 1)).map (fun k => (0 : Polynomial F).eval (emb (ι (sub.get k)))) ++
          if 2 ≤ 1 then [(0 : Polynomial F).coeff 1] else [] := by
        simp [reorderEvals, List.range_succ]
      rw [h', hint]
    simp only [List.map_cons, List.map_nil, List.zipIdx_cons, List.zipIdx_nil, List.length_cons, List.length_nil, ne_eq, not_true_eq_false,
      if_false, List.zip_cons_cons, List.zip_nil_left, List.zipWith_cons_cons, List.zipWith_nil_left]
    rw [this]
    rfl
  have hrun : (s.toProver emb w bits stale).execute [] 1 = .ok (timesEq 1 s.prefixEval (batchCoeffs 1 1 [] [coeffs 2 0])) := by
    have : (s.toProver emb w bits stale).execute [] 1 = (s.execute emb w bits stale 1).bind fun p => .ok p.1 := rfl
    rw [this]
    rw [he, List.map_cons, List.map_nil, hrc, ebind_ok, ebind_ok, hα]
  rw [hrun] at c1
  have hcs := Except.ok.inj c1
  have hz := c3 z
  rw [← C19_evaluate_univariate, ← hcs, timesEq_eval, batchCoeffs_eval] at hz
  have hzero : evaluateUnivariate (coeffs 2 (0 : Polynomial F)) z = 0 := by
    have := coeffs_value (0 : Polynomial F) 1 (by simp) z
    rw [Polynomial.eval_zero] at this
    exact this
  have hIn : (I.regular [1]).claim.nVars = 1 := hI.nVars
  have hIt : (I.regular [1]).tables = [T, eqWeight [1]] := by
    show I.tables ++ [eqWeight (suffix I.claim.nVars [1])] = _
    rw [hI.tables, hI.nVars]
    rfl
  have hIp : (I.regular [1]).polys = [MvPolynomial.X 0 * MvPolynomial.X 1] := by
    show I.polys.map _ = _
    rw [hI.polys, hI.nMultilinears]
    rfl
  have harr : ∀ o : EvaluationOrder, arrange o [z] = [z] := fun o => by cases o <;> rfl
  rw [hIn, hIt] at hz
  have hsum : ∀ g : MvPolynomial ℕ F → F, ∀ l, l = [MvPolynomial.X 0 * MvPolynomial.X 1] →
      (∑ i : Fin l.length, (1 : F) ^ (i : Nat) * g l[i]) = g (MvPolynomial.X 0 * MvPolynomial.X 1) := by
    rintro g l rfl
    simp
  simp only [List.length_nil, Nat.sub_self, Nat.sub_zero, pow_zero, Finset.sum_range_one, List.nil_append] at hz
  rw [hsum (fun g => evalAt g _) _ hIp] at hz
  simp only [vertex, List.range_zero, List.map_nil, harr, List.map_cons, mle_singleton] at hz
  rw [hzero] at hz
  simp [evaluateUnivariate, innerPowers, evalAt, hT, eqWeight_cons] at hz
  rcases hz with hz | hz
  · exact hz1 (sub_eq_zero.1 hz).symm
  · exact hz0 hz

/-- Non-vacuity of `C67_coordinate_one`: the tower field with four elements. -/
example : ∃ (ι : ZMod 2 →+ ZMod 2) (sub : Subspace.BinarySubspace (ZMod 2)) (_ : ZMod 2 →+* Field.T 1) (z : Field.T 1),
    (∀ a : ZMod 2, a + a = 0) ∧ Function.Injective ι ∧ sub.basis.length ≤ 64 ∧ Subspace.Independent sub.basis ∧
    ι (sub.get 1) = 1 ∧ 1 ≤ sub.basis.length ∧ (1 : Field.T 1) + 1 = 0 ∧ z ≠ 0 ∧ z ≠ 1 := by
  refine ⟨AddMonoidHom.id _, ⟨[1]⟩, ZMod.castHom (dvd_refl 2) (Field.T 1), (show Field.T 1 from (false, true)), by decide,
    Function.injective_id, by simp, independent_one, by decide, by simp, CharTwo.add_self_eq_zero _, fun h => ?_, fun h => ?_⟩
  · have := congrArg (fun x : Bool × Bool => x.2) h
    exact absurd this (by decide)
  · have := congrArg (fun x : Bool × Bool => x.2) h
    exact absurd this (by decide)

/-- **C67.** A suffix of length 0 says nothing, but given for a folded multilinear that has been cut short it changes the values
that have been cut: the table (1, 0), cut to its first entry, becomes (1, 1) by the suffix of no ones. -/
theorem C67_empty_suffix : ∃ b' : EqBuilder (ZMod 2),
    Truthful 0 .lowToHigh [0] [fun x => if x = 0 then (1 : ZMod 2) else 0] [] (EqBuilder.withoutSwitchover 1 [⟨1, fun _ => 1⟩]) ∧
    TrueSuffixes 1 [fun x => if x = 0 then (1 : ZMod 2) else 0] [(1, 0)] ∧
    (EqBuilder.withoutSwitchover 1 [⟨1, fun _ => 1⟩]).withConstSuffixes 0 [((1 : ZMod 2), 0)] = .ok b' ∧
    ¬ Truthful 0 .lowToHigh [0] [fun x => if x = 0 then (1 : ZMod 2) else 0] [] b' ∧
    Truthful 0 .lowToHigh [0] [fun _ => (1 : ZMod 2)] [] b' := by
  refine ⟨⟨1, none, none, [.folded ⟨1, fun _ => 1⟩ 1]⟩, ⟨.cons ⟨⟨1, rfl, Nat.one_le_two_pow⟩, fun x _ => ?_⟩ .nil, by simp [EqBuilder.withoutSwitchover], by simp [EqBuilder.withoutSwitchover]⟩,
    .cons ⟨Nat.zero_le _, fun x h1 h2 => by dsimp only at h1 h2; omega⟩ .nil, rfl, fun h => ?_,
    ⟨.cons ⟨⟨1, rfl, by norm_num⟩, fun x _ => ?_⟩ .nil, by simp, by simp⟩⟩
  · dsimp only
    by_cases h : x = 0 <;> simp [h]
  · obtain ⟨-, h2⟩ := (List.forall₂_cons.1 h.multilins).1
    have := h2 1 (by norm_num)
    simp at this
  · dsimp only
    split <;> rfl

end Verif.Sumcheck
