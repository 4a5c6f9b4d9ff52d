import Verif.Sumcheck.LemmasRegular
import Mathlib.Algebra.Field.ZMod
import Mathlib.Data.ZMod.Basic

/-! C66: the sumcheck prover for sums of composites of multilinears, with its switchover from the tables it was given to
folded ones, sends the round polynomials and gives the evaluations at the challenges. -/

set_option linter.unusedSectionVars false

namespace Verif.Sumcheck

open Verif.Mle Verif.Univariate Verif.Tensor Verif.Fold Finset

variable {F D : Type} [Field F] [DecidableEq F] [Field D] [DecidableEq D]

/-! ## The batch of the coefficients -/

theorem batchCoeffs_eval (α x : F) : ∀ (cs : List (List F)) (p : F) (acc : List F),
    evaluateUnivariate (batchCoeffs α p acc cs) x =
      evaluateUnivariate acc x + innerPowers α p (cs.map fun c => evaluateUnivariate c x) := by
  intro cs
  induction cs with
  | nil => intro p acc; simp [batchCoeffs, innerPowers]
  | cons c cs ih =>
    intro p acc
    rw [batchCoeffs, ih, addCoeffs_eval, scaleCoeffs_eval, List.map_cons, innerPowers]
    ring

theorem batchCoeffs_length (α : F) : ∀ (cs : List (List F)) (p : F) (acc : List F),
    (batchCoeffs α p acc cs).length = max acc.length (((cs.map List.length).max?).getD 0) := by
  intro cs
  induction cs with
  | nil => intro p acc; simp [batchCoeffs]
  | cons c cs ih =>
    intro p acc
    rw [batchCoeffs, ih, addCoeffs_length, show (scaleCoeffs c p).length = c.length by simp [scaleCoeffs], List.map_cons,
      List.max?_cons]
    cases (cs.map List.length).max? with
    | none => simp
    | some m => simp [Nat.max_assoc]

theorem max?_succ (l : List Nat) (hne : l ≠ []) : ((l.map (· + 1)).max?).getD 0 = (l.max?).getD 0 + 1 := by
  obtain ⟨h1, h2⟩ := max?_spec l hne
  obtain ⟨h3, h4⟩ := max?_spec (l.map (· + 1)) (by simpa using hne)
  obtain ⟨m, hm, e⟩ := List.mem_map.1 h3
  have a := h2 m hm
  have b := h4 _ (List.mem_map_of_mem h1)
  omega

theorem coeffs_value (R : Polynomial F) (d : Nat) (hR : R.natDegree ≤ d) (x : F) :
    evaluateUnivariate (coeffs (d + 1) R) x = R.eval x := by
  rw [C19_evaluate_univariate]
  exact coeffs_eval R d hR x

/-! ## The state between the rounds -/

/-- The state of the prover after the rounds with the challenges `rs`, when a round polynomial is due. -/
structure Due (emb : D → F) (pts : Nat → D) (w : Nat) (order : EvaluationOrder) (N n : Nat) (tables : List (Nat → F))
    (items : List (CompItem D F)) (M : Nat) (rs : List F) (s : Regular D F) : Prop where
  holding : Holding w order N n tables M rs s.state
  comps : s.comps = items.map fun it => it.comp
  domains : s.domains = items.map fun it => it.dom
  good : ∀ it ∈ items, it.Good emb pts tables.length
  points : GoodPoints pts items s.state.points
  last : s.state.last = .sums (items.map fun it => curSum order N n rs tables it.poly)

theorem Due.execute {emb : D →+* F} {pts : Nat → D} (h0 : pts 0 = 0) (h1 : pts 1 = 1) {w N n M : Nat} (bits : Nat)
    {order : EvaluationOrder} {tables : List (Nat → F)} {items : List (CompItem D F)} {rs : List F} {s : Regular D F}
    (stale : Nat → Nat → Nat → F) (α : F) (h : Due emb pts w order N (n + 1) tables items M rs s) :
    ∃ R : CompItem D F → Polynomial F,
      (∀ it ∈ items, (R it).natDegree ≤ it.comp.degree ∧
        ∀ x, (R it).eval x = curSum order N n (rs ++ [x]) tables it.poly) ∧
      s.execute emb w bits stale α = .ok (batchCoeffs α 1 [] (items.map fun it => coeffs (it.comp.degree + 1) (R it)),
        { s with state := { s.state with last := .coeffs (items.map fun it => coeffs (it.comp.degree + 1) (R it)) } }) := by
  have htot := h.holding.total
  have hpairs : s.comps.zip s.domains = items.map fun it => (it.comp, it.dom) := by
    rw [h.comps, h.domains, List.zip_map']
  -- the tensor query
  obtain ⟨q, hq, hq'⟩ : ∃ q, s.state.query.or (Query.withCapacity w 0) = some q ∧
      ∀ m ∈ s.state.multilins, m.switchover? ≠ none → QueryOk w order q rs := by
    cases hsq : s.state.query with
    | none =>
      obtain ⟨q, hq, -⟩ := C17_with_capacity (F := F) w 0
      refine ⟨q, by rw [hq]; rfl, fun m hm hne => absurd hsq (h.holding.present m hm hne)⟩
    | some q => exact ⟨q, rfl, fun _ _ _ => (h.holding.query q hsq).1⟩
  set S := subcubeVars w bits n q.nVars n with hS
  have hes : (s.comps.zip s.domains).map (fun p => regularEvaluator p.1) = items.map fun it => regularEvaluator it.comp := by
    rw [hpairs, List.map_map]
    rfl
  have hdeg : ∀ it ∈ items, it.comp.degree ≤ s.state.points.length + 2 := by
    intro it hit
    have hne : (items.map fun it => it.comp.degree) ≠ [] := by
      intro e
      rw [List.map_eq_nil_iff] at e
      rw [e] at hit
      cases hit
    have := (max?_spec _ hne).2 _ (List.mem_map_of_mem hit)
    rw [h.points.length]
    omega
  have hround := fun (it : CompItem D F) (hit : it ∈ items) =>
    regular_evals (first := (unionRange (items.map fun it => regularEvaluator it.comp)).1) (stale := stale) it (h.good it hit) htot h.holding.multilins hq'
      (subcubeVars_le w bits n q.nVars n) (subcubeVars_lt w bits n q.nVars n)
      (es := items.map fun it => regularEvaluator it.comp) (List.mem_map_of_mem hit) (hdeg it hit)
  choose! R hR1 hR2 hR3 using hround
  refine ⟨R, fun it hit => ⟨hR1 it hit, hR2 it hit⟩, ?_⟩
  have hcalc : calcRoundEvals emb w bits s.state.order s.state.nVars s.state.query s.state.multilins
      (items.map fun it => regularEvaluator it.comp) s.state.points stale =
        .ok (items.map fun it => (List.range' 1 it.comp.degree).map fun j =>
          if j = 2 then (R it).coeff it.comp.degree
          else (R it).eval (if j = 1 then 1 else emb (s.state.points.getD (j - 3) 0))) := by
    unfold calcRoundEvals
    rw [h.holding.vars, h.holding.ordered, if_neg (by omega), hq]
    dsimp only
    have hu := unionRange_regular (items.map fun it => it.comp)
    rw [List.map_map, List.map_map] at hu
    rw [if_neg]
    · rw [Nat.add_sub_cancel, List.map_map]
      exact collect_eq items _ _ fun it hit => hR3 it hit
    · rw [not_not, h.points.length]
      refine Eq.trans ?_ (congrArg (· - 3) hu).symm
      cases items with
      | nil => rfl
      | cons it items =>
        rw [if_neg (by simp)]
        show _ - 2 = (((it :: items).map fun it => it.comp.degree).max?).getD 0 + 1 - 3
        omega
  unfold Regular.execute
  dsimp only
  rw [hes, hcalc, ebind_ok, hpairs, List.map_map]
  have hcoeffs : s.state.roundCoeffs (items.map ((fun p => regularCoeffs emb p.2) ∘ fun it => (it.comp, it.dom))) α
      (items.map fun it => (List.range' 1 it.comp.degree).map fun j =>
          if j = 2 then (R it).coeff it.comp.degree
          else (R it).eval (if j = 1 then 1 else emb (s.state.points.getD (j - 3) 0))) =
      .ok (batchCoeffs α 1 [] (items.map fun it => coeffs (it.comp.degree + 1) (R it)),
        { s.state with last := .coeffs (items.map fun it => coeffs (it.comp.degree + 1) (R it)) }) := by
    unfold ProverState.roundCoeffs
    rw [h.last]
    dsimp only
    rw [if_neg (by simp), List.zip_map', List.zipWith_map, List.zipWith_self]
    rw [collect_eq items _ (fun it => coeffs (it.comp.degree + 1) (R it))]
    · rfl
    · intro it hit
      have hg := h.good it hit
      refine regular_coeffs h0 h1 hg.positive hg.domain (hdeg it hit) h.points.value (R it) (hR1 it hit) _ ?_
      rw [hR2 it hit, hR2 it hit]
      exact curSum_split order N n rs tables it.poly htot
  rw [hcoeffs]
  rfl

theorem Due.fold {emb : D →+* F} {pts : Nat → D} (h0 : pts 0 = 0) (h1 : pts 1 = 1) {w N n M : Nat} (bits : Nat)
    {order : EvaluationOrder} {tables : List (Nat → F)} {items : List (CompItem D F)} {rs : List F} {s : Regular D F}
    (stale : Nat → Nat → Nat → F) (α : F) (h : Due emb pts w order N (n + 1) tables items M rs s) (r : F) :
    ∃ p s', s.execute emb w bits stale α = .ok p ∧ p.2.fold w bits r = .ok s' ∧
      Due emb pts w order N n tables items M (rs ++ [r]) s' := by
  obtain ⟨R, hR, he⟩ := h.execute h0 h1 bits stale α
  have hhold : Holding w order N (n + 1) tables M rs
      { s.state with last := .coeffs (items.map fun it => coeffs (it.comp.degree + 1) (R it)) } := by
    obtain ⟨a1, a2, a3, a4, a5, a6, a7, a8⟩ := h.holding
    exact ⟨a1, a2, a3, a4, a5, a6, a7, a8⟩
  obtain ⟨st', f1, f2, f3, f4⟩ := fold_holding bits hhold _ rfl r
  refine ⟨_, { s with state := st' }, he, ?_, ?_⟩
  · unfold Regular.fold
    dsimp only
    rw [f1]
    rfl
  · refine ⟨f2, h.comps, h.domains, h.good, ?_, ?_⟩
    · rw [f4]
      exact h.points
    · rw [f3, List.map_map]
      congr 1
      refine List.map_congr_left fun it hit => ?_
      show evaluateUnivariate (coeffs _ _) r = _
      rw [coeffs_value _ _ (hR it hit).1, (hR it hit).2]

theorem Due.rounds {emb : D →+* F} {pts : Nat → D} (h0 : pts 0 = 0) (h1 : pts 1 = 1) {w N n M : Nat} (bits : Nat)
    {order : EvaluationOrder} {tables : List (Nat → F)} {items : List (CompItem D F)} {s : Regular D F}
    (stale : Nat → Nat → Nat → F) (α : F) (cs : List F) {rs : List F}
    (h : Due emb pts w order N (n + cs.length) tables items M rs s) :
    ∃ s', s.rounds emb w bits stale α cs = .ok s' ∧ Due emb pts w order N n tables items M (rs ++ cs) s' := by
  induction cs generalizing rs s with
  | nil => exact ⟨s, rfl, by simpa using h⟩
  | cons r cs ih =>
    obtain ⟨p, s', e1, e2, e3⟩ := Due.fold h0 h1 bits stale α (n := n + cs.length) h r
    obtain ⟨s'', g1, g2⟩ := ih e3
    refine ⟨s'', ?_, by simpa using g2⟩
    rw [Regular.rounds, e1, ebind_ok, e2, ebind_ok]
    exact g1

theorem Due.finish {emb : D →+* F} {pts : Nat → D} {w N M : Nat} {order : EvaluationOrder} {tables : List (Nat → F)}
    {items : List (CompItem D F)} {s : Regular D F} {rs : List F} (h : Due emb pts w order N 0 tables items M rs s) :
    s.state.finish w = .ok (tables.map fun t => mle t (arrange order rs)) :=
  finish_holding h.holding _ h.last

/-! ## Construction -/

theorem equalNVars_ok (l : List Nat) (n : Nat) (h : ∀ m ∈ l, m = n) (he : l = [] → n = 0) : equalNVars l = .ok n := by
  cases l with
  | nil => rw [he rfl]; rfl
  | cons m l =>
    have hm := h m (List.mem_cons_self ..)
    subst hm
    unfold equalNVars
    dsimp only
    rw [if_neg]
    simp only [List.any_eq_true, decide_eq_true_eq, not_exists, not_and, not_not]
    exact fun x hx => h x (List.mem_cons_of_mem _ hx)

theorem new_due {K : Type} [Field K] (hK : ∀ a : K, a + a = 0) (ι : K →+ D) (hι : Function.Injective ι)
    (sub : Subspace.BinarySubspace K) (hsub : sub.basis.length ≤ 64) (hind : Subspace.Independent sub.basis)
    (hone : ι (sub.get 1) = 1) (emb : D →+* F) (w n : Nat) (order : EvaluationOrder)
    (multilins : List (Nat × (Nat → F) × Nat)) (hm : ∀ m ∈ multilins, m.1 = n) (hne : multilins = [] → n = 0)
    (claims : List (Comp F × F)) (polys : List (MvPolynomial ℕ F))
    (hc : TrueSums n (multilins.map fun m => m.2.1) claims polys) (hpos : ∀ c ∈ claims, 1 ≤ c.1.degree)
    (hdeg : ∀ c ∈ claims, (if 2 ≤ c.1.degree then c.1.degree else c.1.degree + 1) ≤ 2 ^ sub.basis.length) :
    ∃ s M items, Regular.new w (Subspace.createDomain ι sub) order multilins claims = .ok s ∧
      Due emb (fun k => ι (sub.get k)) w order n n (multilins.map fun m => m.2.1) items M [] s ∧
      items.map (fun it => it.poly) = polys ∧ items.map (fun it => it.comp) = claims.map Prod.fst ∧ s.nVars = n := by
  have hcl := List.forall₂_iff_zip.1 hc
  have hzero : ι (sub.get 0) = 0 := by
    have : sub.get 0 = 0 := by simp [Subspace.BinarySubspace.get]
    rw [this, map_zero]
  -- the items
  have hitems : ∀ (cl : List (Comp F × F)) (ps : List (MvPolynomial ℕ F)),
      TrueSums n (multilins.map fun m => m.2.1) cl ps → (∀ c ∈ cl, 1 ≤ c.1.degree) →
      (∀ c ∈ cl, (if 2 ≤ c.1.degree then c.1.degree else c.1.degree + 1) ≤ 2 ^ sub.basis.length) →
      ∃ items : List (CompItem D F), domainsFor (Subspace.createDomain ι sub) (cl.map fun c => c.1.degree) =
          .ok (items.map fun it => it.dom) ∧
        (∀ it ∈ items, it.Good emb (fun k => ι (sub.get k)) (multilins.map fun m => m.2.1).length) ∧
        items.map (fun it => it.poly) = ps ∧ items.map (fun it => it.comp) = cl.map Prod.fst ∧
        cl.map Prod.snd = items.map fun it => cubeSum n (multilins.map fun m => m.2.1) it.poly := by
    intro cl ps h hp hd
    induction h with
    | nil => exact ⟨[], rfl, by simp, rfl, rfl, rfl⟩
    | @cons c p cl ps hcp hrest ih =>
      obtain ⟨items, i1, i2, i3, i4, i5⟩ := ih (fun c hc => hp c (List.mem_cons_of_mem _ hc)) fun c hc =>
        hd c (List.mem_cons_of_mem _ hc)
      obtain ⟨dom, i, d1, d2, d3⟩ := create_good hK ι hι sub hsub hind emb c.1.degree (hd c (List.mem_cons_self ..))
      refine ⟨⟨c.1, p, i⟩ :: items, ?_, ?_, ?_, ?_, ?_⟩
      · unfold domainsFor at i1 ⊢
        rw [List.map_cons, List.map_cons, d1]
        dsimp only
        rw [d2]
        dsimp only
        rw [collect, i1]
        rfl
      · intro it hit
        rcases List.mem_cons.1 hit with rfl | hit
        · exact ⟨hcp.1, hcp.2.1, hp c (List.mem_cons_self ..), d3⟩
        · exact i2 it hit
      · rw [List.map_cons, i3]
      · rw [List.map_cons, i4]; rfl
      · rw [List.map_cons, List.map_cons, i5, hcp.2.2]
  obtain ⟨items, i1, i2, i3, i4, i5⟩ := hitems claims polys hc hpos hdeg
  obtain ⟨points, p1, p2⟩ := nontrivialPoints_ok (F := F) emb (fun k => ι (sub.get k)) hzero hone _ items i2
  obtain ⟨st, M, s1, s2, s3, s4⟩ := new_holding w order n
    (multilins.map fun m => SumMultilin.transparent m.1 m.2.1 m.2.2 ((0 : F), 0)) (claims.map Prod.snd) points
    (multilins.map fun m => m.2.1) (by
      rw [List.forall₂_map_left_iff, List.forall₂_map_right_iff]
      refine List.forall₂_same.2 fun m hm' => ?_
      exact ⟨hm m hm', fun _ _ => rfl, Nat.zero_le _, fun x h1 h2 => by omega⟩)
  refine ⟨⟨n, st, claims.map Prod.fst, items.map fun it => it.dom⟩, M, items, ?_, ?_, i3, i4, rfl⟩
  · unfold Regular.new
    rw [equalNVars_ok _ n (by simpa using hm) (by simpa using hne), ebind_ok]
    have hfind : claims.find? (fun c => c.1.nVars != multilins.length) = none := by
      rw [List.find?_eq_none]
      intro c hc'
      have hmem : c.1 ∈ items.map fun it => it.comp := by rw [i4]; exact List.mem_map_of_mem hc'
      obtain ⟨it, hit, e⟩ := List.mem_map.1 hmem
      have := (i2 it hit).nVars
      rw [e, List.length_map] at this
      simp [this]
    rw [hfind]
    dsimp only
    rw [i1, ebind_ok, p1, ebind_ok, s1]
    rfl
  · refine ⟨s2, i4.symm, rfl, i2, ?_, ?_⟩
    · show GoodPoints _ items st.points
      rw [s4]
      exact p2
    · show st.last = _
      rw [s3, i5]
      congr 1
      refine List.map_congr_left fun it _ => ?_
      unfold cubeSum curSum
      refine Finset.sum_congr rfl fun x hx => ?_
      congr 1
      refine List.map_congr_left fun t _ => ?_
      rw [cur_nil]

/-! ## The properties -/

/-- **C66.** For every number of variables, all multilinears with that many variables, all compositions of positive degree and
all true claims on their sums, with a domain factory on a subspace that starts with 0 and 1 and has enough points, whatever the
evaluation order, the packing width, the switchover rounds, the sizes of the subcubes and the contents of the reused buffers:
`RegularSumcheckProver::new` succeeds, in every round, whatever the challenges and the batching coefficient, `execute` gives the
round polynomial of the batch, and `finish` the evaluations of the multilinears at the challenges. -/
theorem C66_honest {K : Type} [Field K] (hK : ∀ a : K, a + a = 0) (ι : K →+ D) (hι : Function.Injective ι)
    (sub : Subspace.BinarySubspace K) (hsub : sub.basis.length ≤ 64) (hind : Subspace.Independent sub.basis)
    (hone : ι (sub.get 1) = 1) (emb : D →+* F) (w bits n : Nat) (order : EvaluationOrder)
    (multilins : List (Nat × (Nat → F) × Nat)) (hm : ∀ m ∈ multilins, m.1 = n) (hne : multilins = [] → n = 0)
    (claims : List (Comp F × F)) (polys : List (MvPolynomial ℕ F))
    (hc : TrueSums n (multilins.map fun m => m.2.1) claims polys) (hpos : ∀ c ∈ claims, 1 ≤ c.1.degree)
    (hdeg : ∀ c ∈ claims, (if 2 ≤ c.1.degree then c.1.degree else c.1.degree + 1) ≤ 2 ^ sub.basis.length)
    (stale : Nat → Nat → Nat → F) :
    ∃ s, Regular.new w (Subspace.createDomain ι sub) order multilins claims = .ok s ∧
      (s.toProver emb w bits stale).evaluationOrder = order ∧
      ∀ I, IsSumInstance n (multilins.map fun m => m.2.1) claims polys I →
        HonestOrEmpty (s.toProver emb w bits stale) I ∧ (claims ≠ [] → Honest (s.toProver emb w bits stale) I) := by
  obtain ⟨s, M, items, hnew, hdue, hpolys, hcomps, hnv⟩ := new_due hK ι hι sub hsub hind hone emb w n order multilins hm hne
    claims polys hc hpos hdeg
  have hzero : ι (sub.get 0) = 0 := by
    have : sub.get 0 = 0 := by simp [Subspace.BinarySubspace.get]
    rw [this, map_zero]
  refine ⟨s, hnew, hdue.holding.ordered, fun I hI => ?_⟩
  have hdegs : I.claim.maxIndividualDegree = ((items.map fun it => it.comp.degree).max?).getD 0 := by
    rw [hI.degree]
    have : (claims.map fun c => c.1.degree) = items.map fun it => it.comp.degree := by
      have := congrArg (List.map fun c : Comp F => c.degree) hcomps
      rw [List.map_map, List.map_map] at this
      exact this.symm
    rw [this]
  have hempty : items = [] ↔ claims = [] := by
    rw [← List.map_eq_nil_iff (f := fun it : CompItem D F => it.comp), hcomps, List.map_eq_nil_iff]
  have hnv' : (s.toProver emb w bits stale).nVars = I.claim.nVars := by
    rw [hI.nVars]
    exact hnv
  have hfin : ∀ folded : List F, folded.length = I.claim.nVars →
      (s.toProver emb w bits stale).finish folded =
        .ok (I.tables.map fun t => mle t (arrange (s.toProver emb w bits stale).evaluationOrder folded)) := by
    intro folded hl
    rw [hI.nVars] at hl
    subst hl
    have hdue' : Due emb (fun k => ι (sub.get k)) w order folded.length (0 + folded.length)
      (multilins.map fun m => m.2.1) items M [] s := by rw [Nat.zero_add]; exact hdue
    obtain ⟨s', e1, e2⟩ := hdue'.rounds hzero hone bits stale 0 folded
    show (s.rounds emb w bits stale 0 folded).bind _ = .ok (I.tables.map fun t => mle t (arrange s.state.order folded))
    rw [e1, ebind_ok, e2.finish, hI.tables, hdue.holding.ordered]
    rfl
  have hexec : ∀ (folded : List F) (α : F), folded.length < I.claim.nVars →
      ∃ cs, (s.toProver emb w bits stale).execute folded α = .ok cs ∧
        cs.length = (if items = [] then 0 else I.claim.maxIndividualDegree + 1) ∧
        ∀ x, ∑ i : Fin cs.length, cs[i] * x ^ (i : Nat)
          = ∑ b ∈ range (2 ^ (I.claim.nVars - folded.length - 1)), ∑ i : Fin I.polys.length,
              α ^ (i : Nat) * evalAt I.polys[i] (I.tables.map fun t =>
                mle t (arrange (s.toProver emb w bits stale).evaluationOrder
                  (folded ++ x :: vertex (I.claim.nVars - folded.length - 1) b))) := by
    intro folded α hlt
    rw [hI.nVars] at hlt ⊢
    obtain ⟨k, hk⟩ : ∃ k, n = k + 1 + folded.length := ⟨n - folded.length - 1, by omega⟩
    have hdue' : Due emb (fun k => ι (sub.get k)) w order n (k + 1 + folded.length)
      (multilins.map fun m => m.2.1) items M [] s := by rw [← hk]; exact hdue
    obtain ⟨s', e1, e2⟩ := hdue'.rounds hzero hone bits stale α folded
    rw [List.nil_append] at e2
    obtain ⟨R, hR, e3⟩ := e2.execute hzero hone bits stale α
    refine ⟨batchCoeffs α 1 [] (items.map fun it => coeffs (it.comp.degree + 1) (R it)), ?_, ?_, fun x => ?_⟩
    · show (s.rounds emb w bits stale α folded).bind _ = _
      rw [e1, ebind_ok, e3]
      rfl
    · rw [batchCoeffs_length, List.map_map]
      have : (List.length ∘ fun it : CompItem D F => coeffs (it.comp.degree + 1) (R it)) = fun it => it.comp.degree + 1 := by
        funext it
        simp [coeffs]
      rw [this, hdegs]
      by_cases hi : items = []
      · subst hi; rfl
      · rw [if_neg hi, ← max?_succ _ (by simpa using hi), List.map_map]
        simp only [List.length_nil, Nat.zero_max]
        rfl
    · rw [← C19_evaluate_univariate, batchCoeffs_eval, List.map_map]
      have h1 : items.map ((fun c => evaluateUnivariate c x) ∘ fun it => coeffs (it.comp.degree + 1) (R it)) =
          I.polys.map fun p => curSum order n k (folded ++ [x]) I.tables p := by
        rw [hI.polys, ← hpolys, List.map_map, hI.tables]
        refine List.map_congr_left fun it hit => ?_
        show evaluateUnivariate (coeffs _ _) x = _
        rw [coeffs_value _ _ (hR it hit).1, (hR it hit).2]
        rfl
      rw [h1, innerPowers_map]
      simp only [evaluateUnivariate, List.foldr_nil, zero_add, one_mul]
      rw [show n - folded.length - 1 = k by omega, Finset.sum_comm]
      refine Finset.sum_congr rfl fun i _ => ?_
      rw [curSum_cube _ _ _ _ _ _ (by simp only [List.length_append, List.length_singleton]; omega)]
      unfold cube
      rw [Finset.mul_sum]
      refine Finset.sum_congr rfl fun b _ => ?_
      have : (s.toProver emb w bits stale).evaluationOrder = order := hdue.holding.ordered
      rw [this]
      simp only [List.append_assoc, List.singleton_append]
  refine ⟨⟨hnv', fun folded α hlt => ?_, hfin⟩, fun hcl => ⟨hnv', fun folded α hlt => ?_, hfin⟩⟩
  · obtain ⟨cs, c1, c2, c3⟩ := hexec folded α hlt
    refine ⟨cs, c1, ?_, c3⟩
    by_cases hi : items = []
    · rw [if_pos hi] at c2
      exact Or.inr ⟨by rw [hdegs, hi]; rfl, List.length_eq_zero_iff.1 c2⟩
    · rw [if_neg hi] at c2
      exact Or.inl c2
  · obtain ⟨cs, c1, c2, c3⟩ := hexec folded α hlt
    rw [if_neg (by rw [hempty]; exact hcl)] at c2
    exact ⟨cs, c1, c2, c3⟩

/-- **C66.** The rounds succeed for every batching coefficient, and what `finish` gives after them does not depend on it. -/
theorem C66_finish_any_coeff {K : Type} [Field K] (hK : ∀ a : K, a + a = 0) (ι : K →+ D) (hι : Function.Injective ι)
    (sub : Subspace.BinarySubspace K) (hsub : sub.basis.length ≤ 64) (hind : Subspace.Independent sub.basis)
    (hone : ι (sub.get 1) = 1) (emb : D →+* F) (w bits n : Nat) (order : EvaluationOrder)
    (multilins : List (Nat × (Nat → F) × Nat)) (hm : ∀ m ∈ multilins, m.1 = n) (hne : multilins = [] → n = 0)
    (claims : List (Comp F × F)) (polys : List (MvPolynomial ℕ F))
    (hc : TrueSums n (multilins.map fun m => m.2.1) claims polys) (hpos : ∀ c ∈ claims, 1 ≤ c.1.degree)
    (hdeg : ∀ c ∈ claims, (if 2 ≤ c.1.degree then c.1.degree else c.1.degree + 1) ≤ 2 ^ sub.basis.length)
    (stale : Nat → Nat → Nat → F) (s : Regular D F)
    (hnew : Regular.new w (Subspace.createDomain ι sub) order multilins claims = .ok s) (α : F) (folded : List F)
    (hl : folded.length = n) :
    ∃ s', s.rounds emb w bits stale α folded = .ok s' ∧ s'.state.finish w = (s.toProver emb w bits stale).finish folded := by
  obtain ⟨s1, M, items, hnew', hdue, -⟩ := new_due hK ι hι sub hsub hind hone emb w n order multilins hm hne
    claims polys hc hpos hdeg
  rw [hnew] at hnew'
  cases hnew'
  have hzero : ι (sub.get 0) = 0 := by
    have : sub.get 0 = 0 := by simp [Subspace.BinarySubspace.get]
    rw [this, map_zero]
  subst hl
  have hdue' : Due emb (fun k => ι (sub.get k)) w order folded.length (0 + folded.length)
    (multilins.map fun m => m.2.1) items M [] s := by rw [Nat.zero_add]; exact hdue
  obtain ⟨s', e1, e2⟩ := hdue'.rounds hzero hone bits stale α folded
  obtain ⟨s'', g1, g2⟩ := hdue'.rounds hzero hone bits stale 0 folded
  refine ⟨s', e1, ?_⟩
  show _ = (s.rounds emb w bits stale 0 folded).bind _
  rw [g1, ebind_ok, e2.finish, g2.finish]

theorem independent_one : Subspace.Independent [(1 : ZMod 2)] := by
  intro s hs h
  rw [Finset.eq_empty_iff_forall_notMem]
  intro x hx
  have hx0 := Finset.mem_range.1 (hs hx)
  have h0 : x = 0 := by simpa using hx0
  subst h0
  have : s = {0} := by
    ext y
    rw [Finset.mem_singleton]
    refine ⟨fun hy => by simpa using Finset.mem_range.1 (hs hy), fun hy => by rw [hy]; exact hx⟩
  subst this
  simp [Subspace.subsetSum] at h

theorem product_value (q : List (ZMod 2)) (hq : q.length = 2) :
    Arith.evaluate (Arith.mul (Arith.var 0) (Arith.var 1)) q = some (evalAt (MvPolynomial.X 0 * MvPolynomial.X 1) q) := by
  match q, hq with
  | [a, b], _ =>
    show some (a * b) = _
    simp [evalAt]

/-- Non-vacuity of `C66_honest`: the sum of a product of two multilinears in one variable over `ZMod 2`, with the domain {0, 1}. -/
example : ∃ (ι : ZMod 2 →+ ZMod 2) (sub : Subspace.BinarySubspace (ZMod 2)) (multilins : List (Nat × (Nat → ZMod 2) × Nat))
    (claims : List (Comp (ZMod 2) × ZMod 2)) (polys : List (MvPolynomial ℕ (ZMod 2))),
    (∀ a : ZMod 2, a + a = 0) ∧ Function.Injective ι ∧ sub.basis.length ≤ 64 ∧ Subspace.Independent sub.basis ∧
    ι (sub.get 1) = 1 ∧ (∀ m ∈ multilins, m.1 = 1) ∧ multilins.length = 2 ∧ claims.length = 1 ∧
    TrueSums 1 (multilins.map fun m => m.2.1) claims polys ∧ (∀ c ∈ claims, c.1.degree = 2) ∧
    ∀ c ∈ claims, (if 2 ≤ c.1.degree then c.1.degree else c.1.degree + 1) ≤ 2 ^ sub.basis.length := by
  refine ⟨AddMonoidHom.id _, ⟨[1]⟩, [(1, fun _ => 1, 0), (1, fun i => if i = 0 then 1 else 0, 1)],
    [(⟨2, 2, Arith.mul (Arith.var 0) (Arith.var 1), fun q => Arith.evaluate (Arith.mul (Arith.var 0) (Arith.var 1)) q⟩, 1)],
    [MvPolynomial.X 0 * MvPolynomial.X 1], by decide, Function.injective_id, by simp, ?_, ?_, by simp, rfl, rfl, ?_, by simp, by simp⟩
  · exact independent_one
  · decide
  · refine .cons ⟨⟨.mul (.var 0) (.var 1), by decide, by decide, fun q hq => ?_, fun q hq => ?_⟩, rfl, ?_⟩ .nil
    · exact product_value q hq
    · exact product_value q hq
    · simp [cubeSum, evalAt]

/-! ## Calls out of turn -/

/-- **C66.** A call of `fold` before the first `execute` is refused, and so is `finish` while there are rounds to come; a second
`execute` in a round never succeeds, nor does `finish` between `execute` and `fold`. -/
theorem C66_out_of_turn (create : Nat → Except Univariate.Error (Domain D)) (emb : D → F) (w bits : Nat)
    (order : EvaluationOrder) (multilins : List (Nat × (Nat → F) × Nat)) (claims : List (Comp F × F))
    (stale : Nat → Nat → Nat → F) (s : Regular D F) (hnew : Regular.new w create order multilins claims = .ok s) :
    (∀ r, s.fold w bits r = .error (if s.nVars = 0 then .expectedFinish else .expectedExecution)) ∧
    (s.nVars ≠ 0 → s.state.finish w = .error .expectedExecution) ∧
    ∀ α p, s.execute emb w bits stale α = .ok p →
      (∀ β p', p.2.execute emb w bits stale β ≠ .ok p') ∧ p.2.state.finish w = .error .expectedFold := by
  have hst : s.state.nVars = s.nVars ∧ ∃ sums, s.state.last = .sums sums := by
    unfold Regular.new at hnew
    cases hn : equalNVars (multilins.map Prod.fst) with
    | error e => rw [hn] at hnew; cases hnew
    | ok n =>
      rw [hn, ebind_ok] at hnew
      split at hnew
      · cases hnew
      · cases hd : domainsFor create (claims.map fun c => c.1.degree) with
        | error e => rw [hd] at hnew; cases hnew
        | ok domains =>
          rw [hd, ebind_ok] at hnew
          cases hp : nontrivialPoints domains with
          | error e => rw [hp] at hnew; cases hnew
          | ok points =>
            rw [hp, ebind_ok] at hnew
            cases hs : ProverState.new w order n (multilins.map fun m => SumMultilin.transparent m.1 m.2.1 m.2.2 ((0 : F), 0))
                (claims.map Prod.snd) points with
            | error e => rw [hs] at hnew; cases hnew
            | ok st =>
              rw [hs, ebind_ok] at hnew
              cases hnew
              unfold ProverState.new at hs
              cases hc : collect ((multilins.map fun m => SumMultilin.transparent m.1 m.2.1 m.2.2 ((0 : F), 0)).map
                  (checkMultilin w n)) with
              | error e => rw [hc] at hs; cases hs
              | ok u =>
                rw [hc, ebind_ok] at hs
                split at hs
                · cases hs; exact ⟨rfl, _, rfl⟩
                · split at hs
                  · cases hs
                  · cases hs; exact ⟨rfl, _, rfl⟩
  obtain ⟨h1, sums, h2⟩ := hst
  refine ⟨fun r => ?_, fun h => ?_, fun α p hp => ?_⟩
  · unfold Regular.fold ProverState.fold
    rw [h1, h2]
    split <;> rfl
  · unfold ProverState.finish
    rw [h2]
    dsimp only
    rw [if_pos (by rw [h1]; exact h)]
  · have hlast : ∃ cs, p.2.state.last = .coeffs cs := by
      unfold Regular.execute at hp
      dsimp only at hp
      revert hp
      generalize calcRoundEvals emb w bits _ _ _ _ _ _ stale = evals
      intro hp
      cases evals with
      | error e => cases hp
      | ok evals =>
        rw [ebind_ok] at hp
        cases hr : s.state.roundCoeffs ((s.comps.zip s.domains).map fun p => regularCoeffs emb p.2) α evals with
        | error e => rw [hr] at hp; cases hp
        | ok r =>
          rw [hr, ebind_ok] at hp
          cases hp
          unfold ProverState.roundCoeffs at hr
          rw [h2] at hr
          dsimp only at hr
          split at hr
          · cases hr
          · revert hr
            generalize collect _ = c
            intro hr
            cases c with
            | error e => cases hr
            | ok c => cases hr; exact ⟨_, rfl⟩
    obtain ⟨cs, hcs⟩ := hlast
    refine ⟨fun β p' hp' => ?_, ?_⟩
    · unfold Regular.execute at hp'
      dsimp only at hp'
      revert hp'
      generalize calcRoundEvals emb w bits _ _ _ _ _ _ stale = evals
      intro hp'
      cases evals with
      | error e => cases hp'
      | ok evals =>
        rw [ebind_ok] at hp'
        unfold ProverState.roundCoeffs at hp'
        rw [hcs] at hp'
        cases hp'
    · unfold ProverState.finish
      rw [hcs]

/-! ## Findings -/

/-- **C66.** A prover for no variables panics if `execute` is called on it. -/
theorem C66_no_variables_panics (emb : D → F) (w bits : Nat) (stale : Nat → Nat → Nat → F) (s : Regular D F) (α : F)
    (h : s.state.nVars = 0) : s.execute emb w bits stale α = .error .panic := by
  unfold Regular.execute calcRoundEvals
  dsimp only
  rw [if_pos h]
  rfl

theorem collect_inv {A : Type} : ∀ (l : List (Except Error A)) (bs : List A), collect l = .ok bs →
    List.Forall₂ (fun x b => x = .ok b) l bs := by
  intro l
  induction l with
  | nil => intro bs h; cases h; exact .nil
  | cons x l ih =>
    intro bs h
    cases x with
    | error e => cases h
    | ok b =>
      rw [collect] at h
      cases hc : collect l with
      | error e => rw [hc] at h; cases h
      | ok bs' =>
        rw [hc] at h
        cases h
        exact .cons rfl (ih bs' hc)

/-- **C66.** A claim whose composition is constant is accepted by the construction (`C66_constant_accepted`), but no round succeeds:
the evaluator has no points, and `round_evals[0]` panics. -/
theorem C66_constant_never_succeeds (emb : D → F) (w bits : Nat) (stale : Nat → Nat → Nat → F) (s : Regular D F) (α : F)
    (c : Comp F) (d : IDomain D) (sum : F) (hc : s.comps = [c]) (hd : s.domains = [d]) (hs : s.state.last = .sums [sum])
    (h : c.degree = 0) : ∀ p, s.execute emb w bits stale α ≠ .ok p := by
  intro p hp
  unfold Regular.execute at hp
  dsimp only at hp
  rw [hc, hd] at hp
  simp only [List.zip_cons_cons, List.zip_nil_right, List.map_cons, List.map_nil] at hp
  cases he : calcRoundEvals emb w bits s.state.order s.state.nVars s.state.query s.state.multilins [regularEvaluator c]
      s.state.points stale with
  | error e => rw [he] at hp; cases hp
  | ok evals =>
    rw [he, ebind_ok] at hp
    have hev : evals = [[]] := by
      unfold calcRoundEvals at he
      split at he
      · cases he
      · split at he
        · cases he
        · split at he
          · cases he
          · have := collect_inv _ _ he
            simp only [List.map_cons, List.map_nil] at this
            obtain ⟨b, rest, hb, hrest, rfl⟩ := List.forall₂_cons_left_iff.1 this
            rw [List.forall₂_nil_left_iff] at hrest
            subst hrest
            unfold evaluatorEvals at hb
            have hz : ¬ ((regularEvaluator c).suffix > 2 ^ (s.state.nVars - 1)) := Nat.not_lt_zero _
            rw [if_neg hz] at hb
            have hr : (List.range' (regularEvaluator c).start ((regularEvaluator c).stop - (regularEvaluator c).start)) = [] := by
              show List.range' 1 (c.degree + 1 - 1) = []
              rw [h]
              rfl
            rw [hr] at hb
            cases hb
            rfl
    rw [hev] at hp
    unfold ProverState.roundCoeffs at hp
    rw [hs] at hp
    cases hp

/-- **C66.** Such a claim is accepted: the sum of the constant 1 over one variable. -/
theorem C66_constant_accepted : ∃ (create : Nat → Except Univariate.Error (Domain (ZMod 2))) (c : Comp (ZMod 2)) (s : Regular (ZMod 2) (ZMod 2)),
    Computes c 1 ∧ Regular.new 0 create .lowToHigh [(1, fun _ => 0, 0)] [(c, 0)] = .ok s ∧ s.nVars = 1 ∧
      ∀ w bits stale α p, s.execute id w bits stale α ≠ .ok p := by
  obtain ⟨dom, i, h1, h2, h3⟩ := create_good (F := ZMod 2) (by decide) (AddMonoidHom.id (ZMod 2)) Function.injective_id ⟨[1]⟩
    (by simp) independent_one (RingHom.id _) 0 (by simp)
  refine ⟨Subspace.createDomain (AddMonoidHom.id (ZMod 2)) ⟨[1]⟩, ⟨1, 0, Arith.constant 1, fun _ => some 1⟩,
    ⟨1, ⟨1, .lowToHigh, [.transparent 1 (fun _ => 0) 0 (0, 0)], [], [], (Query.withCapacity 0 1), .sums [0]⟩,
      [⟨1, 0, Arith.constant 1, fun _ => some 1⟩], [i]⟩, ?_, ?_, rfl, ?_⟩
  · refine ⟨.constant 1, by decide, rfl, fun q _ => by simp [evalAt], fun q _ => by simp [evalAt]; rfl⟩
  · unfold Regular.new
    have hd : domainsFor (Subspace.createDomain (AddMonoidHom.id (ZMod 2)) ⟨[1]⟩) [0] = .ok [i] := by
      unfold domainsFor
      rw [List.map_cons, h1]
      dsimp only
      rw [h2]
      rfl
    have hfp : i.domain.finitePoints = [0] := by
      rw [h3.points]
      rfl
    have hsz := h3.size
    have hp : nontrivialPoints [i] = .ok [] := by
      unfold nontrivialPoints
      show (if _ then _ else _) = _
      rw [if_neg (by simp [hfp, hsz]), if_neg (by simp), hfp]
      rfl
    rw [equalNVars_ok _ 1 (by simp) (by simp), ebind_ok]
    simp only [List.find?_cons, List.find?_nil, List.length_singleton, bne_self_eq_false, List.map_cons, List.map_nil]
    rw [hd, ebind_ok, hp, ebind_ok]
    obtain ⟨q, hq, -⟩ := C17_with_capacity (F := ZMod 2) 0 1
    simp [ProverState.new, checkMultilin, SumMultilin.switchover?, collect, Except.bind, hq]
  · intro w bits stale α
    exact C66_constant_never_succeeds (F := ZMod 2) (D := ZMod 2) _ _ _ _ _ _ _ _ 0 rfl rfl rfl rfl

end Verif.Sumcheck
