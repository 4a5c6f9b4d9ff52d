import Verif.Sumcheck.SpecBivariate
import Verif.Sumcheck.LemmasComplete
import Mathlib.Algebra.Field.ZMod

/-! # C63: the sumcheck prover for products of two multilinears -/

set_option linter.unusedSectionVars false

namespace Verif.Sumcheck

open Verif.Mle Verif.Univariate Finset

variable {F : Type} [Field F] [DecidableEq F]

/-! ## Lemmas -/

theorem range_sum (n : Nat) (f : Nat → F) : ((List.range n).map f).sum = ∑ v ∈ range n, f v := by
  induction n with
  | zero => simp
  | succ n ih => rw [List.range_succ, List.map_append, List.sum_append, ih, Finset.sum_range_succ]; simp

/-- The sum that the compositions ask for. -/
def prodSum (n : Nat) (rows : List (Nat → F)) (c : Nat × Nat) : F :=
  match rows[c.1]?, rows[c.2]? with
  | some a, some b => ∑ v ∈ range (2 ^ n), a v * b v
  | _, _ => 0

theorem accumulate_ok (n : Nat) (rows : List (Nat → F)) (α : F) (cs : List (Nat × Nat)) (p acc : F)
    (h : ∀ c ∈ cs, c.1 < rows.length ∧ c.2 < rows.length) :
    accumulateProducts n rows α cs p acc = .ok (acc + innerPowers α p (cs.map (prodSum n rows))) := by
  induction cs generalizing p acc with
  | nil => simp [accumulateProducts, innerPowers]
  | cons c cs ih =>
    obtain ⟨h1, h2⟩ := h c (List.mem_cons_self ..)
    unfold accumulateProducts sumProducts
    rw [List.getElem?_eq_getElem h1, List.getElem?_eq_getElem h2]
    simp only
    rw [ih _ _ fun d hd => h d (List.mem_cons_of_mem _ hd), List.map_cons, innerPowers, range_sum]
    unfold prodSum
    rw [List.getElem?_eq_getElem h1, List.getElem?_eq_getElem h2, add_assoc]

/-- One folding step. -/
def foldTable (n : Nat) (r : F) (t : Nat → F) : Nat → F := fun i => t i + (t (i + 2 ^ n) - t i) * r

theorem mle_foldTable (t : Nat → F) (q : List F) (r : F) : mle (foldTable q.length r t) q = mle t (q ++ [r]) := by
  rw [mle_snoc]
  have : foldTable q.length r t = fun i => (1 - r) * t i + r * t (i + 2 ^ q.length) := by
    funext i
    unfold foldTable
    ring
  rw [this, mle_add, mle_smul, mle_smul]

/-- The table after folding with the challenges, for `n` variables. -/
def foldAll (n : Nat) : List F → (Nat → F) → Nat → F
  | [], t => t
  | r :: rs, t => foldAll (n - 1) rs (foldTable (n - 1) r t)

theorem mle_foldAll (n : Nat) (rs : List F) (t : Nat → F) (q : List F) (h : q.length + rs.length = n) :
    mle (foldAll n rs t) q = mle t (q ++ rs.reverse) := by
  induction rs generalizing n t with
  | nil => simp [foldAll]
  | cons r rs ih =>
    simp only [List.length_cons] at h
    rw [foldAll, ih (n - 1) _ (by omega), List.reverse_cons, ← List.append_assoc, ← mle_foldTable]
    congr 2
    simp only [List.length_append, List.length_reverse]
    omega

/-- The batched sum of the products of the rows. -/
def batched (n : Nat) (rows : List (Nat → F)) (α : F) (cs : List (Nat × Nat)) : F := innerPowers α 1 (cs.map (prodSum n rows))

theorem prodSum_line (n : Nat) (rows : List (Nat → F)) (c : Nat × Nat) (h2 : (2 : F) = 0) (x : F) :
    prodSum n (rows.map (foldTable n x)) c =
      (prodSum (n + 1) rows c - prodSum n (rows.map fun t i => t (i + 2 ^ n)) c) +
      (prodSum n (rows.map fun t i => t (i + 2 ^ n)) c
        - (prodSum (n + 1) rows c - prodSum n (rows.map fun t i => t (i + 2 ^ n)) c)
        - prodSum n (rows.map fun t i => t i + t (i + 2 ^ n)) c) * x +
      prodSum n (rows.map fun t i => t i + t (i + 2 ^ n)) c * x ^ 2 := by
  unfold prodSum
  simp only [List.getElem?_map]
  rcases rows[c.1]? with _ | a
  · simp
  rcases rows[c.2]? with _ | b
  · simp
  simp only [Option.map_some]
  rw [pow_succ, Nat.mul_two, Finset.sum_range_add]
  have e : ∀ s t : F, s + t - t = s := fun s t => by ring
  have e' : (∑ v ∈ range (2 ^ n), a (2 ^ n + v) * b (2 ^ n + v)) = ∑ v ∈ range (2 ^ n), a (v + 2 ^ n) * b (v + 2 ^ n) :=
    Finset.sum_congr rfl fun v _ => by rw [Nat.add_comm]
  rw [e', e, ← Finset.sum_sub_distrib, ← Finset.sum_sub_distrib, Finset.sum_mul, Finset.sum_mul, ← Finset.sum_add_distrib,
    ← Finset.sum_add_distrib]
  refine Finset.sum_congr rfl fun v _ => ?_
  unfold foldTable
  linear_combination (- a v * b (v + 2 ^ n) * x ^ 2 - a (v + 2 ^ n) * b v * x ^ 2
    + a v * b (v + 2 ^ n) * x + a (v + 2 ^ n) * b v * x) * h2

theorem innerPowers_lin {A : Type} (a p : F) (l : List A) (f g h k : A → F) (x y : F)
    (e : ∀ c, f c = g c + h c * x + k c * y) :
    innerPowers a p (l.map f) = innerPowers a p (l.map g) + innerPowers a p (l.map h) * x + innerPowers a p (l.map k) * y := by
  induction l generalizing p with
  | nil => simp [innerPowers]
  | cons c l ih =>
    simp only [List.map_cons, innerPowers]
    rw [ih, e]
    ring

theorem innerPowers_sub {A : Type} (a p : F) (l : List A) (f g : A → F) :
    innerPowers a p (l.map fun c => f c - g c) = innerPowers a p (l.map f) - innerPowers a p (l.map g) := by
  induction l generalizing p with
  | nil => simp [innerPowers]
  | cons c l ih =>
    simp only [List.map_cons, innerPowers]
    rw [ih]
    ring

theorem eval3 (c0 c1 c2 x : F) : evaluateUnivariate [c0, c1, c2] x = c0 + c1 * x + c2 * x ^ 2 := by
  rw [evaluateUnivariate_cons, evaluateUnivariate_cons, evaluateUnivariate_cons]
  simp [evaluateUnivariate]
  ring

/-- The coefficients that `execute` computes are those of the batched sum of the products on a line. -/
theorem bivCoeffs_eval (h2 : (2 : F) = 0) (n : Nat) (rows : List (Nat → F)) (α : F) (cs : List (Nat × Nat)) (x : F) :
    evaluateUnivariate (roundCoeffsFromEvals (batched (n + 1) rows α cs)
      (batched n (rows.map fun t i => t (i + 2 ^ n)) α cs, batched n (rows.map fun t i => t i + t (i + 2 ^ n)) α cs)) x =
      batched n (rows.map (foldTable n x)) α cs := by
  unfold roundCoeffsFromEvals batched
  simp only
  rw [eval3, innerPowers_lin α 1 cs _ _ _ _ x (x ^ 2) (prodSum_line n rows · h2 x), innerPowers_sub, innerPowers_sub,
    innerPowers_sub, innerPowers_sub]

/-- The prover before a round: its tables, and the sum that it holds on to. -/
structure Ready (n : Nat) (rows : List (Nat → F)) (cs : List (Nat × Nat)) (α : F) (s : Bivariate F) : Prop where
  vars : s.nVarsRemaining = n
  mults : s.multilins = rows
  comps : s.compositions = cs
  last : (∃ sums, s.last = .initialSums sums ∧ evaluateUnivariate sums α = batched n rows α cs) ∨
    s.last = .batchedSum (batched n rows α cs)

theorem Ready.execute {n : Nat} {rows : List (Nat → F)} {cs : List (Nat × Nat)} {α : F} {s : Bivariate F}
    (h : Ready (n + 1) rows cs α s) (hc : ∀ c ∈ cs, c.1 < rows.length ∧ c.2 < rows.length) :
    s.execute α = .ok (if cs.isEmpty then [] else roundCoeffsFromEvals (batched (n + 1) rows α cs)
      (batched n (rows.map fun t i => t (i + 2 ^ n)) α cs, batched n (rows.map fun t i => t i + t (i + 2 ^ n)) α cs),
      { s with last := .coeffs (roundCoeffsFromEvals (batched (n + 1) rows α cs)
        (batched n (rows.map fun t i => t (i + 2 ^ n)) α cs,
          batched n (rows.map fun t i => t i + t (i + 2 ^ n)) α cs)) }) := by
  have he : calculateRoundEvals s.nVarsRemaining α s.multilins s.compositions =
      .ok (batched n (rows.map fun t i => t (i + 2 ^ n)) α cs, batched n (rows.map fun t i => t i + t (i + 2 ^ n)) α cs) := by
    rw [h.vars, h.mults, h.comps]
    unfold calculateRoundEvals
    rw [if_neg (by omega)]
    simp only [Nat.add_sub_cancel]
    rw [accumulate_ok _ _ _ _ _ _ (fun c hc' => by simpa using hc c hc')]
    simp only
    rw [accumulate_ok _ _ _ _ _ _ (fun c hc' => by simpa using hc c hc')]
    simp only [zero_add]
    rfl
  unfold Bivariate.execute
  rw [he]
  simp only
  rcases h.last with ⟨sums, hl, hs⟩ | hl
  · rw [hl]
    simp only [hs, h.comps]
  · rw [hl]
    simp only [h.comps]

theorem Ready.fold {n : Nat} {rows : List (Nat → F)} {cs : List (Nat × Nat)} {α : F} {s : Bivariate F} (h2 : (2 : F) = 0)
    (h : Ready (n + 1) rows cs α s) (hc : ∀ c ∈ cs, c.1 < rows.length ∧ c.2 < rows.length) (r : F) :
    ∃ p s', s.execute α = .ok p ∧ p.2.fold r = .ok s' ∧ Ready n (rows.map (foldTable n r)) cs α s' := by
  refine ⟨_, { s with
        last := .batchedSum (batched n (rows.map (foldTable n r)) α cs)
        multilins := rows.map (foldTable n r)
        nVarsRemaining := n }, h.execute hc, ?_, ?_⟩
  · unfold Bivariate.fold
    simp only
    rw [if_neg (by rw [h.vars]; omega), bivCoeffs_eval h2, h.vars, h.mults]
    rfl
  · exact ⟨rfl, rfl, h.comps, Or.inr rfl⟩

theorem Ready.rounds {n : Nat} {rows : List (Nat → F)} {cs : List (Nat × Nat)} {α : F} {s : Bivariate F} (h2 : (2 : F) = 0)
    (rs : List F) (h : Ready (n + rs.length) rows cs α s) (hc : ∀ c ∈ cs, c.1 < rows.length ∧ c.2 < rows.length) :
    ∃ s', s.rounds α rs = .ok s' ∧ Ready n (rows.map (foldAll (n + rs.length) rs)) cs α s' := by
  induction rs generalizing rows s with
  | nil => exact ⟨s, rfl, by simpa [foldAll] using h⟩
  | cons r rs ih =>
    have h' : Ready (n + rs.length + 1) rows cs α s := h
    obtain ⟨p, s', e1, e2, e3⟩ := h'.fold h2 hc r
    obtain ⟨s'', g1, g2⟩ := ih e3 fun c hc' => by simpa using hc c hc'
    refine ⟨s'', ?_, ?_⟩
    · rw [Bivariate.rounds, e1]
      simp only
      rw [e2]
      exact g1
    · rw [List.map_map] at g2
      exact g2

theorem innerPowers_eval (α p : F) (l : List F) : innerPowers α p l = p * evaluateUnivariate l α := by
  induction l generalizing p with
  | nil => simp [innerPowers, evaluateUnivariate]
  | cons c l ih =>
    rw [innerPowers, ih, evaluateUnivariate_cons]
    ring

theorem batched_initial (n : Nat) (tables : List (Nat → F)) (sums : List ((Nat × Nat) × F))
    (h : ProductSums n tables sums) (α : F) :
    evaluateUnivariate (sums.map Prod.snd) α = batched n tables α (sums.map Prod.fst) := by
  unfold batched
  rw [innerPowers_eval, one_mul, List.map_map]
  congr 1
  refine List.map_congr_left fun s hs => ?_
  obtain ⟨a, b, h1, h2, h3⟩ := h s hs
  show s.2 = prodSum n tables s.1
  unfold prodSum
  rw [h1, h2]
  exact h3

theorem sums_index {n : Nat} {tables : List (Nat → F)} {sums : List ((Nat × Nat) × F)} (h : ProductSums n tables sums) :
    ∀ c ∈ sums.map Prod.fst, c.1 < tables.length ∧ c.2 < tables.length := by
  intro c hc
  obtain ⟨s, hs, rfl⟩ := List.mem_map.mp hc
  obtain ⟨a, b, h1, h2, -⟩ := h s hs
  exact ⟨(List.getElem?_eq_some_iff.mp h1).1, (List.getElem?_eq_some_iff.mp h2).1⟩

theorem evalAt_product (rows : List F) (i j : Nat) (a b : F) (ha : rows[i]? = some a) (hb : rows[j]? = some b) :
    evalAt (MvPolynomial.X i * MvPolynomial.X j) rows = a * b := by
  unfold evalAt
  rw [map_mul, MvPolynomial.eval_X, MvPolynomial.eval_X, List.getD_eq_getElem?_getD, List.getD_eq_getElem?_getD, ha, hb]
  rfl

/-- The batched sum of the folded tables is the sum over the cube of the products of the multilinears. -/
theorem batched_cube (k n : Nat) (tables : List (Nat → F)) (sums : List ((Nat × Nat) × F)) (α : F) (rs : List F)
    (hn : k + rs.length = n) (hi : ∀ c ∈ sums.map Prod.fst, c.1 < tables.length ∧ c.2 < tables.length) :
    batched k (tables.map (foldAll n rs)) α (sums.map Prod.fst) =
      cube k fun v => innerPowers α 1 ((sums.map fun s => MvPolynomial.X s.1.1 * MvPolynomial.X s.1.2).map fun p =>
        evalAt p (tables.map fun t => mle t (arrange .highToLow (rs ++ v)))) := by
  have hrev := cube_reverse k fun v => innerPowers α 1 ((sums.map fun s => MvPolynomial.X s.1.1 * MvPolynomial.X s.1.2).map
    fun p => evalAt p (tables.map fun t => mle t (v ++ rs.reverse)))
  simp only [arrange, List.reverse_append]
  rw [hrev]
  unfold batched
  rw [List.map_map]
  have key : ∀ (l : List ((Nat × Nat) × F)) (p : F), (∀ c ∈ l.map Prod.fst, c.1 < tables.length ∧ c.2 < tables.length) →
      innerPowers α p (l.map (prodSum k (tables.map (foldAll n rs)) ∘ Prod.fst)) =
      cube k fun v => innerPowers α p ((l.map fun s => MvPolynomial.X s.1.1 * MvPolynomial.X s.1.2).map
        fun p => evalAt p (tables.map fun t => mle t (v ++ rs.reverse))) := by
    intro l
    induction l with
    | nil => intro p _; simp [innerPowers, cube]
    | cons s l ih =>
      intro p hl
      obtain ⟨h1, h2⟩ := hl s.1 (by simp)
      simp only [List.map_cons, innerPowers]
      rw [cube_add, ← ih _ fun c hc => hl c (by rw [List.map_cons]; exact List.mem_cons_of_mem _ hc)]
      congr 1
      unfold cube
      rw [← Finset.mul_sum]
      congr 1
      show prodSum k _ s.1 = _
      unfold prodSum
      rw [List.getElem?_map, List.getElem?_map, List.getElem?_eq_getElem h1, List.getElem?_eq_getElem h2]
      simp only [Option.map_some]
      refine Finset.sum_congr rfl fun v hv => ?_
      have hv := Finset.mem_range.mp hv
      rw [evalAt_product _ s.1.1 s.1.2 (mle tables[s.1.1] (vertex k v ++ rs.reverse))
        (mle tables[s.1.2] (vertex k v ++ rs.reverse)) (by simp [h1]) (by simp [h2])]
      rw [← mle_foldAll n rs _ _ (by simpa [vertex] using hn), ← mle_foldAll n rs _ _ (by simpa [vertex] using hn),
        mle_vertex _ _ _ hv, mle_vertex _ _ _ hv]
  exact key sums 1 hi

/-! ## The properties -/

/-- **C63.** For every number of variables, all multilinears with that many variables and all claims on sums of products of two
of them that are true, over a field of characteristic two: `BivariateSumcheckProver::new` succeeds, in every round, whatever the
challenges and the batching coefficient, `execute` gives the round polynomial of the batch, and `finish` the evaluations of the
multilinears at the challenges. -/
theorem C63_honest (h2 : (2 : F) = 0) (n : Nat) (sums : List ((Nat × Nat) × F)) (multilins : List (Nat × (Nat → F)))
    (hn : ∀ m ∈ multilins, m.1 = n) (hs : ProductSums n (multilins.map Prod.snd) sums) :
    ∃ s, Bivariate.new n sums multilins = .ok s ∧ s.toProver.evaluationOrder = .highToLow ∧
      ∀ I, IsProductInstance n (multilins.map Prod.snd) sums I → HonestOrEmpty s.toProver I := by
  refine ⟨⟨n, n, multilins.map Prod.snd, sums.map Prod.fst, .initialSums (sums.map Prod.snd)⟩, ?_, ?_⟩
  · unfold Bivariate.new
    rw [if_neg]
    simp only [ne_eq, decide_not, List.any_eq_true, Bool.not_eq_eq_eq_not, Bool.not_true, decide_eq_false_iff_not, not_exists,
      not_and, not_not]
    exact hn
  refine ⟨rfl, fun I hI => ?_⟩
  have hi := sums_index hs
  have hready : ∀ α, Ready n (multilins.map Prod.snd) (sums.map Prod.fst) α
      ⟨n, n, multilins.map Prod.snd, sums.map Prod.fst, .initialSums (sums.map Prod.snd)⟩ := fun α =>
    ⟨rfl, rfl, rfl, Or.inl ⟨_, rfl, batched_initial n _ sums hs α⟩⟩
  refine ⟨hI.nVars.symm, fun folded α hlt => ?_, fun folded hl => ?_⟩
  · rw [hI.nVars] at hlt
    obtain ⟨k, hk⟩ : ∃ k, n = k + 1 + folded.length := ⟨n - folded.length - 1, by omega⟩
    have hr := hready α
    subst hk
    obtain ⟨s', e1, e2⟩ := hr.rounds h2 folded hi
    have e3 := e2.execute fun c hc => by simpa using hi c hc
    have hpoly : ∀ x, evaluateUnivariate (roundCoeffsFromEvals _ _) x = _ := fun x =>
      bivCoeffs_eval h2 k ((multilins.map Prod.snd).map (foldAll (k + 1 + folded.length) folded)) α (sums.map Prod.fst) x
    have hx : ∀ x, batched k (((multilins.map Prod.snd).map (foldAll (k + 1 + folded.length) folded)).map (foldTable k x)) α
        (sums.map Prod.fst) = ∑ b ∈ range (2 ^ (I.claim.nVars - folded.length - 1)), ∑ i : Fin I.polys.length,
          α ^ (i : Nat) * evalAt I.polys[i] (I.tables.map fun t =>
              mle t (arrange .highToLow (folded ++ x :: vertex (I.claim.nVars - folded.length - 1) b))) := by
      intro x
      have hf : ∀ t : Nat → F, foldTable k x (foldAll (k + 1 + folded.length) folded t) = foldAll (k + (folded ++ [x]).length) (folded ++ [x]) t := by
        intro t
        have gen : ∀ (fs : List F) (t : Nat → F), foldTable k x (foldAll (k + 1 + fs.length) fs t) =
            foldAll (k + (fs ++ [x]).length) (fs ++ [x]) t := by
          intro fs
          induction fs with
          | nil => intro t; rfl
          | cons f fs ih =>
            intro t
            have := ih (foldTable (k + 1 + fs.length) f t)
            rw [List.cons_append, foldAll, foldAll]
            have a1 : k + 1 + (f :: fs).length - 1 = k + 1 + fs.length := by simp only [List.length_cons]; omega
            have a2 : k + (f :: (fs ++ [x])).length - 1 = k + (fs ++ [x]).length := by simp only [List.length_cons]; omega
            have a3 : k + (fs ++ [x]).length = k + 1 + fs.length := by simp only [List.length_append, List.length_singleton]; omega
            rw [a1, a2, this, a3]
        exact gen folded t
      rw [List.map_map]
      have : (foldTable k x ∘ foldAll (k + 1 + folded.length) folded) = foldAll (k + (folded ++ [x]).length) (folded ++ [x]) :=
        funext hf
      rw [this, batched_cube k (k + (folded ++ [x]).length) _ sums α (folded ++ [x]) rfl hi, ← hI.polys, ← hI.tables, hI.nVars,
        show k + 1 + folded.length - folded.length - 1 = k by omega]
      unfold cube
      refine Finset.sum_congr rfl fun b _ => ?_
      dsimp only
      rw [innerPowers_map]
      simp only [one_mul, List.append_assoc, List.singleton_append]
    have hexec : (Bivariate.toProver ⟨k + 1 + folded.length, k + 1 + folded.length, multilins.map Prod.snd, sums.map Prod.fst,
        .initialSums (sums.map Prod.snd)⟩).execute folded α = .ok (if (sums.map Prod.fst).isEmpty then [] else
          roundCoeffsFromEvals
            (batched (k + 1) ((multilins.map Prod.snd).map (foldAll (k + 1 + folded.length) folded)) α (sums.map Prod.fst))
            (batched k (((multilins.map Prod.snd).map (foldAll (k + 1 + folded.length) folded)).map
                fun t i => t (i + 2 ^ k)) α (sums.map Prod.fst),
              batched k (((multilins.map Prod.snd).map (foldAll (k + 1 + folded.length) folded)).map
                fun t i => t i + t (i + 2 ^ k)) α (sums.map Prod.fst))) := by
      unfold Bivariate.toProver
      simp only
      rw [e1]
      simp only
      rw [e3]
    refine ⟨_, hexec, ?_, fun x => ?_⟩
    · rw [hI.degree]
      cases sums with
      | nil => exact Or.inr ⟨rfl, rfl⟩
      | cons s l => exact Or.inl rfl
    · refine Eq.trans ?_ (hx x)
      rw [← C19_evaluate_univariate]
      cases sums with
      | nil =>
        simp [evaluateUnivariate, batched, innerPowers]
      | cons s l => exact hpoly x
  · rw [hI.nVars] at hl
    have hr := hready 0
    rw [show n = 0 + folded.length by omega] at hr
    obtain ⟨s', e1, e2⟩ := hr.rounds h2 folded hi
    have e1' : Bivariate.rounds 0 ⟨n, n, multilins.map Prod.snd, sums.map Prod.fst, .initialSums (sums.map Prod.snd)⟩ folded
        = .ok s' := by
      rw [← e1]
      congr 1
      rw [show n = 0 + folded.length by omega]
    unfold Bivariate.toProver
    simp only
    rw [e1']
    simp only
    have hfin : s'.finish = .ok (s'.multilins.map fun t => t 0) := by
      unfold Bivariate.finish
      rcases e2.last with ⟨sums, hl, -⟩ | hl
      · rw [hl]; simp only; rw [if_pos e2.vars]
      · rw [hl]; simp only; rw [if_pos e2.vars]
    rw [hfin, e2.mults, hI.tables, List.map_map]
    congr 1
    refine List.map_congr_left fun t _ => ?_
    have := mle_foldAll (0 + folded.length) folded t [] (by simp)
    show foldAll (0 + folded.length) folded t 0 = mle t (arrange .highToLow folded)
    rw [show arrange .highToLow folded = [] ++ folded.reverse from rfl, ← this, mle_nil]

/-- The hypotheses are met, for instance by two multilinears in one variable over the field with two elements, with the sums of
their product and of the square of the first. -/
example : ∃ (sums : List ((Nat × Nat) × ZMod 2)) (multilins : List (Nat × (Nat → ZMod 2))), sums.length = 2 ∧
    (∀ m ∈ multilins, m.1 = 1) ∧ ProductSums 1 (multilins.map Prod.snd) sums ∧ (2 : ZMod 2) = 0 := by
  refine ⟨[((0, 1), 1), ((0, 0), 0)], [(1, fun _ => 1), (1, fun i => if i = 0 then 1 else 0)], rfl, by simp, ?_, by decide⟩
  intro s hs
  simp only [List.mem_cons, List.not_mem_nil, or_false] at hs
  rcases hs with rfl | rfl
  · exact ⟨_, _, rfl, rfl, by decide⟩
  · exact ⟨_, _, rfl, rfl, by decide⟩

/-- **C63.** The rounds succeed for every batching coefficient, and what `finish` gives after them does not depend on it. -/
theorem C63_finish_any_coeff (h2 : (2 : F) = 0) (n : Nat) (sums : List ((Nat × Nat) × F)) (multilins : List (Nat × (Nat → F)))
    (hs : ProductSums n (multilins.map Prod.snd) sums) (s : Bivariate F)
    (hnew : Bivariate.new n sums multilins = .ok s) (α : F) (folded : List F) (hl : folded.length = n) :
    ∃ s', s.rounds α folded = .ok s' ∧ s'.finish = s.toProver.finish folded := by
  have hi := sums_index hs
  unfold Bivariate.new at hnew
  split at hnew
  · cases hnew
  injection hnew with hnew
  subst hnew
  have hr : ∀ α, Ready (0 + folded.length) (multilins.map Prod.snd) (sums.map Prod.fst) α
      ⟨n, n, multilins.map Prod.snd, sums.map Prod.fst, .initialSums (sums.map Prod.snd)⟩ := fun α => by
    rw [Nat.zero_add, hl]
    exact ⟨rfl, rfl, rfl, Or.inl ⟨_, rfl, batched_initial n _ sums hs α⟩⟩
  have hfin : ∀ α s', Ready 0 ((multilins.map Prod.snd).map (foldAll (0 + folded.length) folded)) (sums.map Prod.fst) α s' →
      s'.finish = .ok (((multilins.map Prod.snd).map (foldAll (0 + folded.length) folded)).map fun t => t 0) := by
    intro α s' e2
    unfold Bivariate.finish
    rcases e2.last with ⟨sums, hl, -⟩ | hl
    · rw [hl]; simp only; rw [if_pos e2.vars, e2.mults]
    · rw [hl]; simp only; rw [if_pos e2.vars, e2.mults]
  obtain ⟨s', e1, e2⟩ := (hr α).rounds h2 folded hi
  obtain ⟨s'', g1, g2⟩ := (hr 0).rounds h2 folded hi
  refine ⟨s', e1, ?_⟩
  unfold Bivariate.toProver
  simp only
  rw [g1]
  simp only
  rw [hfin α s' e2, hfin 0 s'' g2]

/-- **C63.** The prover refuses multilinears of another size and calls out of turn: `fold` before `execute`, `execute` twice,
`finish` between `execute` and `fold` or before the last round, and `fold` after the last. -/
theorem C63_refuses (n : Nat) (sums : List ((Nat × Nat) × F)) (multilins : List (Nat × (Nat → F))) (s : Bivariate F)
    (coeffs : List F) (α r : F) :
    ((∃ m ∈ multilins, m.1 ≠ n) → Bivariate.new n sums multilins = .error .numberOfVariablesMismatch) ∧
    (s.nVarsRemaining = 0 → s.fold r = .error .expectedFinish) ∧
    (0 < s.nVarsRemaining → (∀ c, s.last ≠ .coeffs c) → s.fold r = .error .expectedExecution) ∧
    (0 < s.nVarsRemaining → (∀ c ∈ s.compositions, c.1 < s.multilins.length ∧ c.2 < s.multilins.length) →
      s.last = .coeffs coeffs → s.execute α = .error .expectedFold) ∧
    (s.last = .coeffs coeffs → s.finish = .error .expectedFold) ∧
    (0 < s.nVarsRemaining → (∀ c, s.last ≠ .coeffs c) → s.finish = .error .expectedExecution) := by
  refine ⟨fun ⟨m, hm, hne⟩ => ?_, fun h => ?_, fun h hl => ?_, fun h hc hl => ?_, fun hl => ?_, fun h hl => ?_⟩
  · unfold Bivariate.new
    rw [if_pos]
    simp only [ne_eq, decide_not, List.any_eq_true]
    exact ⟨m, hm, by simpa using hne⟩
  · unfold Bivariate.fold
    rw [if_pos h]
  · unfold Bivariate.fold
    rw [if_neg (by omega)]
    split
    next c hc => exact absurd hc (hl c)
    next => rfl
  · unfold Bivariate.execute calculateRoundEvals
    rw [if_neg (by omega)]
    simp only
    rw [accumulate_ok _ _ _ _ _ _ (fun c hc' => by simpa using hc c hc')]
    simp only
    rw [accumulate_ok _ _ _ _ _ _ (fun c hc' => by simpa using hc c hc')]
    simp only
    rw [hl]
  · unfold Bivariate.finish
    rw [hl]
  · unfold Bivariate.finish
    split
    next c hc => exact absurd hc (hl c)
    next => rw [if_neg (by omega)]

/-- **C63 (finding).** `execute` on no variables panics, where `fold` returns an error. -/
theorem C63_execute_no_vars_panics (s : Bivariate F) (h : s.nVarsRemaining = 0) (α : F) : s.execute α = .error .panic := by
  unfold Bivariate.execute calculateRoundEvals
  rw [if_pos h]

end Verif.Sumcheck
