import Verif.Sumcheck.LemmasSumcheck

set_option linter.unusedSectionVars false

/-! Soundness of `batch_verify`: the induction over the rounds. -/

namespace Verif.Sumcheck

open Verif.Mle Verif.Protocol Verif.Univariate Finset Polynomial

variable {F : Type} [Field F] [DecidableEq F]

theorem exists_bad (Q : F[X]) (hQ : Q ≠ 0) :
    ∃ bad : Finset F, bad.card ≤ Q.natDegree ∧ ∀ x, x ∉ bad → Q.eval x ≠ 0 := by
  refine ⟨Q.roots.toFinset, (Multiset.toFinset_card_le _).trans (card_roots' Q), fun x hx h => hx ?_⟩
  rw [Multiset.mem_toFinset]
  exact (mem_roots hQ).mpr h

/-- The true values of the composite sums of an instance. -/
noncomputable def Instance.trues (I : Instance F) : List F :=
  I.polys.map fun p => cubeSum I.claim.nVars I.tables p

/-- The values claimed. -/
def Instance.claimed (I : Instance F) : List F := I.claim.sums.map fun s => s.sum

theorem claimed_length {I : Instance F} (hI : I.WellFormed) : I.claimed.length = I.trues.length := by
  simpa [Instance.claimed, Instance.trues] using hI.compositions.length_eq

theorem holds_iff {I : Instance F} : I.Holds ↔ I.claimed = I.trues := by
  unfold Instance.Holds Instance.claimed Instance.trues
  generalize I.claim.sums = ss
  generalize I.polys = ps
  induction ss generalizing ps with
  | nil => cases ps <;> simp
  | cons s ss ih => cases ps <;> simp [ih]

theorem zipWith_sub_zero {as bs : List F} (hl : as.length = bs.length)
    (h : ∀ v ∈ List.zipWith (· - ·) as bs, v = 0) : as = bs := by
  induction as generalizing bs with
  | nil => cases bs <;> simp_all
  | cons a as ih =>
    cases bs with
    | nil => simp at hl
    | cons b bs =>
      rw [List.zipWith_cons_cons] at h
      have h1 := h (a - b) (List.mem_cons_self ..)
      have h2 := ih (by simpa using hl) fun v hv => h v (List.mem_cons_of_mem _ hv)
      rw [sub_eq_zero.mp h1, h2]

/-- Few batching coefficients hide an error. -/
theorem batch_bad {I : Instance F} (hI : I.WellFormed) (sum t : F) (hbad : sum ≠ t ∨ ¬ I.Holds) :
    ∃ bad : Finset F, bad.card ≤ I.claim.sums.length ∧ ∀ a, a ∉ bad →
      sum + batchWeightedValue a I.claimed ≠ t + batchWeightedValue a I.trues := by
  have hl := claimed_length hI
  have hne : C (sum - t) + (bwPoly I.claimed - bwPoly I.trues) ≠ 0 := by
    rw [bwPoly_sub _ _ hl]
    intro h
    have := bwPoly_zero h
    have e := zipWith_sub_zero hl this.2
    rcases hbad with h | h
    · exact h (sub_eq_zero.mp this.1)
    · exact h (holds_iff.mpr e)
  obtain ⟨bad, hc, hb⟩ := exists_bad _ hne
  refine ⟨bad, hc.trans ?_, fun a ha h => hb a ha ?_⟩
  · refine (natDegree_add_le _ _).trans (Nat.max_le.mpr ⟨by simp, ?_⟩)
    rw [bwPoly_sub _ _ hl]
    refine (bwPoly_natDegree _).trans ?_
    simp [Instance.claimed]
  · rw [eval_add, eval_C, eval_sub, bwPoly_eval, bwPoly_eval]
    linear_combination h

/-! ## The running truth -/

theorem cube_truth_snoc (order : EvaluationOrder) (nR n : Nat) (act : List (F × Instance F)) (a : F)
    (I : Instance F) (chs : List F) (hn : I.claim.nVars = n) (hc : chs.length + n = nR) :
    cube n (truth order nR (act ++ [(a, I)]) chs)
      = cube n (truth order nR act chs) + batchWeightedValue a I.trues := by
  have e : ∀ v, truth order nR (act ++ [(a, I)]) chs v = truth order nR act chs v
      + batchWeightedValue a (I.polys.map fun p => gval order I p v) := by
    intro v
    unfold truth
    rw [List.map_append, List.sum_append]
    simp only [List.map_cons, List.map_nil, List.sum_cons, List.sum_nil, add_zero]
    rw [List.drop_of_length_le (l := chs) (by omega), List.nil_append]
  rw [funext e, cube_add]
  congr 1
  unfold cube Instance.trues
  rw [bwv_sum]
  congr 1
  refine List.map_congr_left fun p _ => ?_
  rw [hn]
  exact cube_gval order I p n

theorem truth_bind (order : EvaluationOrder) (nR : Nat) (act : List (F × Instance F))
    (chs : List F) (r : F) (v : List F) (h : ∀ a ∈ act, nR ≤ chs.length + a.2.claim.nVars) :
    truth order nR act (chs ++ [r]) v = truth order nR act chs (r :: v) := by
  unfold truth
  congr 1
  refine List.map_congr_left fun a ha => ?_
  congr 1
  refine List.map_congr_left fun p _ => ?_
  have := h a ha
  rw [List.drop_append_of_le_length (by omega), List.append_assoc, List.singleton_append]

theorem degree_le_max {c : Claim F} {s : CompositeSum F} (h : s ∈ c.sums) :
    s.composition.degree ≤ c.maxIndividualDegree := by
  unfold Claim.maxIndividualDegree
  have hm : s.composition.degree ∈ c.sums.map fun s => s.composition.degree :=
    List.mem_map.mpr ⟨s, h, rfl⟩
  cases hx : (c.sums.map fun s => s.composition.degree).max? with
  | none => rw [List.max?_eq_none_iff] at hx; rw [hx] at hm; simp at hm
  | some m => exact (List.max?_eq_some_iff.mp hx).2 _ hm

theorem truth_polyIn (order : EvaluationOrder) (nR : Nat) (act : List (F × Instance F))
    (chs : List F) (d : Nat) (hwf : ∀ a ∈ act, a.2.WellFormed)
    (h : ∀ a ∈ act, a.2.claim.maxIndividualDegree ≤ d) : PolyIn d (truth order nR act chs) := by
  unfold truth
  refine PolyIn.listSum act _ fun a ha => PolyIn.bwv a.1 a.2.polys
    (fun p v => gval order a.2 p (chs.drop (nR - a.2.claim.nVars) ++ v)) fun p hp => ?_
  have hdeg : p.totalDegree ≤ d := by
    obtain ⟨i, hi, rfl⟩ := List.getElem_of_mem hp
    have hl := (hwf a ha).compositions.length_eq
    have := (List.forall₂_iff_get.mp (hwf a ha).compositions).2 i (by omega) hi
    exact (this.1.degree.trans (degree_le_max (List.get_mem _ _))).trans (h a ha)
  exact (gval_polyIn order a.2 p hdeg).prefix _

/-! ## The invariant -/

structure Inv (nR n : Nat) (all : List (Instance F)) (act : List (F × Instance F))
    (Is : List (Instance F)) (s : St F) : Prop where
  split : all = act.map Prod.snd ++ Is
  coeffs : s.batchCoeffs = act.map Prod.fst
  chs : s.challenges.length + n = nR
  sorted : Is.Pairwise fun I J => J.claim.nVars ≤ I.claim.nVars
  le : ∀ I ∈ Is, I.claim.nVars ≤ n
  ge : ∀ a ∈ act, n ≤ a.2.claim.nVars ∧ a.2.claim.nVars ≤ nR

def Bad (order : EvaluationOrder) (nR n : Nat) (act : List (F × Instance F))
    (Is : List (Instance F)) (s : St F) : Prop :=
  s.sum ≠ cube n (truth order nR act s.challenges) ∨ ∃ I ∈ Is, ¬ I.Holds

/-- The total number of composite sums of a list of instances. -/
def nSums (Is : List (Instance F)) : Nat := (Is.map fun I => I.claim.sums.length).sum

theorem step_inv {nR n : Nat} {all : List (Instance F)} {act : List (F × Instance F)}
    {I : Instance F} {Is : List (Instance F)} {s : St F} (h : Inv nR n all act (I :: Is) s)
    (hn : I.claim.nVars = n) (a sum : F) (m : Nat) :
    Inv nR n all (act ++ [(a, I)]) Is
      { s with batchCoeffs := s.batchCoeffs ++ [a], sum := sum, maxDegree := m } where
  split := by rw [h.split]; simp
  coeffs := by simp [h.coeffs]
  chs := h.chs
  sorted := (List.pairwise_cons.mp h.sorted).2
  le := fun J hJ => h.le J (List.mem_cons_of_mem _ hJ)
  ge := fun b hb => by
    rcases List.mem_append.mp hb with hb | hb
    · exact h.ge b hb
    · rw [List.mem_singleton] at hb
      subst hb
      have := h.chs
      exact ⟨by rw [hn], by show I.claim.nVars ≤ nR; omega⟩

theorem step_bad {order : EvaluationOrder} {nR n : Nat} {act : List (F × Instance F)}
    {I : Instance F} {Is : List (Instance F)} {s : St F} (hI : I.WellFormed)
    (hn : I.claim.nVars = n) (hc : s.challenges.length + n = nR)
    (hbad : Bad order nR n act (I :: Is) s) :
    ∃ bad : Finset F, bad.card ≤ I.claim.sums.length ∧ ∀ a, a ∉ bad → ∀ m,
      Bad order nR n (act ++ [(a, I)]) Is
        { s with
          batchCoeffs := s.batchCoeffs ++ [a]
          sum := s.sum + batchWeightedValue a (I.claim.sums.map fun i => i.sum)
          maxDegree := m } := by
  by_cases hh : s.sum ≠ cube n (truth order nR act s.challenges) ∨ ¬ I.Holds
  · obtain ⟨bad, hb, h⟩ := batch_bad hI _ _ hh
    refine ⟨bad, hb, fun a ha m => Or.inl ?_⟩
    rw [cube_truth_snoc order nR n act a I _ hn hc]
    exact h a ha
  · push Not at hh
    refine ⟨∅, by simp, fun a _ m => Or.inr ?_⟩
    rcases hbad with h | ⟨J, hJ, h⟩
    · exact absurd hh.1 h
    · rcases List.mem_cons.mp hJ with e | hJ
      · exact absurd (e ▸ hh.2) h
      · exact ⟨J, hJ, h⟩

theorem activate_err {good : Output F → Prop} {order : EvaluationOrder} {nR n : Nat}
    {all : List (Instance F)} (k : List (Claim F) × St F → P F (Output F)) (ε D : Nat)
    (hD : ∀ I ∈ all, I.claim.maxIndividualDegree ≤ D) (hwf : ∀ I ∈ all, I.WellFormed)
    (hk : ∀ act Is s, Inv nR n all act Is s → (∀ I ∈ Is, I.claim.nVars < n) →
      Bad order nR n act Is s → (∀ a ∈ act, a.2.claim.maxIndividualDegree ≤ s.maxDegree) →
      1 ≤ s.maxDegree → s.maxDegree ≤ D →
      SoundErr good (k (Is.map fun I => I.claim, s)) (ε + nSums Is))
    (act : List (F × Instance F)) (Is : List (Instance F)) (s : St F)
    (hinv : Inv nR n all act Is s) (hbad : Bad order nR n act Is s)
    (hdeg : ∀ a ∈ act, a.2.claim.maxIndividualDegree ≤ s.maxDegree)
    (hd : 1 ≤ s.maxDegree ∨ ∃ I ∈ Is, I.claim.nVars = n ∧ 1 ≤ I.claim.maxIndividualDegree)
    (hsD : s.maxDegree ≤ D) :
    SoundErr good ((activate n (Is.map fun I => I.claim) s).bind k) (ε + nSums Is) := by
  induction Is generalizing act s with
  | nil =>
    rcases hd with hd | ⟨I, hI, _⟩
    · exact hk act [] s hinv (by simp) hbad hdeg hd hsD
    · simp at hI
  | cons I Is ih =>
    have hIall : I ∈ all := by rw [hinv.split]; simp
    by_cases hn : I.claim.nVars = n
    · rw [List.map_cons, activate, if_neg (by simp [hn])]
      obtain ⟨bad, hb, h⟩ := step_bad (hwf I hIall) hn hinv.chs hbad
      refine SoundErr.sample bad hb (ε := ε + nSums Is) (by simp [nSums]; omega) fun a ha => ?_
      refine ih (act ++ [(a, I)]) _ (step_inv hinv hn a _ _)
        (h a ha _) ?_ ?_ (Nat.max_le.mpr ⟨hsD, hD I hIall⟩)
      · intro b hb
        rcases List.mem_append.mp hb with hb | hb
        · exact (hdeg b hb).trans (Nat.le_max_left _ _)
        · rw [List.mem_singleton] at hb
          subst hb
          exact Nat.le_max_right _ _
      rcases hd with hd | ⟨J, hJ, hJn, hJd⟩
      · exact Or.inl (hd.trans (Nat.le_max_left _ _))
      · rcases List.mem_cons.mp hJ with e | hJ
        · exact Or.inl ((e ▸ hJd).trans (Nat.le_max_right _ _))
        · exact Or.inr ⟨J, hJ, hJn, hJd⟩
    · rw [List.map_cons, activate, if_pos hn]
      have hlt : ∀ J ∈ I :: Is, J.claim.nVars < n := by
        have h1 := hinv.le I (List.mem_cons_self ..)
        have h2 := (List.pairwise_cons.mp hinv.sorted).1
        intro J hJ
        rcases List.mem_cons.mp hJ with e | hJ
        · subst e; omega
        · have := h2 J hJ; omega
      refine hk act (I :: Is) s hinv hlt hbad hdeg ?_ hsD
      rcases hd with hd | ⟨J, hJ, hJn, _⟩
      · exact hd
      · have := hlt J hJ; omega

/-! ## The end of the protocol -/

theorem eq_map_of_forall₂ {A B : Type} {f : A → B} {l : List A} {es : List B}
    (h : List.Forall₂ (fun a e => e = f a) l es) : es = l.map f := by
  induction h with
  | nil => rfl
  | cons h _ ih => rw [List.map_cons, ← h, ← ih]

theorem collect_ok {I : Instance F} (hI : I.WellFormed) (evals : List F)
    (hl : evals.length = I.claim.nMultilinears) :
    collect (I.claim.sums.map fun s => s.composition.evaluate evals)
      = .ok (I.polys.map fun p => evalAt p evals) := by
  have h := hI.compositions
  revert h
  generalize I.claim.sums = ss
  generalize I.polys = ps
  intro h
  induction h with
  | nil => rfl
  | cons h _ ih =>
    rw [List.map_cons, List.map_cons, h.1.evaluate evals (by rw [hl, h.2]), collect, ih]

theorem expectedSingle_ok {I : Instance F} (hI : I.WellFormed) (a : F) (evals : List F)
    (hl : evals.length = I.claim.nMultilinears) :
    expectedSingle a I.claim evals
      = .ok (batchWeightedValue a (I.polys.map fun p => evalAt p evals)) := by
  rw [expectedSingle, collect_ok hI evals hl]

theorem expectedMulti_ok (f : Instance F → List F) (act : List (F × Instance F)) (acc : F)
    (hwf : ∀ a ∈ act, a.2.WellFormed) (hf : ∀ a ∈ act, (f a.2).length = a.2.claim.nMultilinears) :
    expectedMulti acc (act.map Prod.fst) ((act.map Prod.snd).map fun I => I.claim)
        ((act.map Prod.snd).map f)
      = .ok (acc + (act.map fun a =>
          batchWeightedValue a.1 (a.2.polys.map fun p => evalAt p (f a.2))).sum) := by
  induction act generalizing acc with
  | nil => simp [expectedMulti]
  | cons a act ih =>
    simp only [List.map_cons, expectedMulti, List.sum_cons]
    rw [expectedSingle_ok (hwf a (List.mem_cons_self ..)) _ _ (hf a (List.mem_cons_self ..))]
    simp only
    rw [ih _ (fun b hb => hwf b (List.mem_cons_of_mem _ hb))
      (fun b hb => hf b (List.mem_cons_of_mem _ hb)), add_assoc]

theorem claimPoint_arrange (order : EvaluationOrder) (chs : List F) (n : Nat) :
    claimPoint order (arrange order chs) n = arrange order (chs.drop (chs.length - n)) := by
  cases order with
  | lowToHigh => rfl
  | highToLow =>
    show chs.reverse.take n = (chs.drop (chs.length - n)).reverse
    rw [List.take_reverse]

theorem check_err {order : EvaluationOrder} {nR : Nat} {all : List (Instance F)}
    (hwf : ∀ I ∈ all, I.WellFormed) (act : List (F × Instance F)) (s : St F)
    (hinv : Inv nR 0 all act [] s) (hbad : Bad order nR 0 act [] s) (evals : List (List F)) (ε : Nat) :
    SoundErr (CorrectEvals order all)
      ((Prog.ofExcept (expectedMulti 0 s.batchCoeffs (all.map fun I => I.claim) evals)).bind
        fun expected => if s.sum ≠ expected then .fail .incorrectBatchEvaluation
          else (.ret ⟨orderChallenges order s.challenges, evals⟩ : P F (Output F))) ε := by
  have hall : all = act.map Prod.snd := by rw [hinv.split]; simp
  have harr : orderChallenges order s.challenges = arrange order s.challenges := by
    cases order <;> rfl
  rw [harr]
  have hlen : s.challenges.length = nR := hinv.chs
  by_cases hg : CorrectEvals order all ⟨arrange order s.challenges, evals⟩
  · have he : evals = (act.map Prod.snd).map fun I => I.tables.map fun t =>
        mle t (arrange order (s.challenges.drop (nR - I.claim.nVars))) := by
      rw [← hall]
      refine (eq_map_of_forall₂ hg).trans (List.map_congr_left fun I hI => ?_)
      rw [hall] at hI
      obtain ⟨a, ha, rfl⟩ := List.mem_map.mp hI
      have := (hinv.ge a ha).2
      rw [claimPoint_arrange order, hlen]
    have hx := expectedMulti_ok (fun I => I.tables.map fun t =>
        mle t (arrange order (s.challenges.drop (nR - I.claim.nVars)))) act 0
      (fun a ha => hwf a.2 (by rw [hall]; exact List.mem_map.mpr ⟨a, ha, rfl⟩))
      (fun a ha => by
        rw [List.length_map]
        exact (hwf a.2 (by rw [hall]; exact List.mem_map.mpr ⟨a, ha, rfl⟩)).nMultilinears)
    rw [← he, ← hall, ← hinv.coeffs] at hx
    rw [hx, ofExcept_bind]
    simp only
    rw [if_pos]
    · exact .fail
    · rcases hbad with h | ⟨I, hI, _⟩
      · rw [cube_zero, truth] at h
        rw [zero_add]
        simpa [gval] using h
      · simp at hI
  · rw [ofExcept_bind]
    split
    · split
      · exact .fail
      · exact .ret hg
    · exact .fail

theorem readEvals_err {good : Output F → Prop} (cs : List (Claim F))
    (k : List (List F) → P F (Output F)) (ε : Nat) (hk : ∀ es, SoundErr good (k es) ε) :
    SoundErr good ((readEvals cs).bind k) ε := by
  induction cs generalizing k with
  | nil => exact hk []
  | cons c cs ih =>
    rw [readEvals, Prog.bind]
    refine .read fun m _ => ?_
    rw [bind_assoc]
    exact ih _ fun es => hk (m :: es)

theorem activateRest_err {good : Output F → Prop} {order : EvaluationOrder} {nR : Nat}
    {all : List (Instance F)} (k : St F → P F (Output F)) (ε : Nat)
    (hwf : ∀ I ∈ all, I.WellFormed)
    (hk : ∀ act s, Inv nR 0 all act [] s → Bad order nR 0 act [] s → SoundErr good (k s) ε)
    (act : List (F × Instance F)) (Is : List (Instance F)) (s : St F)
    (hinv : Inv nR 0 all act Is s) (hbad : Bad order nR 0 act Is s) :
    SoundErr good ((activateRest (Is.map fun I => I.claim) s).bind k) (ε + nSums Is) := by
  induction Is generalizing act s with
  | nil => exact hk act s hinv hbad
  | cons I Is ih =>
    have hIall : I ∈ all := by rw [hinv.split]; simp
    have hn : I.claim.nVars = 0 := Nat.le_zero.mp (hinv.le I (List.mem_cons_self ..))
    rw [List.map_cons, activateRest, if_neg (by simp [hn])]
    obtain ⟨bad, hb, h⟩ := step_bad (hwf I hIall) hn hinv.chs hbad
    refine SoundErr.sample bad hb (ε := ε + nSums Is) (by simp [nSums]; omega) fun a ha => ?_
    exact ih (act ++ [(a, I)]) _ (step_inv hinv hn a _ _) (h a ha _)

theorem finish_err {order : EvaluationOrder} {nR : Nat} {all : List (Instance F)}
    (hwf : ∀ I ∈ all, I.WellFormed) (act : List (F × Instance F)) (Is : List (Instance F)) (s : St F)
    (hinv : Inv nR 0 all act Is s) (hbad : Bad order nR 0 act Is s) :
    SoundErr (CorrectEvals order all)
      (finish order (all.map fun I => I.claim) (Is.map fun I => I.claim) s) (nSums Is) := by
  have := activateRest_err (good := CorrectEvals order all) (order := order)
    (fun s => (readEvals (all.map fun I => I.claim)).bind fun evals =>
      (Prog.ofExcept (expectedMulti 0 s.batchCoeffs (all.map fun I => I.claim) evals)).bind
        fun expected => if s.sum ≠ expected then .fail .incorrectBatchEvaluation
          else .ret ⟨orderChallenges order s.challenges, evals⟩) 0 hwf
    (fun act s hi hb => readEvals_err _ _ _ fun es => check_err hwf act s hi hb es 0)
    act Is s hinv hbad
  rw [Nat.zero_add] at this
  exact this

/-- Few challenges hide a wrong running sum. -/
theorem round_bad {h : List F → F} {d n : Nat} (hh : PolyIn d h) (coeffs : List F) (sum : F)
    (hlen : coeffs.length = d) (hd : 1 ≤ d) (hne : sum ≠ cube (n + 1) h) :
    ∃ bad : Finset F, bad.card ≤ d ∧ ∀ x, x ∉ bad →
      interpolateRoundProof coeffs sum x ≠ cube n fun v => h (x :: v) := by
  obtain ⟨Q, hQ, hQe⟩ := hh.round (n := n)
  have hne0 : coeffPoly (recover coeffs sum) - Q ≠ 0 := by
    intro h0
    apply hne
    have e : ∀ x, evaluateUnivariate (recover coeffs sum) x = cube n fun v => h (x :: v) := by
      intro x
      rw [hQe, ← coeffPoly_eval, sub_eq_zero.mp h0]
    cases coeffs with
    | nil => simp at hlen; omega
    | cons c cs => rw [cube_succ, ← e 0, ← e 1, recover_sum]
  obtain ⟨bad, hc, hb⟩ := exists_bad _ hne0
  refine ⟨bad, hc.trans ((natDegree_sub_le _ _).trans (Nat.max_le.mpr ⟨?_, hQ⟩)), fun x hx he => hb x hx ?_⟩
  · refine (coeffPoly_natDegree _).trans ?_
    rw [recover_length]
    omega
  · rw [eval_sub, coeffPoly_eval, ← hQe, ← he, interpolateRoundProof, sub_self]

theorem rounds_err {order : EvaluationOrder} {nR : Nat} {all : List (Instance F)} (D : Nat)
    (hD : ∀ I ∈ all, I.claim.maxIndividualDegree ≤ D) (hwf : ∀ I ∈ all, I.WellFormed)
    (n : Nat) (act : List (F × Instance F)) (Is : List (Instance F)) (s : St F)
    (hinv : Inv nR n all act Is s) (hbad : Bad order nR n act Is s)
    (hdeg : ∀ a ∈ act, a.2.claim.maxIndividualDegree ≤ s.maxDegree)
    (hd : n = 0 ∨ 1 ≤ s.maxDegree ∨
      ∃ I ∈ Is, I.claim.nVars = n ∧ 1 ≤ I.claim.maxIndividualDegree)
    (hsD : s.maxDegree ≤ D) :
    SoundErr (CorrectEvals order all)
      ((rounds n (Is.map fun I => I.claim) s).bind fun q =>
        finish order (all.map fun I => I.claim) q.1 q.2) (n * D + nSums Is) := by
  induction n generalizing act Is s with
  | zero =>
    rw [Nat.zero_mul, Nat.zero_add]
    exact finish_err hwf act Is s hinv hbad
  | succ n ih =>
    rw [rounds, bind_assoc]
    refine activate_err (order := order) _ _ D hD hwf ?_ act Is s hinv hbad hdeg
      (hd.resolve_left (by omega)) hsD
    intro act Is s hinv hlt hbad hdeg h1 hsD
    simp only [Prog.bind]
    refine .read fun coeffs hlen => ?_
    have hwfa : ∀ a ∈ act, a.2.WellFormed := fun a ha =>
      hwf a.2 (by rw [hinv.split]; exact List.mem_append_left _ (List.mem_map.mpr ⟨a, ha, rfl⟩))
    have hnext : ∀ r sum, Bad order nR n act Is
          { s with challenges := s.challenges ++ [r], sum := sum } →
        SoundErr (CorrectEvals order all)
          ((rounds n (Is.map fun I => I.claim)
            { s with challenges := s.challenges ++ [r], sum := sum }).bind fun q =>
              finish order (all.map fun I => I.claim) q.1 q.2) (n * D + nSums Is) := by
      intro r sum hb
      refine ih act Is _ ⟨hinv.split, hinv.coeffs, ?_, hinv.sorted, fun I hI => by
        have := hlt I hI; omega, fun a ha => ⟨by have := (hinv.ge a ha).1; omega, (hinv.ge a ha).2⟩⟩
        hb hdeg (Or.inr (Or.inl h1)) hsD
      have := hinv.chs
      simp only [List.length_append, List.length_singleton]
      omega
    have hcost : D + (n * D + nSums Is) ≤ (n + 1) * D + nSums Is := by
      rw [Nat.succ_mul]; omega
    rcases hbad with hb | hb
    · obtain ⟨bad, hc, hx⟩ := round_bad
        (truth_polyIn order nR act s.challenges s.maxDegree hwfa hdeg) coeffs s.sum hlen h1 hb
      refine SoundErr.sample bad (hc.trans hsD) hcost fun r hr => hnext r _ (Or.inl ?_)
      simp only
      rw [funext fun v => truth_bind order nR act s.challenges r v fun a ha => by
        have := hinv.chs
        have := (hinv.ge a ha).1
        omega]
      exact hx r hr
    · exact (SoundErr.sample0 fun r => hnext r _ (Or.inr hb)).mono
        (Nat.le_trans (Nat.le_add_left _ _) hcost)

theorem maxVars_spec (l : List Nat) (hl : l ≠ []) :
    (l.max?).getD 0 ∈ l ∧ ∀ x ∈ l, x ≤ (l.max?).getD 0 := by
  cases hx : l.max? with
  | none => rw [List.max?_eq_none_iff] at hx; exact absurd hx hl
  | some m => exact List.max?_eq_some_iff.mp hx

theorem sorted_of {all : List (Instance F)}
    (h : Verif.Sorting.isSortedAscending ((all.map fun I => I.claim).map fun c => c.nVars).reverse
      = true) : all.Pairwise fun I J => J.claim.nVars ≤ I.claim.nVars := by
  have h1 := (Verif.Sorting.C03_is_sorted_ascending _).mp h
  have h2 : (((all.map fun I => I.claim).map fun c => c.nVars).reverse).Pairwise (· ≤ ·) :=
    List.pairwise_iff_getElem.mpr fun i j _ hj hij => h1 i j hij hj
  rw [List.pairwise_reverse, List.map_map, List.pairwise_map] at h2
  exact h2

end Verif.Sumcheck
