import Verif.Sumcheck.LemmasSound
import Verif.Math.PropsUnivariate

set_option linter.unusedSectionVars false

/-! Completeness of the batched sumcheck: `batch_prove` and `batch_verify` run in step. -/

namespace Verif.Sumcheck

open Verif.Mle Verif.Protocol Verif.Univariate Finset

variable {F : Type} [Field F] [DecidableEq F]

/-! ## Coefficient lists -/

theorem addCoeffs_length (as bs : List F) : (addCoeffs as bs).length = max as.length bs.length := by
  induction bs generalizing as with
  | nil => cases as <;> simp [addCoeffs]
  | cons b bs ih => cases as <;> simp [addCoeffs, ih]

theorem addCoeffs_eval (as bs : List F) (x : F) :
    evaluateUnivariate (addCoeffs as bs) x = evaluateUnivariate as x + evaluateUnivariate bs x := by
  induction bs generalizing as with
  | nil => cases as <;> simp [addCoeffs, evaluateUnivariate]
  | cons b bs ih =>
    cases as with
    | nil =>
      rw [addCoeffs, evaluateUnivariate_cons, evaluateUnivariate_cons, ih]
      simp [evaluateUnivariate]
    | cons a as =>
      rw [addCoeffs, evaluateUnivariate_cons, evaluateUnivariate_cons, evaluateUnivariate_cons, ih]
      ring

theorem scaleCoeffs_eval (cs : List F) (c x : F) :
    evaluateUnivariate (scaleCoeffs cs c) x = c * evaluateUnivariate cs x := by
  induction cs with
  | nil => simp [scaleCoeffs, evaluateUnivariate]
  | cons b bs ih =>
    have e : scaleCoeffs (b :: bs) c = b * c :: scaleCoeffs bs c := rfl
    rw [e, evaluateUnivariate_cons, evaluateUnivariate_cons, ih]
    ring

/-- Truncating and recovering gives back the coefficients. -/
theorem recover_truncate (cs : List F) (hl : 2 ≤ cs.length) (sum : F)
    (h : evaluateUnivariate cs 0 + evaluateUnivariate cs 1 = sum) :
    recover (truncate cs) sum = cs := by
  have hne : cs ≠ [] := by rintro rfl; simp at hl
  have e := List.dropLast_append_getLast hne
  rw [evaluateUnivariate_one] at h
  have hs : cs.sum = cs.dropLast.sum + cs.getLast hne := by
    conv_lhs => rw [← e]
    simp
  cases cs with
  | nil => simp at hl
  | cons c cs =>
    cases cs with
    | nil => simp at hl
    | cons d cs =>
      rw [evaluateUnivariate_zero] at h
      unfold recover truncate
      have hd : (c :: d :: cs).dropLast = c :: (d :: cs).dropLast := rfl
      rw [hs] at h
      conv_rhs => rw [← e]
      rw [hd] at h ⊢
      simp only
      congr 2
      linear_combination -h

theorem innerPowers_map {A : Type} (a p : F) (l : List A) (f : A → F) :
    innerPowers a p (l.map f) = ∑ i : Fin l.length, p * a ^ (i : Nat) * f l[i] := by
  induction l generalizing p with
  | nil => simp [innerPowers]
  | cons v vs ih =>
    rw [List.map_cons, innerPowers, ih]
    have := Fin.sum_univ_succ (fun i : Fin (vs.length + 1) => p * a ^ (i : Nat) * f (v :: vs)[i])
    refine Eq.trans ?_ this.symm
    simp only [Fin.val_zero, pow_zero, mul_one, Fin.val_succ]
    congr 1
    refine Finset.sum_congr rfl fun i _ => ?_
    rw [pow_succ]
    simp only [Fin.getElem_fin, Fin.val_succ, List.getElem_cons_succ]
    ring

theorem execute_eval {pr : SumcheckProver F} {I : Instance F} (h : Honest pr I)
    (folded : List F) (α : F) (n : Nat) (hn : folded.length + n + 1 = I.claim.nVars) :
    ∃ cs, pr.execute folded α = .ok cs ∧ cs.length = I.claim.maxIndividualDegree + 1 ∧
      ∀ x, α * evaluateUnivariate cs x = cube n fun v => batchWeightedValue α
        (I.polys.map fun p => gval pr.evaluationOrder I p (folded ++ x :: v)) := by
  obtain ⟨cs, h1, h2, h3⟩ := h.execute folded α (by omega)
  refine ⟨cs, h1, h2, fun x => ?_⟩
  rw [C19_evaluate_univariate, h3, show I.claim.nVars - folded.length - 1 = n by omega, cube,
    Finset.mul_sum]
  refine Finset.sum_congr rfl fun b _ => ?_
  rw [batchWeightedValue, innerPowers_map]
  simp only [one_mul]
  rfl

/-! ## Prover and verifier in step -/

/-- A prover, the instance it is for. -/
abbrev Pair (F : Type) [Field F] := SumcheckProver F × Instance F

/-- The batching coefficients and instances of the active provers. -/
def actOf (act : List (Active F × Instance F)) : List (F × Instance F) :=
  act.map fun a => (a.1.coeff, a.2)

structure CInv (order : EvaluationOrder) (nR n : Nat) (all : List (Pair F))
    (act : List (Active F × Instance F)) (left : List (Pair F)) (s : St F) : Prop where
  split : all = (act.map fun a => (a.1.prover, a.2)) ++ left
  coeffs : s.batchCoeffs = act.map fun a => a.1.coeff
  chs : s.challenges.length + n = nR
  sorted : left.Pairwise fun I J => J.2.claim.nVars ≤ I.2.claim.nVars
  le : ∀ I ∈ left, I.2.claim.nVars ≤ n
  ge : ∀ a ∈ act, n ≤ a.2.claim.nVars ∧ a.2.claim.nVars ≤ nR
  folded : ∀ a ∈ act, a.1.folded = s.challenges.drop (nR - a.2.claim.nVars)
  sum : s.sum = cube n (truth order nR (actOf act) s.challenges)

/-- `m` is the maximal degree of the active claims. -/
def IsMaxDeg (act : List (Active F × Instance F)) (m : Nat) : Prop :=
  m = (act.map fun a => a.2.claim.maxIndividualDegree).foldr max 0

theorem cstep {order : EvaluationOrder} {nR n : Nat} {all : List (Pair F)}
    {act : List (Active F × Instance F)} {p : Pair F} {left : List (Pair F)} {s : St F}
    (h : CInv order nR n all act (p :: left) s) (hn : p.2.claim.nVars = n) (hh : p.2.Holds)
    (a : F) (m : Nat) :
    CInv order nR n all (act ++ [(⟨a, p.1, []⟩, p.2)]) left
      { s with
        batchCoeffs := s.batchCoeffs ++ [a]
        sum := s.sum + batchWeightedValue a (p.2.claim.sums.map fun i => i.sum)
        maxDegree := m } where
  split := by rw [h.split]; simp
  coeffs := by simp [h.coeffs]
  chs := h.chs
  sorted := (List.pairwise_cons.mp h.sorted).2
  le := fun J hJ => h.le J (List.mem_cons_of_mem _ hJ)
  ge := fun b hb => by
    rcases List.mem_append.mp hb with hb | hb
    · exact h.ge b hb
    · rw [List.mem_singleton] at hb
      subst hb
      have := h.chs
      exact ⟨by simp [hn], by show p.2.claim.nVars ≤ nR; omega⟩
  folded := fun b hb => by
    rcases List.mem_append.mp hb with hb | hb
    · exact h.folded b hb
    · rw [List.mem_singleton] at hb
      subst hb
      have := h.chs
      show [] = s.challenges.drop (nR - p.2.claim.nVars)
      rw [List.drop_of_length_le (by omega)]
  sum := by
    have e : actOf (act ++ [(⟨a, p.1, []⟩, p.2)]) = actOf act ++ [(a, p.2)] := by simp [actOf]
    rw [e, cube_truth_snoc order nR n (actOf act) a p.2 s.challenges hn h.chs, ← holds_iff.mp hh]
    show s.sum + _ = _
    rw [h.sum]
    rfl

theorem foldr_max_append (l : List Nat) (x : Nat) : (l ++ [x]).foldr max 0 = max (l.foldr max 0) x := by
  induction l with
  | nil => simp
  | cons y l ih => simp [ih, Nat.max_assoc]

theorem activate_agree {R : Output F → Output F → Prop} {order : EvaluationOrder} {nR n : Nat}
    {all : List (Pair F)} (hon : ∀ p ∈ all, Honest p.1 p.2) (hh : ∀ p ∈ all, p.2.Holds)
    (kp : List (SumcheckProver F) × List (Active F) → PP F (Output F))
    (kv : List (Claim F) × St F → P F (Output F))
    (chs : List F)
    (hk : ∀ act left s, CInv order nR n all act left s → (∀ p ∈ left, p.2.claim.nVars < n) →
      IsMaxDeg act s.maxDegree → s.challenges = chs → 1 ≤ s.maxDegree →
      Agree R (kp (left.map Prod.fst, act.map Prod.fst)) (kv (left.map fun p => p.2.claim, s)))
    (act : List (Active F × Instance F)) (left : List (Pair F)) (s : St F)
    (hinv : CInv order nR n all act left s) (hmd : IsMaxDeg act s.maxDegree)
    (hs : s.challenges = chs) (hd : 1 ≤ s.maxDegree ∨ ∃ p ∈ left, p.2.claim.nVars = n ∧ 1 ≤ p.2.claim.maxIndividualDegree) :
    Agree R ((pActivate n (left.map Prod.fst) (act.map Prod.fst)).bind kp)
      ((activate n (left.map fun p => p.2.claim) s).bind kv) := by
  induction left generalizing act s with
  | nil =>
    rcases hd with hd | ⟨p, hp, _⟩
    · exact hk act [] s hinv (by simp) hmd hs hd
    · simp at hp
  | cons p left ih =>
    have hall : p ∈ all := by rw [hinv.split]; simp
    have hnv := (hon p hall).nVars
    by_cases hn : p.2.claim.nVars = n
    · rw [List.map_cons, List.map_cons, activate, if_neg (by simp [hn]), pActivate,
        if_neg (by simp [hnv, hn])]
      refine .sample fun a => ?_
      have hstep := cstep hinv hn (hh p hall) a (max s.maxDegree p.2.claim.maxIndividualDegree)
      have := ih _ _ hstep ?_ hs ?_
      · rw [List.map_append] at this
        exact this
      · simp only [IsMaxDeg, List.map_append, List.map_cons, List.map_nil, foldr_max_append]
        rw [← hmd]
      · simp only
        rcases hd with hd | ⟨J, hJ, hJn, hJd⟩
        · exact Or.inl (hd.trans (Nat.le_max_left _ _))
        · rcases List.mem_cons.mp hJ with e | hJ
          · exact Or.inl ((e ▸ hJd).trans (Nat.le_max_right _ _))
          · exact Or.inr ⟨J, hJ, hJn, hJd⟩
    · rw [List.map_cons, List.map_cons, activate, if_pos hn, pActivate, if_pos (by rw [hnv]; exact hn)]
      have hlt : ∀ J ∈ p :: left, J.2.claim.nVars < n := by
        have h1 := hinv.le p (List.mem_cons_self ..)
        have h2 := (List.pairwise_cons.mp hinv.sorted).1
        intro J hJ
        rcases List.mem_cons.mp hJ with e | hJ
        · subst e; omega
        · have := h2 J hJ; omega
      refine hk act (p :: left) s hinv hlt hmd hs ?_
      rcases hd with hd | ⟨J, hJ, hJn, _⟩
      · exact hd
      · have := hlt J hJ; omega

/-- The prover's round polynomial is the true one. -/
theorem roundCoeffs_ok {order : EvaluationOrder} {nR n : Nat} {chs : List F}
    (act : List (Active F × Instance F)) (acc : List F)
    (hon : ∀ a ∈ act, Honest a.1.prover a.2 ∧ a.1.prover.evaluationOrder = order)
    (hf : ∀ a ∈ act, a.1.folded = chs.drop (nR - a.2.claim.nVars))
    (hc : chs.length + (n + 1) = nR) (hge : ∀ a ∈ act, n + 1 ≤ a.2.claim.nVars ∧ a.2.claim.nVars ≤ nR) :
    ∃ cs, roundCoeffs acc (act.map Prod.fst) = .ok cs ∧
      cs.length = max acc.length ((act.map fun a => a.2.claim.maxIndividualDegree + 1).foldr max 0) ∧
      ∀ x, evaluateUnivariate cs x
        = evaluateUnivariate acc x + cube n fun v => truth order nR (actOf act) chs (x :: v) := by
  induction act generalizing acc with
  | nil =>
    refine ⟨acc, rfl, by simp, fun x => ?_⟩
    simp [truth, actOf, cube]
  | cons a act ih =>
    have ha := List.mem_cons_self (a := a) (l := act)
    have hlen : a.1.folded.length + n + 1 = a.2.claim.nVars := by
      have := hge a ha
      rw [hf a ha, List.length_drop]
      omega
    obtain ⟨cs, h1, h2, h3⟩ := execute_eval (hon a ha).1 a.1.folded a.1.coeff n hlen
    obtain ⟨ds, g1, g2, g3⟩ := ih (addCoeffs acc (scaleCoeffs cs a.1.coeff))
      (fun b hb => hon b (List.mem_cons_of_mem _ hb)) (fun b hb => hf b (List.mem_cons_of_mem _ hb))
      (fun b hb => hge b (List.mem_cons_of_mem _ hb))
    refine ⟨ds, ?_, ?_, fun x => ?_⟩
    · rw [List.map_cons, roundCoeffs, h1]
      exact g1
    · rw [g2, addCoeffs_length, List.map_cons, List.foldr_cons]
      simp only [scaleCoeffs, List.length_map, h2, Nat.max_assoc]
    · rw [g3, addCoeffs_eval, scaleCoeffs_eval, h3, add_assoc]
      congr 1
      rw [← cube_add]
      congr 1
      funext v
      have e : actOf (a :: act) = (a.1.coeff, a.2) :: actOf act := rfl
      rw [e]
      simp only [truth, List.map_cons, List.sum_cons]
      rw [hf a ha, (hon a ha).2]

theorem foldr_max_succ (l : List Nat) (h : l ≠ []) :
    (l.map (· + 1)).foldr max 0 = l.foldr max 0 + 1 := by
  induction l with
  | nil => exact absurd rfl h
  | cons x l ih =>
    cases l with
    | nil => simp
    | cons y l =>
      rw [List.map_cons, List.foldr_cons, ih (by simp)]
      show max (x + 1) _ = max x ((y :: l).foldr max 0) + 1
      omega

theorem rest_agree {R : Output F → Output F → Prop} {order : EvaluationOrder} {nR : Nat}
    {all : List (Pair F)} (hon : ∀ p ∈ all, Honest p.1 p.2) (hh : ∀ p ∈ all, p.2.Holds)
    (kp : List (Active F) → PP F (Output F)) (kv : St F → P F (Output F))
    (chs : List F) (hk : ∀ act s, CInv order nR 0 all act [] s → s.challenges = chs →
      Agree R (kp (act.map Prod.fst)) (kv s))
    (act : List (Active F × Instance F)) (left : List (Pair F)) (s : St F)
    (hinv : CInv order nR 0 all act left s) (hs : s.challenges = chs) :
    Agree R ((pRest (left.map Prod.fst) (act.map Prod.fst)).bind kp)
      ((activateRest (left.map fun p => p.2.claim) s).bind kv) := by
  induction left generalizing act s with
  | nil => exact hk act s hinv hs
  | cons p left ih =>
    have hall : p ∈ all := by rw [hinv.split]; simp
    have hn : p.2.claim.nVars = 0 := Nat.le_zero.mp (hinv.le p (List.mem_cons_self ..))
    rw [List.map_cons, List.map_cons, activateRest, if_neg (by simp [hn]), pRest,
      if_neg (by simp [(hon p hall).nVars, hn])]
    refine .sample fun a => ?_
    have hstep := cstep hinv hn (hh p hall) a s.maxDegree
    have := ih _ _ hstep hs
    rw [List.map_append] at this
    exact this

theorem write_agree {R : Output F → Output F → Prop} (cs : List (Claim F)) (ms : List (List F))
    (h : List.Forall₂ (fun (c : Claim F) m => m.length = c.nMultilinears) cs ms)
    (next : PP F (Output F)) (kv : List (List F) → P F (Output F)) (hk : Agree R next (kv ms)) :
    Agree R (pWrite ms next) ((readEvals cs).bind kv) := by
  induction h generalizing kv with
  | nil => exact hk
  | @cons c m cs ms hm _ ih =>
    rw [pWrite, readEvals, Prog.bind]
    refine .write hm ?_
    rw [bind_assoc]
    exact ih (fun rest => kv (m :: rest)) hk

theorem collect_finish {order : EvaluationOrder} (act : List (Active F × Instance F))
    (hon : ∀ a ∈ act, Honest a.1.prover a.2 ∧ a.1.prover.evaluationOrder = order)
    (hf : ∀ a ∈ act, a.1.folded.length = a.2.claim.nVars) :
    collect ((act.map Prod.fst).map fun a => a.prover.finish a.folded)
      = .ok (act.map fun a => a.2.tables.map fun t => mle t (arrange order a.1.folded)) := by
  induction act with
  | nil => rfl
  | cons a act ih =>
    have ha := List.mem_cons_self (a := a) (l := act)
    rw [List.map_cons, List.map_cons, (hon a ha).1.finish _ (hf a ha), collect,
      ih (fun b hb => hon b (List.mem_cons_of_mem _ hb)) fun b hb => hf b (List.mem_cons_of_mem _ hb),
      (hon a ha).2]
    rfl

/-- The end of the two programs. -/
theorem finish_agree {order : EvaluationOrder} {nR : Nat} {all : List (Pair F)}
    (hon : ∀ p ∈ all, Honest p.1 p.2 ∧ p.1.evaluationOrder = order)
    (hwf : ∀ p ∈ all, p.2.WellFormed) (hh : ∀ p ∈ all, p.2.Holds)
    (act : List (Active F × Instance F)) (left : List (Pair F)) (s : St F)
    (hinv : CInv order nR 0 all act left s) :
    Agree (fun o o' => o = o' ∧ CorrectEvals order (all.map Prod.snd) o)
      ((pRest (left.map Prod.fst) (act.map Prod.fst)).bind fun act =>
        (PProg.ofExcept (collect (act.map fun a => a.prover.finish a.folded))).bind fun evals =>
          pWrite evals (.ret ⟨orderChallenges order s.challenges, evals⟩))
      (finish order (all.map fun p => p.2.claim) (left.map fun p => p.2.claim) s) := by
  refine rest_agree (order := order) (fun p hp => (hon p hp).1) hh _ _ s.challenges ?_ act left s
    hinv rfl
  intro act s' hinv hs
  rw [← hs]
  have hall : all = act.map fun a => (a.1.prover, a.2) := by rw [hinv.split]; simp
  have hin : ∀ a ∈ act, (a.1.prover, a.2) ∈ all := fun a ha => by
    rw [hall]; exact List.mem_map.mpr ⟨a, ha, rfl⟩
  have hlen : s'.challenges.length = nR := hinv.chs
  have hfl : ∀ a ∈ act, a.1.folded.length = a.2.claim.nVars := fun a ha => by
    have := (hinv.ge a ha).2
    rw [hinv.folded a ha, List.length_drop]
    omega
  rw [collect_finish act (fun a ha => hon _ (hin a ha)) hfl]
  have hclaims : (all.map fun p => p.2.claim) = act.map fun a => a.2.claim := by
    rw [hall, List.map_map]; rfl
  simp only [PProg.ofExcept, PProg.bind]
  rw [hclaims]
  have hevals : (act.map fun a => a.2.tables.map fun t => mle t (arrange order a.1.folded))
      = ((actOf act).map Prod.snd).map fun I => I.tables.map fun t =>
          mle t (arrange order (s'.challenges.drop (nR - I.claim.nVars))) := by
    simp only [actOf, List.map_map]
    refine List.map_congr_left fun a ha => ?_
    rw [hinv.folded a ha]
    rfl
  refine write_agree _ _ ?_ _ _ ?_
  · rw [List.forall₂_map_left_iff, List.forall₂_map_right_iff, List.forall₂_same]
    intro a ha
    rw [List.length_map]
    exact (hwf _ (hin a ha)).nMultilinears
  · have hx := expectedMulti_ok (fun I => I.tables.map fun t =>
        mle t (arrange order (s'.challenges.drop (nR - I.claim.nVars)))) (actOf act) 0
      (fun a ha => by
        obtain ⟨b, hb, rfl⟩ := List.mem_map.mp ha
        exact hwf _ (hin b hb))
      (fun a ha => by
        obtain ⟨b, hb, rfl⟩ := List.mem_map.mp ha
        rw [List.length_map]
        exact (hwf _ (hin b hb)).nMultilinears)
    rw [← hevals] at hx
    have e1 : (actOf act).map Prod.fst = s'.batchCoeffs := by
      rw [hinv.coeffs, actOf, List.map_map]; rfl
    have e2 : ((actOf act).map Prod.snd).map (fun I => I.claim) = act.map fun a => a.2.claim := by
      rw [actOf, List.map_map, List.map_map]; rfl
    rw [e1, e2] at hx
    rw [hx]
    simp only [Prog.ofExcept, Prog.bind]
    rw [if_neg]
    · refine .ret ⟨rfl, ?_⟩
      unfold CorrectEvals
      rw [hall, List.map_map, List.forall₂_map_left_iff, List.forall₂_map_right_iff,
        List.forall₂_same]
      intro a ha
      refine List.map_congr_left fun t _ => ?_
      have ho : orderChallenges order s'.challenges = arrange order s'.challenges := by
        cases order <;> rfl
      show mle t (arrange order a.1.folded) = mle t (claimPoint order _ a.2.claim.nVars)
      rw [ho, claimPoint_arrange, hlen, hinv.folded a ha]
    · rw [not_not, hinv.sum, cube_zero, truth, zero_add]
      simp [gval]

theorem ofExcept_ok {A : Type} {e : Except Error A} {a : A} (h : e = .ok a) (k : A → PP F (Output F)) :
    (PProg.ofExcept e).bind k = k a := by rw [h]; rfl

theorem pbind_assoc {A B C : Type} (p : PP F A) (k : A → PP F B) (l : B → PP F C) :
    (p.bind k).bind l = p.bind fun a => (k a).bind l := by
  induction p with
  | ret a => rfl
  | fail e => rfl
  | write m p ih => simp only [PProg.bind, ih]
  | sample c ih => simp only [PProg.bind, ih]

theorem rounds_agree {order : EvaluationOrder} {nR : Nat} {all : List (Pair F)}
    (hon : ∀ p ∈ all, Honest p.1 p.2 ∧ p.1.evaluationOrder = order)
    (hwf : ∀ p ∈ all, p.2.WellFormed) (hh : ∀ p ∈ all, p.2.Holds) (n : Nat)
    (act : List (Active F × Instance F)) (left : List (Pair F)) (s : St F)
    (hinv : CInv order nR n all act left s) (hmd : IsMaxDeg act s.maxDegree)
    (hd : n = 0 ∨ 1 ≤ s.maxDegree ∨
      ∃ p ∈ left, p.2.claim.nVars = n ∧ 1 ≤ p.2.claim.maxIndividualDegree) :
    Agree (fun o o' => o = o' ∧ CorrectEvals order (all.map Prod.snd) o)
      ((pRounds n (left.map Prod.fst) (act.map Prod.fst) s.challenges).bind fun q =>
        (pRest q.1 q.2.1).bind fun act =>
        (PProg.ofExcept (collect (act.map fun a => a.prover.finish a.folded))).bind fun evals =>
          pWrite evals (.ret ⟨orderChallenges order q.2.2, evals⟩))
      ((rounds n (left.map fun p => p.2.claim) s).bind fun q =>
        finish order (all.map fun p => p.2.claim) q.1 q.2) := by
  induction n generalizing act left s with
  | zero => exact finish_agree hon hwf hh act left s hinv
  | succ n ih =>
    rw [rounds, bind_assoc, pRounds, pbind_assoc]
    refine activate_agree (order := order) (fun p hp => (hon p hp).1) hh _ _ s.challenges ?_ act
      left s hinv hmd rfl (hd.resolve_left (by omega))
    intro act left s' hinv hlt hmd hs h1
    rw [← hs]
    have hin : ∀ a ∈ act, (a.1.prover, a.2) ∈ all := fun a ha => by
      rw [hinv.split]; exact List.mem_append_left _ (List.mem_map.mpr ⟨a, ha, rfl⟩)
    obtain ⟨cs, hc1, hc2, hc3⟩ := roundCoeffs_ok (order := order) act [] (fun a ha => hon _ (hin a ha))
      hinv.folded hinv.chs hinv.ge
    simp only [pbind_assoc]
    rw [ofExcept_ok hc1]
    have hne : act.map (fun a => a.2.claim.maxIndividualDegree) ≠ [] := by
      intro h
      rw [IsMaxDeg, h] at hmd
      simp at hmd
      omega
    have hlen : cs.length = s'.maxDegree + 1 := by
      rw [hc2, hmd, ← foldr_max_succ _ hne, List.map_map]
      simp [Function.comp_def]
    simp only [PProg.bind, Prog.bind]
    refine .write (by simp [truncate, hlen]) (.sample fun r => ?_)
    have hc3' : ∀ x, evaluateUnivariate cs x
        = cube n fun v => truth order nR (actOf act) s'.challenges (x :: v) := by
      intro x
      rw [hc3 x]
      simp [evaluateUnivariate]
    have hrec : recover (truncate cs) s'.sum = cs := by
      refine recover_truncate cs (by omega) _ ?_
      rw [hc3', hc3', hinv.sum, cube_succ]
    have hnext : CInv order nR n all
        (act.map fun a => ({ a.1 with folded := a.1.folded ++ [r] }, a.2)) left
        { s' with challenges := s'.challenges ++ [r]
                  sum := interpolateRoundProof (truncate cs) s'.sum r } := by
      have hact : actOf (act.map fun a => ({ a.1 with folded := a.1.folded ++ [r] }, a.2))
          = actOf act := by
        simp only [actOf, List.map_map]; rfl
      refine ⟨?_, ?_, ?_, hinv.sorted, fun p hp => by have := hlt p hp; omega, ?_, ?_, ?_⟩
      · rw [hinv.split, List.map_map]; rfl
      · rw [List.map_map]; exact hinv.coeffs
      · have := hinv.chs
        simp only [List.length_append, List.length_singleton]
        omega
      · intro a ha
        obtain ⟨b, hb, rfl⟩ := List.mem_map.mp ha
        have := hinv.ge b hb
        exact ⟨by have := this.1; show n ≤ b.2.claim.nVars; omega, this.2⟩
      · intro a ha
        obtain ⟨b, hb, rfl⟩ := List.mem_map.mp ha
        have h1 := hinv.ge b hb
        have h2 := hinv.chs
        show b.1.folded ++ [r] = (s'.challenges ++ [r]).drop (nR - b.2.claim.nVars)
        rw [List.drop_append_of_le_length (by omega), hinv.folded b hb]
      · rw [hact]
        show interpolateRoundProof (truncate cs) s'.sum r = _
        rw [interpolateRoundProof, hrec, hc3']
        congr 1
        funext v
        refine (truth_bind order nR (actOf act) s'.challenges r v fun a ha => ?_).symm
        obtain ⟨b, hb, rfl⟩ := List.mem_map.mp ha
        have h1 := (hinv.ge b hb).1
        have h2 := hinv.chs
        show nR ≤ _ + b.2.claim.nVars
        omega
    have hmd' : IsMaxDeg (act.map fun a => ({ a.1 with folded := a.1.folded ++ [r] }, a.2))
        s'.maxDegree := by
      rw [IsMaxDeg, List.map_map]
      exact hmd
    have := ih _ left _ hnext hmd' (Or.inr (Or.inl h1))
    rw [List.map_map] at this
    rw [List.map_map]
    exact this

end Verif.Sumcheck
