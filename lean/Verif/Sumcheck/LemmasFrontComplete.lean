import Verif.Sumcheck.LemmasFrontLoaded

set_option linter.unusedSectionVars false

/-! Completeness of the front-loaded batched sumcheck: prover and verifier run in step. -/

namespace Verif.Sumcheck

open Verif.Mle Verif.Protocol Verif.Univariate Finset Polynomial

variable {F : Type} [Field F] [DecidableEq F]

/-- A prover with its batching coefficient and instance. -/
structure Item (F : Type) [Field F] where
  prover : SumcheckProver F
  coeff : F
  inst : Instance F

def Item.pc (i : Item F) : SumcheckProver F × F := (i.prover, i.coeff)
def Item.ci (i : Item F) : F × Instance F := (i.coeff, i.inst)

/-- Each claim carries the maximal degree of itself and the later ones. -/
def DegEq : List (ClaimWithContext F) → Prop
  | [] => True
  | c :: cs => c.maxDegreeRemaining
      = ((c :: cs).map fun d => d.claim.maxIndividualDegree).foldr max 0 ∧ DegEq cs

theorem bwv_cube {A : Type} (a : F) (n : Nat) (l : List A) (f : A → List F → F) :
    cube n (fun v => batchWeightedValue a (l.map fun x => f x v))
      = batchWeightedValue a (l.map fun x => cube n (f x)) :=
  bwv_sum _ a l fun x b => f x (vertex n b)

theorem frontCoeffs_ok {order : EvaluationOrder} {chs : List F} (pend : List (Item F)) (acc : List F)
    (hon : ∀ a ∈ pend, Honest a.prover a.inst ∧ a.prover.evaluationOrder = order)
    (hlt : ∀ a ∈ pend, chs.length < a.inst.claim.nVars) :
    ∃ cs, roundCoeffs acc ((pend.map Item.pc).map fun p => ⟨p.2, p.1, chs⟩) = .ok cs ∧
      cs.length = max acc.length ((pend.map fun a => a.inst.claim.maxIndividualDegree + 1).foldr max 0) ∧
      ∀ x, evaluateUnivariate cs x
        = evaluateUnivariate acc x + ftruth order (pend.map Item.ci) (chs ++ [x]) := by
  induction pend generalizing acc with
  | nil => exact ⟨acc, rfl, by simp, fun x => by simp [ftruth]⟩
  | cons a pend ih =>
    have ha := List.mem_cons_self (a := a) (l := pend)
    have hl := hlt a ha
    obtain ⟨cs, h1, h2, h3⟩ := execute_eval (hon a ha).1 chs a.coeff
      (a.inst.claim.nVars - (chs.length + 1)) (by omega)
    obtain ⟨ds, g1, g2, g3⟩ := ih (addCoeffs acc (scaleCoeffs cs a.coeff))
      (fun b hb => hon b (List.mem_cons_of_mem _ hb)) (fun b hb => hlt b (List.mem_cons_of_mem _ hb))
    refine ⟨ds, ?_, ?_, fun x => ?_⟩
    · rw [List.map_cons, List.map_cons, roundCoeffs]
      simp only [Item.pc, h1]
      exact g1
    · rw [g2, addCoeffs_length, List.map_cons, List.foldr_cons]
      simp only [scaleCoeffs, List.length_map, h2, Nat.max_assoc]
    · rw [g3, addCoeffs_eval, scaleCoeffs_eval, h3, add_assoc]
      congr 1
      rw [bwv_cube, (hon a ha).2]
      simp only [ftruth, List.map_cons, List.sum_cons, Item.ci, List.length_append,
        List.length_singleton, List.append_assoc, List.singleton_append]

structure CFInv (order : EvaluationOrder) (nR : Nat) (all done pend : List (Item F))
    (evs : List (List F)) (chs : List F) (v : BatchVerifier F) : Prop where
  split : all = done ++ pend
  evs : evs = done.map fun a => a.inst.tables.map fun t =>
    mle t (arrange order (chs.take a.inst.claim.nVars))
  doneLe : ∀ a ∈ done, a.inst.claim.nVars ≤ chs.length
  last : v.last = .sum (ftruth order (pend.map Item.ci) chs)
  round : v.round = chs.length
  claims : List.Forall₂ (fun (c : ClaimWithContext F) (a : F × Instance F) =>
    c.claim = a.2.claim ∧ c.batchCoeff = a.1) v.claims (pend.map Item.ci)
  deg : DegEq v.claims
  sorted : pend.Pairwise fun a b => a.inst.claim.nVars ≤ b.inst.claim.nVars
  range : ∀ a ∈ pend, chs.length ≤ a.inst.claim.nVars ∧ a.inst.claim.nVars ≤ nR
  big : chs.length < nR → ∃ a ∈ pend, a.inst.claim.nVars = nR ∧ 1 ≤ a.inst.claim.maxIndividualDegree

theorem finishReady_agree {R : Output F → Output F → Prop} {order : EvaluationOrder} {nR : Nat}
    {all : List (Item F)} (hwf : ∀ a ∈ all, a.inst.WellFormed)
    (hon : ∀ a ∈ all, Honest a.prover a.inst ∧ a.prover.evaluationOrder = order) (chs : List F)
    (kp : List (List F) × List (SumcheckProver F × F) → PP F (Output F))
    (kv : List (List F) × BatchVerifier F → P F (Output F)) (evs : List (List F))
    (done pend : List (Item F)) (v : BatchVerifier F)
    (hk : ∀ e done pend v, CFInv order nR all done pend (evs ++ e) chs v →
      (∀ a ∈ pend, chs.length < a.inst.claim.nVars) →
      Agree R (kp (e, pend.map Item.pc)) (kv (e, v)))
    (fuel : Nat) (hfuel : pend.length < fuel) (hinv : CFInv order nR all done pend evs chs v) :
    Agree R ((pFinishReady chs.length chs (pend.map Item.pc)).bind kp)
      ((finishReady fuel v).bind kv) := by
  induction fuel generalizing kp kv evs done pend v with
  | zero => omega
  | succ fuel ih =>
    rw [finishReady, Verif.Protocol.bind_assoc]
    unfold BatchVerifier.tryFinishClaim
    cases pend with
    | nil =>
      have hcl : v.claims = [] := List.forall₂_nil_right_iff.mp hinv.claims
      rw [hcl]
      exact hk [] done [] v (by simpa using hinv) (by simp)
    | cons a pend =>
      have haall : a ∈ all := by rw [hinv.split]; simp
      have hr := hinv.range a (List.mem_cons_self ..)
      obtain ⟨c, cs, hca, hcl', hv⟩ := List.forall₂_cons_right_iff.mp hinv.claims
      rw [hv]
      simp only [List.map_cons, pFinishReady, Item.pc]
      have hc1 : c.claim = a.inst.claim := hca.1
      have hc2 : c.batchCoeff = a.coeff := hca.2
      rw [(hon a haall).1.nVars, hc1, hinv.round]
      by_cases hn : a.inst.claim.nVars = chs.length
      · rw [if_neg (by simp [hn]), if_pos hn, (hon a haall).1.finish chs hn.symm, (hon a haall).2]
        simp only [PProg.ofExcept, PProg.bind, Prog.bind]
        have hx := expectedSingle_ok (hwf _ haall) c.batchCoeff
          (a.inst.tables.map fun t => mle t (arrange order chs))
          (by rw [List.length_map]; exact (hwf _ haall).nMultilinears)
        refine .write ?_ ?_
        · rw [List.length_map]; exact (hwf _ haall).nMultilinears
        rw [hinv.last]
        simp only
        rw [hx]
        simp only [Prog.bind]
        rw [Verif.Protocol.bind_assoc, pbind_assoc]
        simp only [PProg.bind, Prog.bind]
        refine ih (fun q => kp ((a.inst.tables.map fun t => mle t (arrange order chs)) :: q.1, q.2))
          (fun q => kv ((a.inst.tables.map fun t => mle t (arrange order chs)) :: q.1, q.2))
          (evs ++ [a.inst.tables.map fun t => mle t (arrange order chs)]) (done ++ [a]) pend _ ?_
          (by simp only [List.length_cons] at hfuel; omega) ?_
        · intro e done pend v h1 h2
          rw [List.append_assoc] at h1
          exact hk (_ :: e) done pend v h1 h2
        · refine ⟨by rw [hinv.split]; simp, ?_, ?_, ?_, rfl, hcl', ?_,
            (List.pairwise_cons.mp hinv.sorted).2,
            fun b hb => hinv.range b (List.mem_cons_of_mem _ hb), ?_⟩
          · rw [hinv.evs, List.map_append, List.map_cons, List.map_nil, hn, List.take_length]
          · intro b hb
            rcases List.mem_append.mp hb with hb | hb
            · exact hinv.doneLe b hb
            · rw [List.mem_singleton.mp hb, hn]
          · show CoeffsOrSum.sum _ = CoeffsOrSum.sum _
            congr 1
            rw [hc2]
            simp only [ftruth, List.map_cons, List.sum_cons, Item.ci, hn, Nat.sub_self, cube_zero,
              List.append_nil, gval]
            ring
          · have := hinv.deg
            rw [hv] at this
            exact this.2
          · intro h
            obtain ⟨b, hb, h1, h2⟩ := hinv.big h
            rcases List.mem_cons.mp hb with e | hb
            · subst e; omega
            · exact ⟨b, hb, h1, h2⟩
      · rw [if_pos hn, if_neg hn, if_neg (by omega)]
        refine hk [] done (a :: pend) v (by simpa using hinv) fun b hb => ?_
        rcases List.mem_cons.mp hb with e | hb
        · rw [e]; omega
        · have := (List.pairwise_cons.mp hinv.sorted).1 b hb
          omega

theorem frontRounds_agree {order : EvaluationOrder} {nR : Nat}
    {all : List (Item F)} (hwf : ∀ a ∈ all, a.inst.WellFormed)
    (hon : ∀ a ∈ all, Honest a.prover a.inst ∧ a.prover.evaluationOrder = order) (n : Nat)
    (done pend : List (Item F)) (evs : List (List F)) (chs : List F) (v : BatchVerifier F)
    (hn : chs.length + n = nR) (hinv : CFInv order nR all done pend evs chs v) :
    Agree (fun o o' => o = o' ∧ FrontCorrectEvals order (all.map Item.inst) o)
      ((pFrontRounds n (pend.map Item.pc) chs.length evs chs).bind fun q =>
        (pFinishReady q.2.1 q.2.2.2 q.1).bind fun r =>
          if r.2.isEmpty = false then .fail .expectedFold
          else (.ret ⟨q.2.2.2, q.2.2.1 ++ r.1⟩ : PP F (Output F)))
      ((runRounds n v evs chs).bind fun q =>
        (finishReady (q.1.claims.length + 1) q.1).bind fun r =>
          (Prog.ofExcept r.2.finish).bind fun _ =>
            (.ret ⟨q.2.2, q.2.1 ++ r.1⟩ : P F (Output F))) := by
  induction n generalizing done pend evs chs v with
  | zero =>
    refine finishReady_agree (nR := nR) hwf hon chs _ _ evs done pend v ?_ _ ?_ hinv
    · intro e done pend v hinv hlt
      have hp : pend = [] := by
        cases pend with
        | nil => rfl
        | cons a pend =>
          have h1 := hlt a (List.mem_cons_self ..)
          have h2 := hinv.range a (List.mem_cons_self ..)
          omega
      subst hp
      have hcl : v.claims = [] := List.forall₂_nil_right_iff.mp hinv.claims
      rw [ofExcept_bind]
      simp only [BatchVerifier.finish, hcl, hinv.last]
      simp only [List.isEmpty_nil, Bool.true_eq_false, if_false, List.map_nil, ftruth,
        List.sum_nil, ne_eq, not_true_eq_false]
      refine .ret ⟨rfl, ?_⟩
      unfold FrontCorrectEvals
      rw [hinv.evs]
      have hs := hinv.split
      rw [List.append_nil] at hs
      rw [hs, List.forall₂_map_left_iff, List.forall₂_map_right_iff, List.forall₂_same]
      exact fun a _ => rfl
    · have := hinv.claims.length_eq
      rw [List.length_map] at this
      show pend.length < v.claims.length + 1
      omega
  | succ n ih =>
    rw [runRounds, Verif.Protocol.bind_assoc, pFrontRounds, pbind_assoc]
    refine finishReady_agree (nR := nR) hwf hon chs _ _ evs done pend v ?_ _ ?_ hinv
    swap
    · have := hinv.claims.length_eq
      rw [List.length_map] at this
      omega
    intro e done pend v hinv hlt
    have hin : ∀ a ∈ pend, a ∈ all := fun a ha => by
      rw [hinv.split]; exact List.mem_append_right _ ha
    obtain ⟨big, hbig, hbn, hbd⟩ := hinv.big (by omega)
    obtain ⟨cs, h1, h2, h3⟩ := frontCoeffs_ok (order := order) (chs := chs) pend []
      (fun a ha => hon a (hin a ha)) hlt
    simp only [Verif.Protocol.bind_assoc, pbind_assoc]
    rw [ofExcept_ok h1]
    unfold BatchVerifier.receiveRoundProof
    rw [hinv.last]
    simp only
    cases pend with
    | nil => simp at hbig
    | cons a pend' =>
      obtain ⟨c, cs', hca, hcl', hv⟩ := List.forall₂_cons_right_iff.mp hinv.claims
      rw [hv]
      simp only
      rw [if_neg (by
        have := hlt a (List.mem_cons_self ..)
        rw [hca.1, hinv.round]
        simp only [Item.ci]
        omega)]
      simp only [PProg.bind, Prog.bind]
      have hdeg := hinv.deg
      rw [hv] at hdeg
      have hdl : ((c :: cs').map fun d => d.claim.maxIndividualDegree)
          = (a :: pend').map fun a => a.inst.claim.maxIndividualDegree := by
        have := hinv.claims
        rw [hv] at this
        clear hdeg hv
        generalize c :: cs' = l at this
        generalize a :: pend' = m at this
        rw [List.forall₂_map_right_iff] at this
        induction this with
        | nil => rfl
        | cons h _ ih =>
          rw [List.map_cons, List.map_cons, ih, h.1]
          rfl
      have hsucc : ((a :: pend').map fun a => a.inst.claim.maxIndividualDegree + 1)
          = ((a :: pend').map fun a => a.inst.claim.maxIndividualDegree).map (· + 1) := by
        rw [List.map_map]; rfl
      have hlen : cs.length = c.maxDegreeRemaining + 1 := by
        rw [h2, hdeg.1, hdl, hsucc, foldr_max_succ _ (by simp)]
        simp
      have hge : 1 ≤ c.maxDegreeRemaining := by
        rw [hdeg.1, hdl]
        have : ∀ (l : List Nat) x, x ∈ l → x ≤ l.foldr max 0 := by
          intro l x hx
          induction l with
          | nil => simp at hx
          | cons y l ih =>
            rcases List.mem_cons.mp hx with e | hx
            · subst e; exact Nat.le_max_left _ _
            · exact (ih hx).trans (Nat.le_max_right _ _)
        exact hbd.trans (this _ _ (List.mem_map.mpr ⟨big, hbig, rfl⟩))
      refine .write (by simp [truncate, hlen]) (.sample fun r => ?_)
      have hsum : recover (truncate cs) (ftruth order ((a :: pend').map Item.ci) chs) = cs := by
        refine recover_truncate cs (by omega) _ ?_
        rw [h3, h3, ftruth_split order _ chs]
        · simp [evaluateUnivariate]
        · intro b hb
          obtain ⟨d, hd, rfl⟩ := List.mem_map.mp hb
          exact hlt d hd
      rw [hsum]
      have hfr : BatchVerifier.finishRound
          ({ claims := c :: cs', round := v.round, last := .coeffs cs } : BatchVerifier F) r
          = .ok { v with last := .sum (evaluateUnivariate cs r), round := v.round + 1 } := by
        simp [BatchVerifier.finishRound, hv]
      rw [ofExcept_bind, hfr]
      have hlc : chs.length + 1 = (chs ++ [r]).length := by simp
      simp only
      rw [hlc]
      refine ih done (a :: pend') (evs ++ e) (chs ++ [r]) _ (by simp; omega) ?_
      refine ⟨hinv.split, ?_, ?_, ?_, ?_, hinv.claims, hinv.deg, hinv.sorted, ?_, ?_⟩
      · rw [hinv.evs]
        refine List.map_congr_left fun b hb => ?_
        rw [List.take_append_of_le_length (hinv.doneLe b hb)]
      · intro b hb
        have := hinv.doneLe b hb
        simp only [List.length_append, List.length_singleton]
        omega
      · show CoeffsOrSum.sum _ = CoeffsOrSum.sum _
        rw [h3]
        simp [evaluateUnivariate]
      · simp [hinv.round]
      · intro b hb
        have := hlt b hb
        simp only [List.length_append, List.length_singleton]
        exact ⟨by omega, (hinv.range b hb).2⟩
      · exact fun _ => ⟨big, hbig, hbn, hbd⟩

end Verif.Sumcheck
