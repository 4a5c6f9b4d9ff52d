import Verif.Piop.LemmasPiopVerify
import Verif.Sumcheck.PropsBivariate
import Verif.Sumcheck.PropsFrontLoaded

set_option linter.unusedSectionVars false
set_option linter.dupNamespace false

/-! The prover and the verifier run in step. -/

namespace Verif.Piop

open Verif.Mle Verif.Sumcheck Verif.Protocol Verif.Univariate Finset
open Verif.Piecewise (Piece concat)

variable {F : Type} [Field F] [DecidableEq F]

/-! ## When FRI commits -/

theorem commitRounds_gt : ∀ (arities : List Nat) (start : Nat), (∀ a ∈ arities, 0 < a) → ∀ r ∈ commitRounds start arities, start < r
  | [], start, _, r, hr => by simp [commitRounds] at hr
  | a :: as, start, hp, r, hr => by
    have ha := hp a (List.mem_cons_self ..)
    rw [commitRounds, List.mem_cons] at hr
    rcases hr with rfl | hr
    · omega
    · have := commitRounds_gt as (start + a) (fun b hb => hp b (List.mem_cons_of_mem _ hb)) r hr
      omega

/-- What the verifier still expects. -/
structure NextOK (arities : List Nat) (round : Nat) (next : Option Nat × List Nat) : Prop where
  mem : ∀ r, round < r → (r ∈ commitRounds 0 arities ↔ ∃ b, next.1 = some b ∧ (r = b ∨ r ∈ commitRounds b next.2))
  gt : ∀ b, next.1 = some b → round < b
  pos : ∀ a ∈ next.2, 0 < a

theorem NextOK.first {arities : List Nat} (hp : ∀ a ∈ arities, 0 < a) : NextOK arities 0 (nextCommit 0 arities) := by
  cases arities with
  | nil => exact ⟨by simp [commitRounds, nextCommit], by simp [nextCommit], by simp [nextCommit]⟩
  | cons a as =>
    refine ⟨fun r _ => ?_, fun b hb => ?_, fun b hb => hp b (List.mem_cons_of_mem _ hb)⟩
    · simp [nextCommit, commitRounds]
    · simp only [nextCommit, Option.some.injEq] at hb
      have := hp a (List.mem_cons_self ..)
      omega

theorem NextOK.now {arities : List Nat} {round : Nat} {next : Option Nat × List Nat} (h : NextOK arities round next) :
    round + 1 ∈ commitRounds 0 arities ↔ next.1 = some (round + 1) := by
  rw [h.mem _ (Nat.lt_succ_self _)]
  constructor
  · rintro ⟨b, hb, e | hr⟩
    · rw [hb, ← e]
    · have h1 := commitRounds_gt _ _ h.pos _ hr
      have h2 := h.gt b hb
      omega
  · exact fun e => ⟨_, e, Or.inl rfl⟩

theorem NextOK.skip {arities : List Nat} {round : Nat} {next : Option Nat × List Nat} (h : NextOK arities round next)
    (hn : next.1 ≠ some (round + 1)) : NextOK arities (round + 1) next := by
  refine ⟨fun r hr => h.mem r (by omega), fun b hb => ?_, h.pos⟩
  have h1 := h.gt b hb
  have : b ≠ round + 1 := fun e => hn (by rw [hb, e])
  omega

theorem NextOK.step {arities : List Nat} {round : Nat} {next : Option Nat × List Nat} (h : NextOK arities round next)
    (hn : next.1 = some (round + 1)) : NextOK arities (round + 1) (nextCommit (round + 1) next.2) := by
  have hm : ∀ r, round + 1 < r → (r ∈ commitRounds 0 arities ↔ r ∈ commitRounds (round + 1) next.2) := by
    intro r hr
    rw [h.mem r (by omega), hn]
    constructor
    · rintro ⟨b, hb, hor⟩
      injection hb with hb
      subst hb
      rcases hor with e | hr
      · omega
      · exact hr
    · exact fun hr => ⟨_, rfl, Or.inr hr⟩
  have hp := h.pos
  cases hx : next.2 with
  | nil =>
    rw [hx] at hm
    refine ⟨fun r hr => ?_, by simp [nextCommit], by simp [nextCommit]⟩
    rw [hm r hr]
    simp [nextCommit, commitRounds]
  | cons a as =>
    rw [hx] at hm hp
    refine ⟨fun r hr => ?_, fun b hb => ?_, fun b hb => hp b (List.mem_cons_of_mem _ hb)⟩
    · rw [hm r hr]
      simp [nextCommit, commitRounds]
    · simp only [nextCommit, Option.some.injEq] at hb
      have := hp a (List.mem_cons_self ..)
      omega

theorem commitmentsFor_snoc (commitAt : List F → Option (List F)) (chs : List F) (r : F) :
    commitmentsFor commitAt (chs ++ [r]) = commitmentsFor commitAt chs ++ (commitAt (chs ++ [r])).toList := by
  unfold commitmentsFor
  rw [List.length_append, List.length_singleton, List.range_succ, List.filterMap_append]
  congr 1
  · refine List.filterMap_congr fun i hi => ?_
    rw [List.mem_range] at hi
    rw [List.take_append_of_le_length (by omega)]
  · rw [List.filterMap_cons, List.filterMap_nil, List.take_of_length_le (by simp)]
    cases commitAt (chs ++ [r]) <;> rfl

/-! ## The provers -/

theorem executeOrEmpty_eval {pr : SumcheckProver F} {I : Instance F} (h : HonestOrEmpty pr I)
    (folded : List F) (α : F) (n : Nat) (hn : folded.length + n + 1 = I.claim.nVars) :
    ∃ cs, pr.execute folded α = .ok cs ∧
      (cs.length = I.claim.maxIndividualDegree + 1 ∨ I.claim.maxIndividualDegree = 0 ∧ cs = []) ∧
      ∀ x, α * evaluateUnivariate cs x = cube n fun v => batchWeightedValue α
        (I.polys.map fun p => gval pr.evaluationOrder I p (folded ++ x :: v)) := by
  obtain ⟨cs, h1, h2, h3⟩ := h.execute folded α (by omega)
  refine ⟨cs, h1, h2, fun x => ?_⟩
  rw [C19_evaluate_univariate, h3, show I.claim.nVars - folded.length - 1 = n by omega, cube,
    Finset.mul_sum]
  refine Finset.sum_congr rfl fun b _ => ?_
  rw [batchWeightedValue, innerPowers_map]
  simp only [one_mul]
  rfl

/-- The greatest degree of the pending claims. -/
def maxDeg (pend : List (Item F)) : Nat := (pend.map fun a => a.inst.claim.maxIndividualDegree).foldr max 0

theorem piopCoeffs_ok {order : EvaluationOrder} {chs : List F} (pend : List (Item F)) (acc : List F)
    (hon : ∀ a ∈ pend, HonestOrEmpty a.prover a.inst ∧ a.prover.evaluationOrder = order)
    (hlt : ∀ a ∈ pend, chs.length < a.inst.claim.nVars) :
    ∃ cs, roundCoeffs acc ((pend.map Item.pc).map fun p => ⟨p.2, p.1, chs⟩) = .ok cs ∧
      (cs.length = max acc.length (maxDeg pend + 1) ∨ cs.length = acc.length ∧ maxDeg pend = 0) ∧
      ∀ x, evaluateUnivariate cs x
        = evaluateUnivariate acc x + ftruth order (pend.map Item.ci) (chs ++ [x]) := by
  induction pend generalizing acc with
  | nil => exact ⟨acc, rfl, Or.inr ⟨rfl, rfl⟩, fun x => by simp [ftruth]⟩
  | cons a pend ih =>
    have ha := List.mem_cons_self (a := a) (l := pend)
    have hl := hlt a ha
    obtain ⟨cs, h1, h2, h3⟩ := executeOrEmpty_eval (hon a ha).1 chs a.coeff
      (a.inst.claim.nVars - (chs.length + 1)) (by omega)
    obtain ⟨ds, g1, g2, g3⟩ := ih (addCoeffs acc (scaleCoeffs cs a.coeff))
      (fun b hb => hon b (List.mem_cons_of_mem _ hb)) (fun b hb => hlt b (List.mem_cons_of_mem _ hb))
    refine ⟨ds, ?_, ?_, fun x => ?_⟩
    · rw [List.map_cons, List.map_cons, roundCoeffs]
      simp only [Item.pc, h1]
      exact g1
    · rw [addCoeffs_length] at g2
      have hm : maxDeg (a :: pend) = max a.inst.claim.maxIndividualDegree (maxDeg pend) := rfl
      have hs : (scaleCoeffs cs a.coeff).length = cs.length := by simp [scaleCoeffs]
      rw [hs] at g2
      rw [hm]
      rcases h2 with h2 | ⟨h2, rfl⟩
      · rcases g2 with g2 | ⟨g2, g4⟩
        · left; omega
        · left; omega
      · rw [List.length_nil] at g2
        rcases g2 with g2 | ⟨g2, g4⟩
        · left; omega
        · right; omega
    · rw [g3, addCoeffs_eval, scaleCoeffs_eval, h3, add_assoc]
      congr 1
      rw [bwv_cube, (hon a ha).2]
      simp only [ftruth, List.map_cons, List.sum_cons, Item.ci, List.length_append,
        List.length_singleton, List.append_assoc, List.singleton_append]

/-- Without sums there is nothing to prove. -/
theorem ftruth_empty (order : EvaluationOrder) (pend : List (Item F)) (chs : List F) (h : ∀ a ∈ pend, a.inst.polys = []) :
    ftruth order (pend.map Item.ci) chs = 0 := by
  unfold ftruth
  rw [List.map_map]
  refine List.sum_eq_zero fun y hy => ?_
  obtain ⟨a, ha, rfl⟩ := List.mem_map.mp hy
  simp [Item.ci, h a ha, batchWeightedValue, innerPowers]

structure CPInv (order : EvaluationOrder) (nR : Nat) (all done pend : List (Item F))
    (evs : List (List F)) (chs : List F) (v : BatchVerifier F) : Prop where
  split : all = done ++ pend
  evs : evs = done.map fun a => a.inst.tables.map fun t =>
    mle t (arrange order (chs.take a.inst.claim.nVars))
  doneLe : ∀ a ∈ done, a.inst.claim.nVars ≤ chs.length
  last : v.last = .sum (ftruth order (pend.map Item.ci) chs)
  round : v.round = chs.length
  claims : List.Forall₂ (fun (c : ClaimWithContext F) (a : F × Instance F) =>
    c.claim = a.2.claim ∧ c.batchCoeff = a.1) v.claims (pend.map Item.ci)
  deg : DegEq v.claims
  sorted : pend.Pairwise fun a b => a.inst.claim.nVars ≤ b.inst.claim.nVars
  range : ∀ a ∈ pend, chs.length ≤ a.inst.claim.nVars ∧ a.inst.claim.nVars ≤ nR

theorem piopReady_agree {A B : Type} {R : A → B → Prop} {order : EvaluationOrder} {nR : Nat}
    {all : List (Item F)} (hwf : ∀ a ∈ all, a.inst.WellFormed)
    (hon : ∀ a ∈ all, HonestOrEmpty a.prover a.inst ∧ a.prover.evaluationOrder = order) (chs : List F)
    (kp : List (List F) × List (SumcheckProver F × F) → PP F A)
    (kv : List (List F) × BatchVerifier F → P F B) (evs : List (List F))
    (done pend : List (Item F)) (v : BatchVerifier F)
    (hk : ∀ e done pend v, CPInv order nR all done pend (evs ++ e) chs v →
      (∀ a ∈ pend, chs.length < a.inst.claim.nVars) →
      Agree R (kp (e, pend.map Item.pc)) (kv (e, v)))
    (fuel : Nat) (hfuel : pend.length < fuel) (hinv : CPInv order nR all done pend evs chs v) :
    Agree R ((pFinishReady chs.length chs (pend.map Item.pc)).bind kp)
      ((finishReady fuel v).bind kv) := by
  induction fuel generalizing kp kv evs done pend v with
  | zero => omega
  | succ fuel ih =>
    rw [finishReady, Verif.Protocol.bind_assoc]
    unfold BatchVerifier.tryFinishClaim
    cases pend with
    | nil =>
      have hcl : v.claims = [] := List.forall₂_nil_right_iff.mp hinv.claims
      rw [hcl]
      exact hk [] done [] v (by simpa using hinv) (by simp)
    | cons a pend =>
      have haall : a ∈ all := by rw [hinv.split]; simp
      have hr := hinv.range a (List.mem_cons_self ..)
      obtain ⟨c, cs, hca, hcl', hv⟩ := List.forall₂_cons_right_iff.mp hinv.claims
      rw [hv]
      simp only [List.map_cons, pFinishReady, Item.pc]
      have hc1 : c.claim = a.inst.claim := hca.1
      have hc2 : c.batchCoeff = a.coeff := hca.2
      rw [(hon a haall).1.nVars, hc1, hinv.round]
      by_cases hn : a.inst.claim.nVars = chs.length
      · rw [if_neg (by simp [hn]), if_pos hn, (hon a haall).1.finish chs hn.symm, (hon a haall).2]
        simp only [PProg.ofExcept, PProg.bind, Prog.bind]
        have hx := expectedSingle_ok (hwf _ haall) c.batchCoeff
          (a.inst.tables.map fun t => mle t (arrange order chs))
          (by rw [List.length_map]; exact (hwf _ haall).nMultilinears)
        refine .write ?_ ?_
        · rw [List.length_map]; exact (hwf _ haall).nMultilinears
        rw [hinv.last]
        simp only
        rw [hx]
        simp only [Prog.bind]
        rw [Verif.Protocol.bind_assoc, pbind_assoc]
        simp only [PProg.bind, Prog.bind]
        refine ih (fun q => kp ((a.inst.tables.map fun t => mle t (arrange order chs)) :: q.1, q.2))
          (fun q => kv ((a.inst.tables.map fun t => mle t (arrange order chs)) :: q.1, q.2))
          (evs ++ [a.inst.tables.map fun t => mle t (arrange order chs)]) (done ++ [a]) pend _ ?_
          (by simp only [List.length_cons] at hfuel; omega) ?_
        · intro e done pend v h1 h2
          rw [List.append_assoc] at h1
          exact hk (_ :: e) done pend v h1 h2
        · refine ⟨by rw [hinv.split]; simp, ?_, ?_, ?_, rfl, hcl', ?_,
            (List.pairwise_cons.mp hinv.sorted).2,
            fun b hb => hinv.range b (List.mem_cons_of_mem _ hb)⟩
          · rw [hinv.evs, List.map_append, List.map_cons, List.map_nil, hn, List.take_length]
          · intro b hb
            rcases List.mem_append.mp hb with hb | hb
            · exact hinv.doneLe b hb
            · rw [List.mem_singleton.mp hb, hn]
          · show CoeffsOrSum.sum _ = CoeffsOrSum.sum _
            congr 1
            rw [hc2]
            simp only [ftruth, List.map_cons, List.sum_cons, Item.ci, hn, Nat.sub_self, cube_zero,
              List.append_nil, gval]
            ring
          · have := hinv.deg
            rw [hv] at this
            exact this.2
      · rw [if_pos hn, if_neg hn, if_neg (by omega)]
        refine hk [] done (a :: pend) v (by simpa using hinv) fun b hb => ?_
        rcases List.mem_cons.mp hb with e | hb
        · rw [e]; omega
        · have := (List.pairwise_cons.mp hinv.sorted).1 b hb
          omega

theorem pofExcept_ok {A B : Type} {e : Except Sumcheck.Error A} {a : A} (h : e = .ok a) (k : A → PP F B) :
    (PProg.ofExcept e).bind k = k a := by rw [h]; rfl

/-- What the prover sends in a round, and what the verifier makes of it. -/
theorem round_agree {A B : Type} {R : A → B → Prop} {order : EvaluationOrder} {nR : Nat} {all done pend : List (Item F)}
    (hon : ∀ a ∈ all, HonestOrEmpty a.prover a.inst ∧ a.prover.evaluationOrder = order)
    (hz : ∀ a ∈ all, a.inst.claim.maxIndividualDegree = 0 → a.inst.polys = [])
    (evs : List (List F)) (chs : List F) (v : BatchVerifier F) (hinv : CPInv order nR all done pend evs chs v)
    (hlt : ∀ a ∈ pend, chs.length < a.inst.claim.nVars)
    (kp : F → PP F A) (kv : F → BatchVerifier F → P F B)
    (hk : ∀ r v, CPInv order nR all done pend evs (chs ++ [r]) v → Agree R (kp r) (kv r v)) :
    Agree R ((PProg.ofExcept (roundCoeffs [] ((pend.map Item.pc).map fun p => ⟨p.2, p.1, chs⟩))).bind fun coeffs =>
        .write (truncate coeffs) <| .sample kp)
      (v.receiveRoundProof.bind fun v => .sample fun challenge =>
        (Prog.ofExcept (v.finishRound challenge)).bind (kv challenge)) := by
  have hin : ∀ a ∈ pend, a ∈ all := fun a ha => by
    rw [hinv.split]; exact List.mem_append_right _ ha
  obtain ⟨cs, h1, h2, h3⟩ := piopCoeffs_ok (order := order) (chs := chs) pend []
    (fun a ha => hon a (hin a ha)) hlt
  rw [pofExcept_ok h1]
  simp only [List.length_nil, Nat.zero_max] at h2
  have hd0 : maxDeg pend = 0 → ∀ a ∈ pend, a.inst.polys = [] := by
    intro h0 a ha
    refine hz a (hin a ha) ?_
    have : ∀ (l : List Nat) x, x ∈ l → x ≤ l.foldr max 0 := by
      intro l x hx
      induction l with
      | nil => simp at hx
      | cons y l ih =>
        rcases List.mem_cons.mp hx with e | hx
        · subst e; exact Nat.le_max_left _ _
        · exact (ih hx).trans (Nat.le_max_right _ _)
    have := this _ _ (List.mem_map.mpr ⟨a, ha, rfl⟩ : a.inst.claim.maxIndividualDegree ∈
      pend.map fun a => a.inst.claim.maxIndividualDegree)
    unfold maxDeg at h0
    omega
  -- what the verifier recovers
  have hrec : ∀ x, evaluateUnivariate (recover (truncate cs) (ftruth order (pend.map Item.ci) chs)) x
      = ftruth order (pend.map Item.ci) (chs ++ [x]) := by
    intro x
    by_cases h0 : maxDeg pend = 0
    · have he := hd0 h0
      have ht : truncate cs = [] := by
        unfold truncate
        rw [List.dropLast_eq_take, List.take_eq_nil_iff]
        left
        omega
      rw [ftruth_empty _ _ _ he, ftruth_empty _ _ _ he, ht]
      simp [recover, evaluateUnivariate]
    · rw [recover_truncate cs (by omega)]
      · rw [h3]; simp [evaluateUnivariate]
      · rw [h3, h3, ftruth_split order _ chs]
        · simp [evaluateUnivariate]
        · intro b hb
          obtain ⟨d, hd, rfl⟩ := List.mem_map.mp hb
          exact hlt d hd
  have hnext : ∀ (r : F), CPInv order nR all done pend evs (chs ++ [r])
      { v with last := .sum (evaluateUnivariate (recover (truncate cs) (ftruth order (pend.map Item.ci) chs)) r), round := v.round + 1 } := by
    intro r
    refine ⟨hinv.split, ?_, ?_, ?_, ?_, hinv.claims, hinv.deg, hinv.sorted, ?_⟩
    · rw [hinv.evs]
      refine List.map_congr_left fun b hb => ?_
      rw [List.take_append_of_le_length (hinv.doneLe b hb)]
    · intro b hb
      have := hinv.doneLe b hb
      simp only [List.length_append, List.length_singleton]
      omega
    · show CoeffsOrSum.sum _ = CoeffsOrSum.sum _
      rw [hrec]
    · simp [hinv.round]
    · intro b hb
      have := hlt b hb
      simp only [List.length_append, List.length_singleton]
      exact ⟨by omega, (hinv.range b hb).2⟩
  unfold BatchVerifier.receiveRoundProof
  rw [hinv.last]
  simp only
  cases pend with
  | nil =>
    have hcl : v.claims = [] := List.forall₂_nil_right_iff.mp hinv.claims
    simp only [hcl]
    have hl : cs.length - 1 = 0 := by
      have : maxDeg ([] : List (Item F)) = 0 := rfl
      omega
    refine .write (by simp [truncate, hl]) (.sample fun r => ?_)
    simp only [Prog.bind, BatchVerifier.finishRound, Prog.ofExcept]
    have := hnext r
    refine hk r _ ?_
    rw [hcl] at this
    exact this
  | cons a pend' =>
    obtain ⟨c, cs', hca, hcl', hv⟩ := List.forall₂_cons_right_iff.mp hinv.claims
    have hcl := hinv.claims
    have hdeg := hinv.deg
    rw [hv] at hdeg hcl
    simp only [hv]
    rw [if_neg (by
      have := hlt a (List.mem_cons_self ..)
      rw [hca.1, hinv.round]
      simp only [Item.ci]
      omega)]
    have hdl : ((c :: cs').map fun d => d.claim.maxIndividualDegree)
        = (a :: pend').map fun a => a.inst.claim.maxIndividualDegree := by
      clear hdeg hv hrec hnext h1 h2 h3 hlt hd0 hinv hin hk hcl' hca
      generalize c :: cs' = l at hcl
      generalize a :: pend' = m at hcl
      rw [List.forall₂_map_right_iff] at hcl
      induction hcl with
      | nil => rfl
      | cons h _ ih =>
        rw [List.map_cons, List.map_cons, ih, h.1]
        rfl
    have hm : c.maxDegreeRemaining = maxDeg (a :: pend') := by
      rw [hdeg.1, hdl]
      rfl
    refine .write (by rw [truncate, List.length_dropLast, hm]; omega) (.sample fun r => ?_)
    simp only [Prog.bind, BatchVerifier.finishRound, Prog.ofExcept]
    have := hnext r
    refine hk r _ ?_
    rw [hv] at this
    exact this

theorem piopRounds_agree {A B : Type} {R : A → B → Prop} {order : EvaluationOrder} {nR digest : Nat} {arities : List Nat}
    {commitAt : List F → Option (List F)}
    (hrounds : ∀ chs : List F, (commitAt chs).isSome ↔ chs.length ∈ commitRounds 0 arities)
    (hdigest : ∀ chs comm, commitAt chs = some comm → comm.length = digest)
    {all : List (Item F)} (hwf : ∀ a ∈ all, a.inst.WellFormed)
    (hon : ∀ a ∈ all, HonestOrEmpty a.prover a.inst ∧ a.prover.evaluationOrder = order)
    (hz : ∀ a ∈ all, a.inst.claim.maxIndividualDegree = 0 → a.inst.polys = []) (n : Nat)
    (done pend : List (Item F)) (evs : List (List F)) (chs : List F) (v : BatchVerifier F) (next : Option Nat × List Nat)
    (hn : chs.length + n = nR) (hinv : CPInv order nR all done pend evs chs v) (hnext : NextOK arities chs.length next)
    (kp : List (SumcheckProver F × F) × Nat × List F → PP F A)
    (kv : BatchVerifier F × List (List F) × List F × List (List F) → P F B)
    (hk : ∀ done pend evs chs v, chs.length = nR → CPInv order nR all done pend evs chs v →
      Agree R (kp (pend.map Item.pc, chs.length, chs)) (kv (v, evs, chs, commitmentsFor commitAt chs))) :
    Agree R ((pPiopRounds commitAt n (pend.map Item.pc) chs.length chs).bind kp)
      ((piopRounds digest n chs.length next v evs chs (commitmentsFor commitAt chs)).bind kv) := by
  induction n generalizing done pend evs chs v next with
  | zero => exact hk done pend evs chs v hn hinv
  | succ n ih =>
    rw [pPiopRounds, piopRounds, Verif.Protocol.bind_assoc, pbind_assoc]
    refine piopReady_agree (nR := nR) hwf hon chs _ _ evs done pend v ?_ _ ?_ hinv
    swap
    · have := hinv.claims.length_eq
      rw [List.length_map] at this
      omega
    intro e done pend v hinv hlt
    simp only [Verif.Protocol.bind_assoc, pbind_assoc, PProg.bind, Prog.bind]
    refine round_agree (nR := nR) hon hz (evs ++ e) chs v hinv hlt
      (fun challenge => PProg.bind (match commitAt (chs ++ [challenge]) with
        | none => pPiopRounds commitAt n (pend.map Item.pc) (chs.length + 1) (chs ++ [challenge])
        | some comm => .write comm (pPiopRounds commitAt n (pend.map Item.pc) (chs.length + 1) (chs ++ [challenge]))) kp)
      (fun challenge v => Prog.bind (if next.1 = some (chs.length + 1) then
        .read digest fun comm =>
          piopRounds digest n (chs.length + 1) (nextCommit (chs.length + 1) next.2) v (evs ++ e) (chs ++ [challenge])
            (commitmentsFor commitAt chs ++ [comm])
        else piopRounds digest n (chs.length + 1) next v (evs ++ e) (chs ++ [challenge]) (commitmentsFor commitAt chs)) kv) ?_
    intro r v hinv
    have hlen : (chs ++ [r]).length = chs.length + 1 := by simp
    have hr := hrounds (chs ++ [r])
    rw [hlen, hnext.now] at hr
    have hcs := commitmentsFor_snoc commitAt chs r
    by_cases hc : next.1 = some (chs.length + 1)
    · obtain ⟨comm, hcomm⟩ := Option.isSome_iff_exists.mp (hr.mpr hc)
      rw [if_pos hc, hcomm]
      simp only [PProg.bind, Prog.bind]
      refine .write (hdigest _ _ hcomm) ?_
      rw [hcomm, Option.toList_some] at hcs
      rw [← hcs, ← hlen]
      exact ih done pend _ _ _ _ (by rw [hlen]; omega) hinv (by rw [hlen]; exact hnext.step hc)
    · have hcomm : commitAt (chs ++ [r]) = none := by
        rw [← Option.not_isSome_iff_eq_none]
        exact fun h => hc (hr.mp h)
      rw [if_neg hc, hcomm]
      simp only
      rw [hcomm, Option.toList_none, List.append_nil] at hcs
      rw [← hcs, ← hlen]
      exact ih done pend _ _ _ _ (by rw [hlen]; omega) hinv (by rw [hlen]; exact hnext.skip hc)

end Verif.Piop
