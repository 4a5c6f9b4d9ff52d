import Verif.Sumcheck.SpecFrontLoaded
import Verif.Sumcheck.LemmasComplete

set_option linter.unusedSectionVars false

/-! Soundness of the front-loaded verifier: the induction over the rounds. -/

namespace Verif.Sumcheck

open Verif.Mle Verif.Protocol Verif.Univariate Finset Polynomial

variable {F : Type} [Field F] [DecidableEq F]

/-! ## Polynomial functions of one variable -/

def PolyFun (d : Nat) (f : F → F) : Prop := ∃ Q : F[X], Q.natDegree ≤ d ∧ ∀ x, f x = Q.eval x

theorem PolyFun.zero (d : Nat) : PolyFun d (fun _ => (0 : F)) := ⟨0, by simp, by simp⟩

theorem PolyFun.add {d : Nat} {f g : F → F} (hf : PolyFun d f) (hg : PolyFun d g) :
    PolyFun d fun x => f x + g x :=
  let ⟨Q, hq, e⟩ := hf
  let ⟨R, hr, e'⟩ := hg
  ⟨Q + R, (natDegree_add_le _ _).trans (Nat.max_le.mpr ⟨hq, hr⟩), fun x => by
    rw [eval_add, ← e, ← e']⟩

theorem PolyFun.smul {d : Nat} {f : F → F} (c : F) (hf : PolyFun d f) : PolyFun d fun x => c * f x :=
  let ⟨Q, hq, e⟩ := hf
  ⟨C c * Q, (natDegree_C_mul_le _ _).trans hq, fun x => by rw [eval_mul, eval_C, ← e]⟩

theorem PolyFun.bwv {A : Type} {d : Nat} (a : F) (l : List A) (f : A → F → F)
    (hf : ∀ y ∈ l, PolyFun d (f y)) : PolyFun d fun x => batchWeightedValue a (l.map fun y => f y x) := by
  induction l with
  | nil => simpa [bwv_nil] using PolyFun.zero d
  | cons y l ih =>
    simp only [List.map_cons, bwv_cons]
    exact ((hf y (List.mem_cons_self ..)).add (ih fun z hz => hf z (List.mem_cons_of_mem _ hz))).smul a

theorem PolyFun.listSum {A : Type} {d : Nat} (l : List A) (f : A → F → F)
    (hf : ∀ y ∈ l, PolyFun d (f y)) : PolyFun d fun x => (l.map fun y => f y x).sum := by
  induction l with
  | nil => simpa using PolyFun.zero d
  | cons y l ih =>
    simp only [List.map_cons, List.sum_cons]
    exact (hf y (List.mem_cons_self ..)).add (ih fun z hz => hf z (List.mem_cons_of_mem _ hz))

/-- Few challenges hide a wrong running sum. -/
theorem round_bad' {f : F → F} {d : Nat} (hf : PolyFun d f) (coeffs : List F) (sum : F)
    (hlen : coeffs.length = d) (hd : 1 ≤ d) (hne : sum ≠ f 0 + f 1) :
    ∃ bad : Finset F, bad.card ≤ d ∧ ∀ x, x ∉ bad →
      evaluateUnivariate (recover coeffs sum) x ≠ f x := by
  obtain ⟨Q, hQ, hQe⟩ := hf
  have hne0 : coeffPoly (recover coeffs sum) - Q ≠ 0 := by
    intro h0
    apply hne
    have e : ∀ x, evaluateUnivariate (recover coeffs sum) x = f x := by
      intro x
      rw [hQe, ← coeffPoly_eval, sub_eq_zero.mp h0]
    cases coeffs with
    | nil => simp at hlen; omega
    | cons c cs => rw [← e 0, ← e 1, recover_sum]
  obtain ⟨bad, hc, hb⟩ := exists_bad _ hne0
  refine ⟨bad, hc.trans ((natDegree_sub_le _ _).trans (Nat.max_le.mpr ⟨?_, hQ⟩)), fun x hx he => hb x hx ?_⟩
  · refine (coeffPoly_natDegree _).trans ?_
    rw [recover_length]
    omega
  · rw [eval_sub, coeffPoly_eval, ← hQe, ← he, sub_self]

/-! ## The truth behind the running sum -/

/-- What the pending claims should still sum to after the challenges `chs`. -/
noncomputable def ftruth (order : EvaluationOrder) (pend : List (F × Instance F)) (chs : List F) : F :=
  (pend.map fun a => batchWeightedValue a.1 (a.2.polys.map fun p =>
    cube (a.2.claim.nVars - chs.length) fun v => gval order a.2 p (chs ++ v))).sum

theorem ftruth_polyFun (order : EvaluationOrder) (pend : List (F × Instance F)) (chs : List F) (d : Nat)
    (hwf : ∀ a ∈ pend, a.2.WellFormed) (hd : ∀ a ∈ pend, a.2.claim.maxIndividualDegree ≤ d) :
    PolyFun d fun x => ftruth order pend (chs ++ [x]) := by
  unfold ftruth
  refine PolyFun.listSum pend (fun a x => batchWeightedValue a.1 (a.2.polys.map fun p =>
    cube (a.2.claim.nVars - (chs ++ [x]).length) fun v => gval order a.2 p ((chs ++ [x]) ++ v)))
    fun a ha => ?_
  refine PolyFun.bwv a.1 a.2.polys (fun p x => cube (a.2.claim.nVars - (chs ++ [x]).length)
    fun v => gval order a.2 p ((chs ++ [x]) ++ v)) fun p hp => ?_
  have hdeg : p.totalDegree ≤ d := by
    obtain ⟨i, hi, rfl⟩ := List.getElem_of_mem hp
    have hl := (hwf a ha).compositions.length_eq
    have := (List.forall₂_iff_get.mp (hwf a ha).compositions).2 i (by omega) hi
    exact (this.1.degree.trans (degree_le_max (List.get_mem _ _))).trans (hd a ha)
  obtain ⟨Q, hQ, hQe⟩ := ((gval_polyIn order a.2 p hdeg).prefix chs).round
    (n := a.2.claim.nVars - (chs.length + 1))
  refine ⟨Q, hQ, fun x => ?_⟩
  rw [← hQe]
  simp only [List.length_append, List.length_singleton, List.append_assoc, List.singleton_append]

theorem list_sum_add {A : Type} (l : List A) (f g : A → F) :
    (l.map fun a => f a + g a).sum = (l.map f).sum + (l.map g).sum := by
  induction l with
  | nil => simp
  | cons a l ih => simp only [List.map_cons, List.sum_cons, ih]; ring

theorem bwv_map_add {A : Type} (a : F) (l : List A) (f g : A → F) :
    batchWeightedValue a (l.map fun x => f x + g x)
      = batchWeightedValue a (l.map f) + batchWeightedValue a (l.map g) := by
  induction l with
  | nil => simp [bwv_nil]
  | cons x l ih => simp only [List.map_cons, bwv_cons, ih]; ring

theorem ftruth_split (order : EvaluationOrder) (pend : List (F × Instance F)) (chs : List F)
    (h : ∀ a ∈ pend, chs.length < a.2.claim.nVars) :
    ftruth order pend chs = ftruth order pend (chs ++ [0]) + ftruth order pend (chs ++ [1]) := by
  unfold ftruth
  rw [← list_sum_add]
  congr 1
  refine List.map_congr_left fun a ha => ?_
  rw [← bwv_map_add]
  congr 1
  refine List.map_congr_left fun p _ => ?_
  have := h a ha
  rw [show a.2.claim.nVars - chs.length = (a.2.claim.nVars - (chs.length + 1)) + 1 by omega, cube_succ]
  simp only [List.length_append, List.length_singleton, List.append_assoc, List.singleton_append]

/-! ## The invariant -/

def DegOK (D : Nat) : List (ClaimWithContext F) → Prop
  | [] => True
  | c :: cs => (∀ d ∈ c :: cs, d.claim.maxIndividualDegree ≤ c.maxDegreeRemaining) ∧
      c.maxDegreeRemaining ≤ D ∧ DegOK D cs

structure FInv (D nR : Nat) (all : List (Instance F)) (done : List (Instance F))
    (pend : List (F × Instance F)) (evs : List (List F)) (chs : List F) (s : F)
    (v : BatchVerifier F) : Prop where
  split : all = done ++ pend.map Prod.snd
  evs : evs.length = done.length
  last : v.last = .sum s
  round : v.round = chs.length
  claims : List.Forall₂ (fun (c : ClaimWithContext F) (a : F × Instance F) =>
    c.claim = a.2.claim ∧ c.batchCoeff = a.1) v.claims pend
  deg : DegOK D v.claims
  sorted : pend.Pairwise fun a b => a.2.claim.nVars ≤ b.2.claim.nVars
  range : ∀ a ∈ pend, chs.length ≤ a.2.claim.nVars ∧ a.2.claim.nVars ≤ nR
  big : chs.length < nR → ∃ a ∈ pend, a.2.claim.nVars = nR ∧ 1 ≤ a.2.claim.maxIndividualDegree

/-- Something is wrong: the running sum, or an evaluation already accepted. -/
def FBad (order : EvaluationOrder) (all : List (Instance F)) (pend : List (F × Instance F))
    (evs : List (List F)) (chs : List F) (s : F) : Prop :=
  s ≠ ftruth order pend chs ∨
    ∀ chs' evs', ¬ FrontCorrectEvals order all ⟨chs ++ chs', evs ++ evs'⟩

theorem pop_inv {D nR : Nat} {all done : List (Instance F)} {a : F × Instance F}
    {pend : List (F × Instance F)} {evs : List (List F)} {chs : List F} {s : F}
    {v : BatchVerifier F} {c : ClaimWithContext F} {cs : List (ClaimWithContext F)}
    (hinv : FInv D nR all done (a :: pend) evs chs s v) (hv : v.claims = c :: cs)
    (hn : a.2.claim.nVars = chs.length) (e : List F) (s' : F) :
    FInv D nR all (done ++ [a.2]) pend (evs ++ [e]) chs s' { v with claims := cs, last := .sum s' } where
  split := by rw [hinv.split]; simp
  evs := by simp [hinv.evs]
  last := rfl
  round := hinv.round
  claims := by have := hinv.claims; rw [hv] at this; exact (List.forall₂_cons.mp this).2
  deg := by have := hinv.deg; rw [hv] at this; exact this.2.2
  sorted := (List.pairwise_cons.mp hinv.sorted).2
  range := fun b hb => hinv.range b (List.mem_cons_of_mem _ hb)
  big := fun h => by
    obtain ⟨b, hb, h1, h2⟩ := hinv.big h
    rcases List.mem_cons.mp hb with e | hb
    · subst e; omega
    · exact ⟨b, hb, h1, h2⟩

theorem finishReady_err {order : EvaluationOrder} {D nR : Nat} {all : List (Instance F)}
    (hwf : ∀ I ∈ all, I.WellFormed) (ε : Nat) (chs : List F)
    (k : List (List F) × BatchVerifier F → P F (Output F)) (evs : List (List F))
    (done : List (Instance F)) (pend : List (F × Instance F)) (s : F) (v : BatchVerifier F)
    (hk : ∀ q done pend s, FInv D nR all done pend (evs ++ q.1) chs s q.2 →
      (∀ a ∈ pend, chs.length < a.2.claim.nVars) → FBad order all pend (evs ++ q.1) chs s →
      SoundErr (FrontCorrectEvals order all) (k q) ε)
    (fuel : Nat) (hinv : FInv D nR all done pend evs chs s v) (hbad : FBad order all pend evs chs s) :
    SoundErr (FrontCorrectEvals order all) ((finishReady fuel v).bind k) ε := by
  induction fuel generalizing k evs done pend s v with
  | zero => exact .fail
  | succ fuel ih =>
    rw [finishReady, Verif.Protocol.bind_assoc]
    unfold BatchVerifier.tryFinishClaim
    cases hv : v.claims with
    | nil =>
      have hp : pend = [] := by
        have := hinv.claims
        rw [hv] at this
        exact List.forall₂_nil_left_iff.mp this
      subst hp
      have := hk ([], v) done [] s (by simpa using hinv) (by simp) (by simpa using hbad)
      simpa [Prog.bind] using this
    | cons c cs =>
      have hcl := hinv.claims
      rw [hv] at hcl
      obtain ⟨a, pend', hca, hcl', rfl⟩ := List.forall₂_cons_left_iff.mp hcl
      have hIall : a.2 ∈ all := by rw [hinv.split]; simp
      have hr := hinv.range a (List.mem_cons_self ..)
      by_cases hn : c.claim.nVars = v.round
      · have hna : a.2.claim.nVars = chs.length := by rw [← hca.1, hn, hinv.round]
        simp only [hn, if_true, Prog.bind]
        refine .read fun e _ => ?_
        rw [hinv.last]
        simp only
        by_cases he : e = a.2.tables.map fun t => mle t (arrange order chs)
        · have hx := expectedSingle_ok (hwf _ hIall) c.batchCoeff e
            (by rw [he, List.length_map]; exact (hwf _ hIall).nMultilinears)
          rw [← hca.1] at hx
          rw [hx]
          simp only [Prog.bind]
          rw [Verif.Protocol.bind_assoc]
          refine ih _ (evs ++ [e]) (done ++ [a.2]) pend' _ _ ?_
            (pop_inv hinv hv hna e _) ?_
          · intro q done pend s h1 h2 h3
            rw [List.append_assoc] at h1 h3
            exact hk (e :: q.1, q.2) done pend s h1 h2 h3
          · rcases hbad with hb | hb
            · left
              intro h
              apply hb
              unfold ftruth at h ⊢
              rw [List.map_cons, List.sum_cons, ← h, hna]
              have : (a.2.polys.map fun p => cube (chs.length - chs.length) fun v =>
                  gval order a.2 p (chs ++ v)) = a.2.polys.map fun p => evalAt p e := by
                refine List.map_congr_left fun p _ => ?_
                rw [Nat.sub_self, cube_zero, List.append_nil, gval, he]
              rw [this, hca.2]
              ring
            · right
              intro chs' evs'
              rw [List.append_assoc]
              exact hb chs' ([e] ++ evs')
        · cases expectedSingle c.batchCoeff c.claim e with
          | error x => exact .fail
          | ok w =>
            simp only [Prog.bind]
            rw [Verif.Protocol.bind_assoc]
            refine ih _ (evs ++ [e]) (done ++ [a.2]) pend' _ _ ?_
              (pop_inv hinv hv hna e _) ?_
            · intro q done pend s h1 h2 h3
              rw [List.append_assoc] at h1 h3
              exact hk (e :: q.1, q.2) done pend s h1 h2 h3
            · right
              intro chs' evs' hg
              apply he
              have hlen := hinv.evs
              have hget := (List.forall₂_iff_get.mp hg).2 done.length
                (by rw [hinv.split]; simp) (by simp [hlen])
              have e1 : all.get ⟨done.length, by rw [hinv.split]; simp⟩ = a.2 := by
                simp [List.get_eq_getElem, hinv.split]
              have e2 : (evs ++ [e] ++ evs').get ⟨done.length, by simp [hlen]⟩ = e := by
                simp [List.get_eq_getElem, ← hlen]
              rw [e1, e2] at hget
              rw [hget]
              simp only [hna, List.take_left']
      · have hlt : chs.length < a.2.claim.nVars := by
          rw [hca.1, hinv.round] at hn
          omega
        simp only [hn, if_false]
        rw [if_neg (by rw [hca.1, hinv.round]; omega)]
        have := hk ([], v) done (a :: pend') s (by simpa using hinv) (fun b hb => by
          rcases List.mem_cons.mp hb with e | hb
          · rw [e]; exact hlt
          · have := (List.pairwise_cons.mp hinv.sorted).1 b hb
            omega) (by simpa using hbad)
        simpa [Prog.bind] using this

theorem runRounds_err {order : EvaluationOrder} {D nR : Nat} {all : List (Instance F)}
    (hwf : ∀ I ∈ all, I.WellFormed) (n : Nat) (done : List (Instance F))
    (pend : List (F × Instance F)) (evs : List (List F)) (chs : List F) (s : F)
    (v : BatchVerifier F) (hn : chs.length + n = nR) (hinv : FInv D nR all done pend evs chs s v)
    (hbad : FBad order all pend evs chs s) :
    SoundErr (FrontCorrectEvals order all)
      ((runRounds n v evs chs).bind fun q =>
        (finishReady (q.1.claims.length + 1) q.1).bind fun r =>
          (Prog.ofExcept r.2.finish).bind fun _ =>
            (.ret ⟨q.2.2, q.2.1 ++ r.1⟩ : P F (Output F))) (n * D) := by
  induction n generalizing done pend evs chs s v with
  | zero =>
    rw [Nat.zero_mul]
    refine finishReady_err (D := D) (nR := nR) hwf 0 chs _ evs done pend s v ?_ _ hinv hbad
    intro q done pend s hinv hlt hbad
    rw [ofExcept_bind]
    have hp : pend = [] := by
      cases pend with
      | nil => rfl
      | cons a pend =>
        have h1 := hlt a (List.mem_cons_self ..)
        have h2 := hinv.range a (List.mem_cons_self ..)
        omega
    subst hp
    have hcl : q.2.claims = [] := List.forall₂_nil_right_iff.mp hinv.claims
    simp only [BatchVerifier.finish, hcl, hinv.last]
    simp only [List.isEmpty_nil, Bool.true_eq_false, if_false]
    rcases hbad with hb | hb
    · simp only [ftruth, List.map_nil, List.sum_nil] at hb
      rw [if_pos hb]
      exact .fail
    · split
      · refine .ret ?_
        have := hb [] []
        simpa using this
      · exact .fail
  | succ n ih =>
    rw [runRounds, Verif.Protocol.bind_assoc]
    refine finishReady_err (D := D) (nR := nR) hwf _ chs _ evs done pend s v ?_ _ hinv hbad
    intro q done pend s hinv hlt hbad
    rw [Verif.Protocol.bind_assoc]
    unfold BatchVerifier.receiveRoundProof
    rw [hinv.last]
    simp only
    obtain ⟨big, hbig, hbn, hbd⟩ := hinv.big (by omega)
    cases hv : q.2.claims with
    | nil =>
      have := hinv.claims
      rw [hv] at this
      rw [List.forall₂_nil_left_iff.mp this] at hbig
      simp at hbig
    | cons c cs =>
      have hcl := hinv.claims
      rw [hv] at hcl
      simp only
      split
      · exact .fail
      · simp only [Prog.bind]
        refine .read fun m hm => ?_
        have hwfa : ∀ a ∈ pend, a.2.WellFormed := fun a ha =>
          hwf a.2 (by rw [hinv.split]; exact List.mem_append_right _ (List.mem_map.mpr ⟨a, ha, rfl⟩))
        have hdeg := hinv.deg
        rw [hv] at hdeg
        have hda : ∀ a ∈ pend, a.2.claim.maxIndividualDegree ≤ c.maxDegreeRemaining := by
          intro a ha
          obtain ⟨i, hi, rfl⟩ := List.getElem_of_mem ha
          have hl := hcl.length_eq
          have := (List.forall₂_iff_get.mp hcl).2 i (by omega) hi
          have h2 := hdeg.1 _ (List.get_mem (c :: cs) ⟨i, by omega⟩)
          rw [this.1] at h2
          exact h2
        have hnext : ∀ r s', FBad order all pend (evs ++ q.1) (chs ++ [r]) s' →
            SoundErr (FrontCorrectEvals order all)
              ((runRounds n { q.2 with last := .sum s', round := q.2.round + 1 } (evs ++ q.1)
                (chs ++ [r])).bind fun q =>
                (finishReady (q.1.claims.length + 1) q.1).bind fun r =>
                  (Prog.ofExcept r.2.finish).bind fun _ =>
                    (.ret ⟨q.2.2, q.2.1 ++ r.1⟩ : P F (Output F))) (n * D) := by
          intro r s' hb
          refine ih done pend (evs ++ q.1) (chs ++ [r]) s' _ (by simp; omega) ?_ hb
          refine ⟨hinv.split, hinv.evs, rfl, ?_, hinv.claims, hinv.deg, hinv.sorted, ?_, ?_⟩
          · simp [hinv.round]
          · intro a ha
            have := hlt a ha
            simp only [List.length_append, List.length_singleton]
            exact ⟨by omega, (hinv.range a ha).2⟩
          · exact fun _ => ⟨big, hbig, hbn, hbd⟩
        have hfr : ∀ r, BatchVerifier.finishRound
            ({ claims := c :: cs, round := q.2.round, last := .coeffs (recover m s) } :
              BatchVerifier F) r
            = .ok { q.2 with last := .sum (evaluateUnivariate (recover m s) r), round := q.2.round + 1 } := by
          intro r
          simp [BatchVerifier.finishRound, hv]
        have hcost : D + n * D ≤ (n + 1) * D := by rw [Nat.succ_mul]; omega
        rcases hbad with hb | hb
        · rw [ftruth_split order pend chs hlt] at hb
          obtain ⟨bad, hc, hx⟩ := round_bad' (ftruth_polyFun order pend chs c.maxDegreeRemaining hwfa hda)
            m s hm (hbd.trans (hda big hbig)) hb
          refine SoundErr.sample bad (hc.trans hdeg.2.1) hcost fun r hr => ?_
          rw [ofExcept_bind, hfr]
          exact hnext r _ (Or.inl (hx r hr))
        · refine (SoundErr.sample0 fun r => ?_).mono (Nat.le_trans (Nat.le_add_left _ D) hcost)
          rw [ofExcept_bind, hfr]
          refine hnext r _ (Or.inr fun chs' evs' => ?_)
          rw [List.append_assoc]
          exact hb _ _

end Verif.Sumcheck
