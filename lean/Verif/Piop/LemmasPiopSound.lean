import Verif.Piop.LemmasPiop
import Verif.Sumcheck.PropsFrontLoaded

set_option linter.unusedSectionVars false
set_option linter.dupNamespace false

/-! Soundness of the interleaved sumcheck: the induction over the rounds. -/

namespace Verif.Piop

open Verif.Mle Verif.Sumcheck Verif.Protocol Verif.Univariate Finset Polynomial
open Verif.Piecewise (Piece concat)

variable {F A : Type} [Field F] [DecidableEq F]

/-- A pending group without the number of its committed polynomials. -/
def cinst (a : F × Group F) : F × Instance F := (a.1, a.2.1)

structure PInv (nR : Nat) (all done : List (Group F)) (pend : List (F × Group F)) (evs : List (List F)) (chs : List F) (s : F)
    (v : BatchVerifier F) : Prop where
  split : all = done ++ pend.map Prod.snd
  evs : evs.length = done.length
  doneLe : ∀ g ∈ done, g.1.claim.nVars ≤ chs.length
  last : v.last = .sum s
  round : v.round = chs.length
  claims : List.Forall₂ (fun (c : ClaimWithContext F) (a : F × Instance F) =>
    c.claim = a.2.claim ∧ c.batchCoeff = a.1) v.claims (pend.map cinst)
  deg : DegOK 2 v.claims
  sorted : pend.Pairwise fun a b => a.2.1.claim.nVars ≤ b.2.1.claim.nVars
  range : ∀ a ∈ pend, chs.length ≤ a.2.1.claim.nVars ∧ a.2.1.claim.nVars ≤ nR

def PBad (done : List (Group F)) (pend : List (F × Group F)) (evs : List (List F)) (chs : List F) (s : F) : Prop :=
  s ≠ ftruth .highToLow (pend.map cinst) chs ∨ EWrong done evs chs

theorem ppop_inv {nR : Nat} {all done : List (Group F)} {a : F × Group F}
    {pend : List (F × Group F)} {evs : List (List F)} {chs : List F} {s : F}
    {v : BatchVerifier F} {c : ClaimWithContext F} {cs : List (ClaimWithContext F)}
    (hinv : PInv nR all done (a :: pend) evs chs s v) (hv : v.claims = c :: cs)
    (hn : a.2.1.claim.nVars = chs.length) (e : List F) (s' : F) :
    PInv nR all (done ++ [a.2]) pend (evs ++ [e]) chs s' { v with claims := cs, last := .sum s' } where
  split := by rw [hinv.split]; simp
  evs := by simp [hinv.evs]
  doneLe := by
    intro g hg
    rcases List.mem_append.mp hg with hg | hg
    · exact hinv.doneLe g hg
    · rw [List.mem_singleton.mp hg]; omega
  last := rfl
  round := hinv.round
  claims := by have := hinv.claims; rw [hv] at this; exact (List.forall₂_cons.mp this).2
  deg := by have := hinv.deg; rw [hv] at this; exact this.2.2
  sorted := (List.pairwise_cons.mp hinv.sorted).2
  range := fun b hb => hinv.range b (List.mem_cons_of_mem _ hb)

theorem pfinishReady_err {good : A → Prop} {nR : Nat} {all : List (Group F)}
    (hwf : ∀ g ∈ all, g.1.WellFormed) (ε : Nat) (chs : List F)
    (k : List (List F) × BatchVerifier F → P F A) (evs : List (List F))
    (done : List (Group F)) (pend : List (F × Group F)) (s : F) (v : BatchVerifier F)
    (hk : ∀ q done pend s, PInv nR all done pend (evs ++ q.1) chs s q.2 →
      (∀ a ∈ pend, chs.length < a.2.1.claim.nVars) → PBad done pend (evs ++ q.1) chs s →
      SoundErr good (k q) ε)
    (fuel : Nat) (hinv : PInv nR all done pend evs chs s v) (hbad : PBad done pend evs chs s) :
    SoundErr good ((finishReady fuel v).bind k) ε := by
  induction fuel generalizing k evs done pend s v with
  | zero => exact .fail
  | succ fuel ih =>
    rw [finishReady, Verif.Protocol.bind_assoc]
    unfold BatchVerifier.tryFinishClaim
    cases hv : v.claims with
    | nil =>
      have hp : pend = [] := by
        have := hinv.claims
        rw [hv] at this
        simpa using List.forall₂_nil_left_iff.mp this
      subst hp
      have := hk ([], v) done [] s (by simpa using hinv) (by simp) (by simpa using hbad)
      simpa [Prog.bind] using this
    | cons c cs =>
      have hcl := hinv.claims
      rw [hv] at hcl
      cases pend with
      | nil => simp at hcl
      | cons a pend' =>
      rw [List.map_cons, List.forall₂_cons] at hcl
      obtain ⟨hca, hcl'⟩ := hcl
      have hc1 : c.claim = a.2.1.claim := hca.1
      have hc2 : c.batchCoeff = a.1 := hca.2
      have hIall : a.2 ∈ all := by rw [hinv.split]; simp
      have hr := hinv.range a (List.mem_cons_self ..)
      by_cases hn : c.claim.nVars = v.round
      · have hna : a.2.1.claim.nVars = chs.length := by rw [← hc1, hn, hinv.round]
        simp only [hn, if_true, Prog.bind]
        refine .read fun e hel => ?_
        rw [hinv.last]
        simp only
        by_cases he : e = a.2.1.tables.map fun t => mle t (arrange .highToLow chs)
        · have hx := expectedSingle_ok (hwf _ hIall) c.batchCoeff e
            (by rw [he, List.length_map]; exact (hwf _ hIall).nMultilinears)
          rw [← hc1] at hx
          rw [hx]
          simp only [Prog.bind]
          rw [Verif.Protocol.bind_assoc]
          refine ih _ (evs ++ [e]) (done ++ [a.2]) pend' _ _ ?_ (ppop_inv hinv hv hna e _) ?_
          · intro q done pend s h1 h2 h3
            rw [List.append_assoc] at h1 h3
            exact hk (e :: q.1, q.2) done pend s h1 h2 h3
          · rcases hbad with hb | hb
            · left
              intro h
              apply hb
              unfold ftruth at h ⊢
              rw [List.map_cons, List.map_cons, List.sum_cons, ← h]
              simp only [cinst]
              rw [hna]
              have : (a.2.1.polys.map fun p => cube (chs.length - chs.length) fun v =>
                  gval .highToLow a.2.1 p (chs ++ v)) = a.2.1.polys.map fun p => evalAt p e := by
                refine List.map_congr_left fun p _ => ?_
                rw [Nat.sub_self, cube_zero, List.append_nil, gval, he]
              rw [this, hc2]
              ring
            · exact Or.inr (hb.snoc hinv.evs a.2 e hna)
        · cases expectedSingle c.batchCoeff c.claim e with
          | error x => exact .fail
          | ok w =>
            simp only [Prog.bind]
            rw [Verif.Protocol.bind_assoc]
            refine ih _ (evs ++ [e]) (done ++ [a.2]) pend' _ _ ?_ (ppop_inv hinv hv hna e _) ?_
            · intro q done pend s h1 h2 h3
              rw [List.append_assoc] at h1 h3
              exact hk (e :: q.1, q.2) done pend s h1 h2 h3
            · exact Or.inr (EWrong.new hinv.evs a.2 e hna
                (by rw [hel, hc1]; exact (hwf _ hIall).nMultilinears.symm) he)
      · have hlt : chs.length < a.2.1.claim.nVars := by
          rw [hc1, hinv.round] at hn
          omega
        simp only [hn, if_false]
        rw [if_neg (by rw [hc1, hinv.round]; omega)]
        have := hk ([], v) done (a :: pend') s (by simpa using hinv) (fun b hb => by
          rcases List.mem_cons.mp hb with e | hb
          · rw [e]; exact hlt
          · have := (List.pairwise_cons.mp hinv.sorted).1 b hb
            omega) (by simpa using hbad)
        simpa [Prog.bind] using this

theorem ftruth_zero (order : EvaluationOrder) (pend : List (F × Instance F)) (chs : List F)
    (h : ∀ a ∈ pend, a.2.polys = []) : ftruth order pend chs = 0 := by
  unfold ftruth
  refine List.sum_eq_zero fun x hx => ?_
  obtain ⟨a, ha, rfl⟩ := List.mem_map.mp hx
  rw [h a ha, List.map_nil, bwv_nil]

/-- A round keeps a wrong sum wrong, except for two challenges. -/
theorem round_sum {all : List (Group F)} (hwf : ∀ g ∈ all, g.1.WellFormed)
    (hz : ∀ g ∈ all, g.1.claim.maxIndividualDegree = 0 → g.1.polys = []) {nR : Nat} {done : List (Group F)}
    {pend : List (F × Group F)} {evs : List (List F)} {chs : List F} {s : F} {v : BatchVerifier F}
    (hinv : PInv nR all done pend evs chs s v) (hlt : ∀ a ∈ pend, chs.length < a.2.1.claim.nVars)
    (d : Nat) (hd : d ≤ 2) (hda : ∀ a ∈ pend, a.2.1.claim.maxIndividualDegree ≤ d) (m : List F) (hm : m.length = d)
    (hbad : s ≠ ftruth .highToLow (pend.map cinst) chs) :
    ∃ bad : Finset F, bad.card ≤ 2 ∧ ∀ r, r ∉ bad →
      evaluateUnivariate (recover m s) r ≠ ftruth .highToLow (pend.map cinst) (chs ++ [r]) := by
  have hall : ∀ a ∈ pend, a.2 ∈ all := fun a ha => by
    rw [hinv.split]; exact List.mem_append_right _ (List.mem_map.mpr ⟨a, ha, rfl⟩)
  by_cases hd0 : d = 0
  · subst hd0
    have hpz : ∀ a ∈ pend.map cinst, a.2.polys = [] := by
      intro a ha
      obtain ⟨b, hb, rfl⟩ := List.mem_map.mp ha
      exact hz _ (hall b hb) (Nat.le_zero.mp (hda b hb))
    refine ⟨∅, by simp, fun r _ => ?_⟩
    rw [List.length_eq_zero_iff.mp hm]
    rw [ftruth_zero _ _ _ hpz] at hbad ⊢
    simpa [recover, evaluateUnivariate] using hbad
  · rw [ftruth_split .highToLow (pend.map cinst) chs (fun a ha => by
      obtain ⟨b, hb, rfl⟩ := List.mem_map.mp ha
      exact hlt b hb)] at hbad
    obtain ⟨bad, hc, hx⟩ := round_bad' (ftruth_polyFun .highToLow (pend.map cinst) chs d (fun a ha => by
      obtain ⟨b, hb, rfl⟩ := List.mem_map.mp ha
      exact hwf _ (hall b hb)) (fun a ha => by
      obtain ⟨b, hb, rfl⟩ := List.mem_map.mp ha
      exact hda b hb)) m s hm (by omega) hbad
    exact ⟨bad, hc.trans hd, hx⟩

theorem piopRounds_err {good : A → Prop} {nR digest : Nat} {all : List (Group F)}
    (hwf : ∀ g ∈ all, g.1.WellFormed) (hz : ∀ g ∈ all, g.1.claim.maxIndividualDegree = 0 → g.1.polys = [])
    (k : BatchVerifier F × List (List F) × List F × List (List F) → P F A)
    (hk : ∀ q done pend s, q.2.2.1.length = nR → PInv nR all done pend q.2.1 q.2.2.1 s q.1 → PBad done pend q.2.1 q.2.2.1 s →
      SoundErr good (k q) 0)
    (n : Nat) (round : Nat) (next : Option Nat × List Nat) (done : List (Group F))
    (pend : List (F × Group F)) (evs : List (List F)) (chs : List F) (comms : List (List F)) (s : F)
    (v : BatchVerifier F) (hn : chs.length + n = nR) (hinv : PInv nR all done pend evs chs s v)
    (hbad : PBad done pend evs chs s) :
    SoundErr good ((piopRounds digest n round next v evs chs comms).bind k) (n * 2) := by
  induction n generalizing round next done pend evs chs comms s v with
  | zero =>
    rw [Nat.zero_mul]
    exact hk (v, evs, chs, comms) done pend s (by simpa using hn) hinv hbad
  | succ n ih =>
    rw [piopRounds, Verif.Protocol.bind_assoc]
    refine pfinishReady_err hwf _ chs _ evs done pend s v ?_ _ hinv hbad
    intro q done pend s hinv hlt hbad
    rw [Verif.Protocol.bind_assoc]
    have main : ∀ (d : Nat) (m : List F), d ≤ 2 → (∀ a ∈ pend, a.2.1.claim.maxIndividualDegree ≤ d) → m.length = d →
        SoundErr good ((Prog.sample fun challenge =>
          (Prog.ofExcept (BatchVerifier.finishRound { q.2 with last := .coeffs (recover m s) } challenge)).bind fun v =>
            if next.1 = some (round + 1) then
              .read digest fun comm =>
                piopRounds digest n (round + 1) (nextCommit (round + 1) next.2) v (evs ++ q.1) (chs ++ [challenge])
                  (comms ++ [comm])
            else piopRounds digest n (round + 1) next v (evs ++ q.1) (chs ++ [challenge]) comms).bind k)
          ((n + 1) * 2) := by
      intro d m hd hda hm
      have hnext : ∀ r, PBad done pend (evs ++ q.1) (chs ++ [r]) (evaluateUnivariate (recover m s) r) →
          SoundErr good (((Prog.ofExcept
            (BatchVerifier.finishRound { q.2 with last := .coeffs (recover m s) } r)).bind fun v =>
            if next.1 = some (round + 1) then
              .read digest fun comm =>
                piopRounds digest n (round + 1) (nextCommit (round + 1) next.2) v (evs ++ q.1) (chs ++ [r])
                  (comms ++ [comm])
            else piopRounds digest n (round + 1) next v (evs ++ q.1) (chs ++ [r]) comms).bind k) (n * 2) := by
        intro r hb
        have hinv' : PInv nR all done pend (evs ++ q.1) (chs ++ [r]) (evaluateUnivariate (recover m s) r)
            { q.2 with last := .sum (evaluateUnivariate (recover m s) r), round := q.2.round + 1 } := by
          refine ⟨hinv.split, hinv.evs, ?_, rfl, ?_, hinv.claims, hinv.deg, hinv.sorted, ?_⟩
          · intro g hg
            have := hinv.doneLe g hg
            simp only [List.length_append, List.length_singleton]
            omega
          · simp [hinv.round]
          · intro a ha
            have := hlt a ha
            simp only [List.length_append, List.length_singleton]
            exact ⟨by omega, (hinv.range a ha).2⟩
        rw [Verif.Protocol.bind_assoc, ofExcept_bind]
        simp only [BatchVerifier.finishRound]
        split
        · exact .read fun comm _ => ih _ _ done pend _ _ _ _ _ (by simp; omega) hinv' hb
        · exact ih _ _ done pend _ _ _ _ _ (by simp; omega) hinv' hb
      rcases hbad with hb | hb
      · obtain ⟨bad, hc, hx⟩ := round_sum hwf hz hinv hlt d hd hda m hm hb
        exact .sample bad hc (by omega) fun r hr => hnext r (Or.inl (hx r hr))
      · obtain ⟨bad, hc, hx⟩ := hb.sample hinv.doneLe
        exact .sample bad hc (by omega) fun r hr => hnext r (Or.inr (hx r hr))
    unfold BatchVerifier.receiveRoundProof
    rw [hinv.last]
    simp only
    cases hv : q.2.claims with
    | nil =>
      have hp : pend = [] := by
        have := hinv.claims
        rw [hv] at this
        simpa using List.forall₂_nil_left_iff.mp this
      refine .read fun m hm => ?_
      have := main 0 m (by omega) (by simp [hp]) hm
      simpa only [Prog.bind, hv] using this
    | cons c cs =>
      simp only
      split
      · exact .fail
      · refine .read fun m hm => ?_
        have hdeg := hinv.deg
        rw [hv] at hdeg
        have hcl := hinv.claims
        rw [hv] at hcl
        have := main c.maxDegreeRemaining m hdeg.2.1 (by
          intro a ha
          obtain ⟨i, hi, rfl⟩ := List.getElem_of_mem ha
          have hl := hcl.length_eq
          rw [List.length_map] at hl
          have := (List.forall₂_iff_get.mp hcl).2 i (by omega) (by simpa using hi)
          have h2 := hdeg.1 _ (List.get_mem (c :: cs) ⟨i, by omega⟩)
          rw [this.1] at h2
          simpa [cinst] using h2) hm
        simpa only [Prog.bind, hv] using this

/-- The interleaved sumcheck ends with a wrong evaluation, or is refused. -/
theorem interleaved_err {good : A → Prop} {digest nR : Nat} {arities : List Nat} (fri : List (List F) → List F → P F F)
    (all : List (Group F)) (hwf : ∀ g ∈ all, g.1.WellFormed)
    (hz : ∀ g ∈ all, g.1.claim.maxIndividualDegree = 0 → g.1.polys = [])
    (hD : ∀ g ∈ all, g.1.claim.maxIndividualDegree ≤ 2) (hn : ∀ g ∈ all, g.1.claim.nVars ≤ nR)
    (hfalse : ∃ g ∈ all, ¬ g.1.Holds) (k : FriOutput F → P F A)
    (hk : ∀ out, out.challenges.length = nR → out.multilinearEvals.length = all.length →
      EWrong all out.multilinearEvals out.challenges → SoundErr good (k out) 0) :
    SoundErr good ((verifyInterleaved nR digest arities fri (all.map fun g => g.1.claim)).bind k)
      (nR * 2 + (all.map fun g => g.1.claim.sums.length).sum) := by
  unfold verifyInterleaved newBatchVerifier
  rw [Verif.Protocol.bind_assoc, Verif.Protocol.bind_assoc, List.length_map,
    show all.length = (all.map Prod.fst).length by simp,
    show (all.map fun g => g.1.claim.sums.length) = (all.map Prod.fst).map fun I => I.claim.sums.length by simp]
  refine sampleVec_err _ _ (all.map Prod.fst) (fun I hI => ?_) 0 0 (Or.inr ?_) fun cs hcs hne => ?_
  · obtain ⟨g, hg, rfl⟩ := List.mem_map.mp hI
    exact hwf g hg
  · obtain ⟨g, hg, h⟩ := hfalse
    exact ⟨g.1, List.mem_map.mpr ⟨g, hg, rfl⟩, h⟩
  rw [List.length_map] at hcs
  have h2 : (cs.zip all).map Prod.snd = all := List.map_snd_zip (by omega)
  have h1 : ((cs.zip all).map cinst).map Prod.fst = cs := by
    rw [List.map_map]; exact List.map_fst_zip (l₂ := all) (by omega)
  have h3 : (((cs.zip all).map cinst).map fun a => a.2.claim) = all.map fun g => g.1.claim := by
    conv_rhs => rw [← h2, List.map_map]
    rw [List.map_map]
    rfl
  have hin : ∀ a ∈ cs.zip all, a.2 ∈ all := fun a ha => (List.of_mem_zip ha).2
  have hzip : ∀ (f : F → Instance F → F),
      (((cs.zip all).map cinst).map fun a => f a.1 a.2).sum =
        (List.zipWith (fun I c => f c I) (all.map Prod.fst) cs).sum := by
    intro f
    clear hne hfalse hcs h1 h2 h3 hin hk hn hD hz hwf
    generalize all = l
    induction cs generalizing l with
    | nil => cases l <;> simp
    | cons c cs ih =>
      cases l with
      | nil => simp
      | cons I l =>
        rw [List.zip_cons_cons, List.map_cons, List.map_cons, List.sum_cons, ih l]
        simp [cinst]
  dsimp only
  rw [ofExcept_bind]
  unfold newPrebatched
  by_cases hs : Verif.Sorting.isSortedAscending ((all.map fun g => g.1.claim).map fun c => c.nVars) = false
  · rw [if_pos hs]
    exact .fail
  rw [if_neg hs, if_neg (by simp [hcs])]
  simp only
  have hsorted : (cs.zip all).Pairwise fun a b => a.2.1.claim.nVars ≤ b.2.1.claim.nVars := by
    rw [Bool.not_eq_false, asc_iff, ← h3, List.map_map, List.map_map, List.pairwise_map] at hs
    exact hs
  have hcl := spread_claims (fun c a m h => h) _ _ (zip_forall₂ ((cs.zip all).map cinst))
  rw [h1, h3] at hcl
  rw [Verif.Protocol.bind_assoc]
  refine piopRounds_err (nR := nR) hwf hz _ ?_ nR 0 _ [] (cs.zip all) [] [] [] _ _ (by simp)
    ⟨by simp [h2], rfl, by simp, rfl, rfl, hcl, ?_, hsorted, fun a ha => ⟨Nat.zero_le _, hn _ (hin a ha)⟩⟩ (Or.inl ?_)
  · intro q done pend s hl hinv hbad
    simp only [Verif.Protocol.bind_assoc]
    refine pfinishReady_err hwf _ q.2.2.1 _ q.2.1 done pend s q.1 ?_ _ hinv hbad
    intro r done pend s hinv hlt hbad
    have hp : pend = [] := by
      cases pend with
      | nil => rfl
      | cons a pend =>
        have h1 := hlt a (List.mem_cons_self ..)
        have h2 := hinv.range a (List.mem_cons_self ..)
        omega
    subst hp
    have hc : r.2.claims = [] := List.forall₂_nil_right_iff.mp hinv.claims
    rw [ofExcept_bind]
    simp only [BatchVerifier.finish, hc, hinv.last]
    simp only [List.isEmpty_nil, Bool.true_eq_false, if_false]
    have hs := hinv.split
    rw [List.map_nil, List.append_nil] at hs
    rcases hbad with hb | hb
    · simp only [ftruth, List.map_nil, List.sum_nil] at hb
      rw [if_pos hb]
      exact .fail
    · by_cases h0 : s ≠ 0
      · rw [if_pos h0]
        exact .fail
      · rw [if_neg h0]
        refine soundErr_throughL (Q := fun _ => True) (PostL.of ?_) fun y _ => ?_
        · generalize fri q.2.2.2 q.2.2.1 = p
          induction p with
          | ret a => trivial
          | fail e => trivial
          | read n c ih => exact fun m => ih m
          | sample c ih => exact fun x => ih x
        · refine hk ⟨q.2.2.1, q.2.1 ++ r.1, y⟩ hl ?_ ?_
          · rw [hs]; exact hinv.evs
          · rw [hs]; exact hb
  · refine spread_deg 2 _ ?_ ?_
    · intro c hc
      rw [List.zipWith_map_left] at hc
      obtain ⟨i, hi, rfl⟩ := List.getElem_of_mem hc
      simp
    · intro c hc
      rw [List.zipWith_map_left] at hc
      obtain ⟨i, hi, rfl⟩ := List.getElem_of_mem hc
      rw [List.getElem_zipWith]
      exact hD _ (List.getElem_mem _)
  · rw [ftruth_nil, hzip (fun c I => batchWeightedValue c I.trues)]
    have : (all.map fun g => g.1.claim) = (all.map Prod.fst).map fun I => I.claim := by rw [List.map_map]; rfl
    rw [this, List.zipWith_map_left]
    simpa [Instance.claimed] using hne

end Verif.Piop
