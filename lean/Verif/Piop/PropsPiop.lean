import Verif.Piop.LemmasPiopProve

set_option linter.dupNamespace false

/-! # C62: the reduction of claims on committed polynomials to the opening of the commitment -/

namespace Verif.Piop

open Verif.Mle Verif.Sumcheck Verif.Protocol Finset

variable {F : Type} [Field F] [DecidableEq F]

/-- **C62.** Soundness.  Whatever verifier of FRI is plugged in, if one of the claims is false of the committed tables `C` and the
transparent tables `T`, then for every prover, among all vectors of challenges, at most a fraction
`(2 · total_vars + number of claims) / |F|` make the verifier accept with FRI having ended in the evaluation of the committed
message at the challenges.  So to have a false claim accepted, the prover has to cheat FRI. -/
theorem C62_soundness [Fintype F] (m : CommitMeta) (C T : List (Nat × (Nat → F))) (claims : List (PiopClaim F))
    (hwf : WellFormed m C T claims) (ts : List (Transparent F)) (hts : Transparent.Are ts T)
    (digest : Nat) (arities : List Nat) (fri : List (List F) → List F → P F F) (nFri : Nat)
    (hfri : ∀ comms chs, (fri comms chs).SamplesLe nFri)
    (hfalse : ∃ c ∈ claims, ¬ ClaimHolds C T c) (msg : List F → Nat → List F) :
    accepting (FriTrue C) msg (verify m digest arities fri ts claims) [] 0 (m.maxNVars + 1 + (m.totalVars + nFri)) *
        Fintype.card F ≤
      (m.totalVars * 2 + claims.length) * Fintype.card F ^ (m.maxNVars + 1 + (m.totalVars + nFri)) :=
  soundErr_count (verify_err digest arities fri ts hwf hts hfalse) msg _
    (samplesLe_verify m digest arities fri ts claims hwf hts nFri hfri) [] 0

/-- **C62.** Completeness.  In characteristic two, if all claims are true and prover and verifier of FRI fit together, then
whatever the challenges the prover succeeds, and the verifier accepts what it wrote, with FRI having ended in the evaluation of
the committed message at `total_vars` challenges. -/
theorem C62_completeness (h2 : (2 : F) = 0) (m : CommitMeta) (C T : List (Nat × (Nat → F))) (claims : List (PiopClaim F))
    (hwf : WellFormed m C T claims) (ts : List (Transparent F)) (hts : Transparent.Are ts T)
    (digest : Nat) (arities : List Nat) (commitAt : List F → Option (List F)) (finishProof : List F → PP F Unit)
    (fri : List (List F) → List F → P F F)
    (hfri : FriComplete m.totalVars digest arities C commitAt finishProof fri)
    (htrue : ∀ c ∈ claims, ClaimHolds C T c) (chal : Nat → F) :
    ((prove m commitAt finishProof C T claims).run chal).2 = .ok () ∧
    ∃ out, (verify m digest arities fri ts claims).run
        (fun _ i => ((prove m commitAt finishProof C T claims).run chal).1.getD i []) [] 0 chal = .ok out ∧
      out.challenges.length = m.totalVars ∧ FriTrue C out := by
  obtain ⟨a, b, h3, h4, h5⟩ := agree_run (prove_agree h2 hwf hts htrue hfri) [] [] chal
  exact ⟨h3, b, by simpa using h4, h5⟩

/-! Non-vacuity: one committed and one transparent polynomial in one variable. -/

/-- The table with the entries `a` and `b`. -/
def table2 (a b : F) : Nat × (Nat → F) := (1, fun x => if x = 0 then a else b)

omit [Field F] [DecidableEq F] in
theorem exampleWf (a b c d s : F) :
    WellFormed (CommitMeta.new [0, 1]) [table2 a b] [table2 c d] [⟨1, 0, 0, s⟩] where
  new := rfl
  committed := rfl
  nonempty := by simp
  sorted := by simp
  bound := by
    intro q hq
    rw [List.mem_singleton] at hq
    subst hq
    exact Nat.le_refl 1
  claims := by
    intro x hx
    rw [List.mem_singleton] at hx
    subst hx
    exact ⟨Nat.le_refl 1, rfl, rfl⟩

omit [DecidableEq F] in
theorem exampleHolds (a b c d s : F) :
    ClaimHolds [table2 a b] [table2 c d] ⟨1, 0, 0, s⟩ ↔ s = a * c + b * d := by
  unfold ClaimHolds table2
  constructor
  · rintro ⟨p, q, h1, h2, h3⟩
    simp only [List.getElem?_cons_zero, Option.some.injEq] at h1 h2
    subst h1 h2
    refine Eq.trans h3 ?_
    simp [sum_range_succ]
  · rintro rfl
    exact ⟨_, _, rfl, rfl, by simp [sum_range_succ]⟩

/-- The transparent polynomial of the table. -/
def transparent2 (c d : F) : Transparent F := ⟨1, fun r => .ok (mle (table2 c d).2 r)⟩

omit [DecidableEq F] in
theorem exampleAre (c d : F) : Transparent.Are [transparent2 c d] [table2 c d] :=
  .cons ⟨rfl, fun _ _ => rfl⟩ .nil

/-- The false claim `0·1 + 1·1 = 2`, over the field of seven elements, and a trivial FRI that reads its final value. -/
example (msg : List (ZMod 7) → Nat → List (ZMod 7)) :
    accepting (FriTrue [table2 (0 : ZMod 7) 1]) msg
      (verify (CommitMeta.new [0, 1]) 1 [1] (fun _ _ => .read 1 fun m => .ret (m.getD 0 0)) [transparent2 1 1] [⟨1, 0, 0, 2⟩])
      [] 0 3 * 7 ≤ 3 * 7 ^ 3 := by
  have h := C62_soundness (CommitMeta.new [0, 1]) [table2 (0 : ZMod 7) 1] [table2 1 1] [⟨1, 0, 0, 2⟩] (exampleWf ..)
    [transparent2 1 1] (exampleAre ..) 1 [1] (fun _ _ => .read 1 fun m => .ret (m.getD 0 0)) 0
    (fun _ _ => fun _ => trivial)
    ⟨_, List.mem_singleton_self _, fun h => absurd ((exampleHolds ..).mp h) (by decide)⟩ msg
  simpa [ZMod.card, show (CommitMeta.new [0, 1]).maxNVars = 1 from rfl,
    show (CommitMeta.new [0, 1]).totalVars = 1 from rfl] using h

/-- A FRI that commits to the folded message, which is a constant after one round, and writes it again at the end. -/
theorem exampleFri (a b : F) : FriComplete (CommitMeta.new [0, 1]).totalVars 1 [1] [table2 a b]
    (fun chs => if chs.length = 1 then some [mle (message [table2 a b]) chs] else none)
    (fun chs => .write [mle (message [table2 a b]) chs] (.ret ()))
    (fun comms _ => .read 1 fun m => if comms = [m] then .ret (m.getD 0 0) else .fail .panic) where
  positive := by simp
  rounds := by
    intro chs
    by_cases h : chs.length = 1 <;> simp [h, commitRounds]
  digest := by
    intro chs comm h
    split at h
    · injection h with h
      rw [← h]
      rfl
    · cases h
  accepts := by
    intro chs hl
    have hl : chs.length = 1 := hl
    obtain ⟨r, rfl⟩ := List.length_eq_one_iff.mp hl
    refine .write rfl ?_
    simp only [commitmentsFor, List.length_singleton, List.range_one, List.filterMap_cons, List.filterMap_nil,
      List.take_succ_cons, List.take_zero, if_true]
    exact .ret rfl

/-- The true claim `0·1 + 1·1 = 1`. -/
example (chal : Nat → ZMod 2) :
    ∃ out, (verify (CommitMeta.new [0, 1]) 1 [1]
        (fun comms _ => .read 1 fun m => if comms = [m] then .ret (m.getD 0 0) else .fail .panic)
        [transparent2 (1 : ZMod 2) 1] [⟨1, 0, 0, 1⟩]).run
      (fun _ i => ((prove (CommitMeta.new [0, 1])
        (fun chs => if chs.length = 1 then some [mle (message [table2 (0 : ZMod 2) 1]) chs] else none)
        (fun chs => .write [mle (message [table2 (0 : ZMod 2) 1]) chs] (.ret ())) [table2 0 1] [table2 1 1]
        [⟨1, 0, 0, 1⟩]).run chal).1.getD i []) [] 0 chal = .ok out := by
  obtain ⟨-, out, h, -, -⟩ := C62_completeness (F := ZMod 2) rfl (CommitMeta.new [0, 1]) [table2 0 1] [table2 1 1]
    [⟨1, 0, 0, 1⟩] (exampleWf ..) [transparent2 1 1] (exampleAre ..) 1 [1] _ _ _ (exampleFri 0 1)
    (fun c hc => by rw [List.mem_singleton] at hc; subst hc; exact (exampleHolds ..).mpr (by decide)) chal
  exact ⟨out, h⟩

/-- **C62 (finding).** Without committed polynomials the verifier panics after FRI has accepted, instead of accepting. -/
theorem C62_no_committed_panics (digest : Nat) (fri : List (List F) → List F → P F F) (y : F)
    (hfri : fri [] [] = .ret y) :
    verify (CommitMeta.new []) digest [] fri [] [] = .fail .panic := by
  have hp : checkPiecewise [0] ([] : List F) [] y = .error .panic := by
    simp [checkPiecewise, Piecewise.evaluate, Piecewise.totalLength, Slice.ofList, Piecewise.pwLoop, Slice.get?]
  have hn : newBatchVerifier ([] : List (Claim F)) = .ret ⟨[], 0, .sum 0⟩ := by
    have hs : Verif.Sorting.isSortedAscending ([] : List Nat) = true := by rw [asc_iff]; exact .nil
    simp [newBatchVerifier, sampleVec, newPrebatched, Prog.bind, Prog.ofExcept, hs, spreadMaxDegree]
  have hf : (⟨[], 0, .sum 0⟩ : BatchVerifier F).finish = .ok () := by simp [BatchVerifier.finish]
  have hi : verifyInterleaved 0 digest [] fri [] = (.ret ⟨[], [], y⟩ : P F (FriOutput F)) := by
    unfold verifyInterleaved
    rw [hn]
    simp only [Prog.bind, piopRounds, finishReady, BatchVerifier.tryFinishClaim]
    rw [hf, hfri]
    rfl
  have h : verify (CommitMeta.new []) digest [] fri [] [] =
      (verifyInterleaved 0 digest [] fri []).bind fun out =>
        (Prog.ofExcept (verifyTransparentEvals [] out.challenges [] out.multilinearEvals)).bind fun evals =>
          (Prog.ofExcept (checkPiecewise [0] out.challenges evals.reverse out.friFinal)).bind
            fun _ => .ret ⟨out.challenges, out.friFinal⟩ := rfl
  rw [h, hi]
  simp only [Prog.bind]
  rw [ofExcept_bind]
  simp only [verifyTransparentEvals, List.reverse_nil]
  rw [ofExcept_bind, hp]

end Verif.Piop
