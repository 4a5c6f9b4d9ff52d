import Verif.Fri.LemmasHonest
import Verif.Fri.LemmasFast

/-! Lemmas about the fold rounds of the honest prover. -/

set_option linter.unusedSectionVars false

namespace Verif.Fri

open Finset Verif.NTT.Spec Verif.Mle Verif.Fri.Spec
open Verif.NTT (TA Lanes flat precomputeTwiddles)
open Verif.Merkle (Scheme Tree chunk)

variable {F E D : Type*} [Field F] [DecidableEq F] [Field E] [DecidableEq E] [Algebra F E] [DecidableEq D]
  [Inhabited D]

theorem foldRounds_quiet (fold : FriFold E) (S : Scheme E D) (junk : Nat → Nat → D) (p : Params F) (codeword : List E)
    (next : Option Nat) (done : List (List E × Tree D)) : ∀ (rs : List E) (c : Nat) (unp ss : List E),
    (∀ j, j < rs.length → next ≠ some (c + j + 1)) →
    Folder.foldRounds fold S junk p codeword ⟨done, c, next, unp⟩ (rs ++ ss) =
      Folder.foldRounds fold S junk p codeword ⟨done, c + rs.length, next, unp ++ rs⟩ ss
  | [], c, unp, ss, _ => by simp
  | r :: rs, c, unp, ss, hne => by
    rw [List.cons_append, Folder.foldRounds, Folder.executeFoldRound]
    dsimp only
    rw [if_pos (hne 0 (by simp)), andThen_ok]
    dsimp only
    rw [foldRounds_quiet fold S junk p codeword next done rs (c + 1) (unp ++ [r]) ss (fun j hj => by
      have := hne (j + 1) (by rw [List.length_cons]; omega)
      rwa [show c + 1 + j + 1 = c + (j + 1) + 1 by omega]), List.length_cons, show c + 1 + rs.length =
        c + (rs.length + 1) by omega, List.append_assoc, List.singleton_append]
    generalize Folder.foldRounds fold S junk p codeword ⟨done, c + (rs.length + 1), next, unp ++ r :: rs⟩ ss = x
    rcases x with _ | (e | x)
    · rfl
    · rfl
    · rfl

theorem log2Strict_pow (k : Nat) : log2Strict (2 ^ k) = some (.ok k) := by
  unfold log2Strict
  rw [Nat.log2_two_pow, if_pos rfl]

/-- The exponent of the coset size of an oracle. -/
def cosetLog (nFinal : Nat) (as : List Nat) : Nat := as.head?.getD nFinal

theorem cosetSize_eq (as : List Nat) (n i : Nat) :
    (as[i]?.map (2 ^ ·)).getD (2 ^ n) = 2 ^ cosetLog n (as.drop i) := by
  unfold cosetLog
  rw [List.head?_drop]
  cases as[i]? <;> rfl

theorem foldRounds_rest {β : List F} (fold : FriFold E) (S : Scheme E D) (junk : Nat → Nat → D) (p : Params F)
    (codeword : List E) (lr : Nat) : ∀ (as : List Nat) (done : List (List E × Tree D)) (w : List E) (t : Tree D)
    (r : D) (c L : Nat) (ch : List E), p.foldArities.drop (done.length + 1) = as → (∀ a ∈ as, 0 < a) →
    as.sum + p.nFinalChallenges + lr = L → ch.length = as.sum + p.nFinalChallenges → w.length = 2 ^ L →
    (∀ a ∈ as, ∀ l, a ≤ l → l ≤ L → Folds β fold l 0 a) →
    Honest S (cosetLog p.nFinalChallenges as) (L - cosetLog p.nFinalChallenges as) w r t →
    ∃ rounds roots unp next,
      Folder.foldRounds fold S junk p codeword ⟨done ++ [(w, t)], c, as.head?.map (c + ·), []⟩ ch =
        some (.ok (⟨done ++ (w, t) :: rounds, c + ch.length, next, unp⟩, roots)) ∧
      Rounds S β p.nFinalChallenges L ch as w ((w, t) :: rounds) (r :: roots)
  | [], done, w, t, r, c, L, ch, hda, h0, hsum, hch, hw, hf, hH => by
    refine ⟨[], [], ch, none, ?_, Rounds.last (by simp at hsum; omega) hw hH⟩
    have := foldRounds_quiet fold S junk p codeword none (done ++ [(w, t)]) ch c [] [] (fun _ _ => by simp)
    rw [List.append_nil, List.nil_append] at this
    exact this
  | a :: as, done, w, t, r, c, L, ch, hda, h0, hsum, hch, hw, hf, hH => by
    rw [List.sum_cons] at hsum hch
    have ha := h0 a (List.mem_cons_self ..)
    obtain ⟨rs, x, ss, rfl, hrs⟩ : ∃ rs x ss, ch = rs ++ x :: ss ∧ rs.length + 1 = a := by
      have hlt : a - 1 < ch.length := by omega
      refine ⟨ch.take (a - 1), ch[a - 1], ch.drop (a - 1 + 1), ?_, ?_⟩
      · rw [← List.drop_eq_getElem_cons hlt, List.take_append_drop]
      · rw [List.length_take]; omega
    have htake : (rs ++ x :: ss).take a = rs ++ [x] := by
      rw [← hrs, show rs ++ x :: ss = (rs ++ [x]) ++ ss by simp]
      exact List.take_left' (by simp)
    have hdrop : (rs ++ x :: ss).drop a = ss := by
      rw [← hrs, show rs ++ x :: ss = (rs ++ [x]) ++ ss by simp]
      exact List.drop_left' (by simp)
    have hda' : p.foldArities.drop (done.length + 1 + 1) = as := by
      rw [← List.drop_drop, hda]; rfl
    let w' := (List.range (2 ^ (L - a))).map (foldMany β L (rs ++ [x]) (word w))
    have hw'l : w'.length = 2 ^ (L - a) := by simp [w']
    have hca : cosetLog p.nFinalChallenges as ≤ L - a := by
      unfold cosetLog
      cases as with
      | nil => simp at hsum ⊢; omega
      | cons b bs => rw [List.sum_cons] at hsum; simp; omega
    obtain ⟨root, t', hcom, hH'⟩ := honest_commit S (junk (done ++ [(w, t)]).length) w'
      (cosetLog p.nFinalChallenges as) (L - a - cosetLog p.nFinalChallenges as) (by
        rw [hw'l]; congr 1; omega)
    have hww : ∀ i < 2 ^ (L - a), word w' i = foldMany β L (rs ++ [x]) (word w) i := by
      intro i hi
      rw [word_of_lt (by omega)]
      simp [w']
    have hfo := hf a (List.mem_cons_self ..) L (by omega) le_rfl (rs ++ [x]) w (by simp; omega) (by rw [hw, Nat.add_zero])
    rw [Nat.sub_zero] at hfo
    obtain ⟨rounds, roots, unp, next, hrec, hR⟩ := foldRounds_rest fold S junk p codeword lr as (done ++ [(w, t)]) w'
      t' root (c + a) (L - a) ss (by rw [List.length_append]; exact hda') (fun b hb => h0 b (List.mem_cons_of_mem _ hb))
      (by omega) (by simp at hch; omega) hw'l
      (fun b hb l h1 h2 => hf b (List.mem_cons_of_mem _ hb) l h1 (by omega)) hH'
    refine ⟨(w', t') :: rounds, root :: roots, unp, next, ?_, ?_⟩
    · rw [foldRounds_quiet fold S junk p codeword _ _ rs c [] _ (fun j hj => by simp; omega), Folder.foldRounds,
        Folder.executeFoldRound]
      dsimp only
      rw [if_neg (by simp; omega), List.nil_append]
      have hfold : Folder.fold fold p codeword
          ⟨done ++ [(w, t)], c + rs.length, (a :: as).head?.map (c + ·), rs⟩ (rs ++ [x]) = some (.ok w') := by
        unfold Folder.fold
        rw [List.getLast?_concat]
        dsimp only
        rw [hw, log2Strict_pow, andThen_ok]
        have : 2 ^ L / 2 ^ (rs ++ [x]).length = 2 ^ (L - a) := by
          rw [show (rs ++ [x]).length = a by simp; omega, Nat.pow_div (by omega) (by omega)]
        rw [this, hfo]
        congr 2
        refine List.map_congr_left fun i _ => ?_
        unfold foldWord
        rw [List.drop_zero, List.take_zero]
        congr 1
        funext y
        simp [combine]
      rw [hfold, andThen_ok, cosetSize_eq]
      rw [show (done ++ [(w, t)]).length + 1 = done.length + 1 + 1 by simp, hda', hcom, andThen_ok]
      dsimp only
      rw [andThen_ok]
      dsimp only
      have hnext : ((a :: as).head?.map (c + ·)).bind
          (fun r => p.foldArities[(done ++ [(w, t)] ++ [(w', t')]).length]?.map (r + ·)) =
          as.head?.map (c + a + ·) := by
        rw [show (done ++ [(w, t)] ++ [(w', t')]).length = done.length + 1 + 1 by simp, ← List.head?_drop, hda']
        rfl
      rw [hnext, show c + rs.length + 1 = c + a by omega, hrec, andThen_ok]
      simp [List.append_assoc]
      omega
    · refine Rounds.step (w' := w') (by omega) (by simp; omega) hw hH ?_ ?_
      · rw [htake]; exact hww
      · rw [hdrop]; exact hR

/-- All fold rounds, when there is an oracle to fold. -/
theorem foldRounds_all {β : List F} (fold : FriFold E) (S : Scheme E D) (junk : Nat → Nat → D) (p : Params F)
    (codeword : List E) (lr L b a : Nat) (as : List Nat) (ch : List E) (hp : p.foldArities = a :: as) (h0 : 0 < a)
    (h0s : ∀ a ∈ as, 0 < a) (hb : p.logBatch = b) (hba : b ≤ a) (hlog : p.code.logLen = L)
    (hsum : (a - b) + as.sum + p.nFinalChallenges + lr = L) (hch : ch.length = a + as.sum + p.nFinalChallenges)
    (hw : codeword.length = 2 ^ (L + b)) (hf0 : Folds β fold L b a)
    (hf : ∀ a ∈ as, ∀ l, a ≤ l → l ≤ L → Folds β fold l 0 a) :
    ∃ w' rounds roots unp next,
      Folder.foldRounds fold S junk p codeword ⟨[], 0, p.foldArities.head?, []⟩ ch =
        some (.ok (⟨rounds, ch.length, next, unp⟩, roots)) ∧
      (∀ i < 2 ^ (L - (a - b)), word w' i = foldWord β L b (ch.take a) (word codeword) i) ∧
      Rounds S β p.nFinalChallenges (L - (a - b)) (ch.drop a) as w' rounds roots := by
  obtain ⟨rs, x, ss, rfl, hrs⟩ : ∃ rs x ss, ch = rs ++ x :: ss ∧ rs.length + 1 = a := by
    have hlt : a - 1 < ch.length := by omega
    refine ⟨ch.take (a - 1), ch[a - 1], ch.drop (a - 1 + 1), ?_, ?_⟩
    · rw [← List.drop_eq_getElem_cons hlt, List.take_append_drop]
    · rw [List.length_take]; omega
  have htake : (rs ++ x :: ss).take a = rs ++ [x] := by
    rw [← hrs, show rs ++ x :: ss = (rs ++ [x]) ++ ss by simp]
    exact List.take_left' (by simp)
  have hdrop : (rs ++ x :: ss).drop a = ss := by
    rw [← hrs, show rs ++ x :: ss = (rs ++ [x]) ++ ss by simp]
    exact List.drop_left' (by simp)
  let w' := (List.range (2 ^ (L - (a - b)))).map (foldWord β L b (rs ++ [x]) (word codeword))
  have hw'l : w'.length = 2 ^ (L - (a - b)) := by simp [w']
  have hca : cosetLog p.nFinalChallenges as ≤ L - (a - b) := by
    unfold cosetLog
    cases as with
    | nil => simp at hsum ⊢; omega
    | cons b bs => rw [List.sum_cons] at hsum; simp; omega
  obtain ⟨root, t', hcom, hH'⟩ := honest_commit S (junk 0) w'
    (cosetLog p.nFinalChallenges as) (L - (a - b) - cosetLog p.nFinalChallenges as) (by
      rw [hw'l]; congr 1; omega)
  have hww : ∀ i < 2 ^ (L - (a - b)), word w' i = foldWord β L b (rs ++ [x]) (word codeword) i := by
    intro i hi
    rw [word_of_lt (by omega)]
    simp [w']
  have hfo := hf0 (rs ++ [x]) codeword (by simp; omega) hw
  obtain ⟨rounds, roots, unp, next, hrec, hR⟩ := foldRounds_rest (β := β) fold S junk p codeword lr as [] w'
    t' root a (L - (a - b)) ss (by rw [hp]; rfl) h0s
    (by omega) (by simp at hch; omega) hw'l
    (fun b hb l h1 h2 => hf b hb l h1 (by omega)) hH'
  refine ⟨w', (w', t') :: rounds, root :: roots, unp, next, ?_, ?_, ?_⟩
  · rw [hp, foldRounds_quiet fold S junk p codeword _ _ rs 0 [] _ (fun j hj => by simp; omega), Folder.foldRounds,
      Folder.executeFoldRound]
    dsimp only
    rw [if_neg (by simp; omega), List.nil_append]
    have hfold : Folder.fold (D := D) fold p codeword
        ⟨[], 0 + rs.length, (a :: as).head?, rs⟩ (rs ++ [x]) = some (.ok w') := by
      unfold Folder.fold
      rw [List.getLast?_nil]
      dsimp only
      unfold sub?
      have hl : (rs ++ [x]).length = a := by simp; omega
      rw [hl, hb, if_neg (by omega), andThen_ok, hlog, if_neg (by omega), andThen_ok, hfo]
    rw [hfold, andThen_ok, cosetSize_eq]
    have hda : p.foldArities.drop (0 + 1) = as := by rw [hp]; rfl
    show (Res.andThen (Res.andThen (vcs (Merkle.commit S (junk 0) w' (2 ^ cosetLog p.nFinalChallenges
      (p.foldArities.drop (0 + 1))))) _) _) = _
    rw [hda, hcom, andThen_ok]
    dsimp only
    rw [andThen_ok]
    dsimp only
    have hnext : ((a :: as).head?).bind
        (fun r => p.foldArities[(([] : List (List E × Tree D)) ++ [(w', t')]).length]?.map (r + ·)) =
        as.head?.map (a + ·) := by
      rw [show (([] : List (List E × Tree D)) ++ [(w', t')]).length = 0 + 1 from rfl, ← List.head?_drop, hda]
      rfl
    rw [hnext, show 0 + rs.length + 1 = a by omega, hrec, andThen_ok]
    simp
    omega
  · rw [htake]; exact hww
  · rw [hdrop]; exact hR

end Verif.Fri
