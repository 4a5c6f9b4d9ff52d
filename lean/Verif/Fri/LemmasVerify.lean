import Verif.Fri.LemmasFolder

/-! Lemmas about the verifier on an honest decommitment. -/

set_option linter.unusedSectionVars false

namespace Verif.Fri

open Finset Verif.NTT.Spec Verif.Mle Verif.Fri.Spec
open Verif.NTT (TA Lanes flat precomputeTwiddles domainBasis_length)
open Verif.Subspace (BinarySubspace)
open Verif.Merkle (Scheme Tree chunk)

variable {F E D : Type*} [Field F] [DecidableEq F] [Field E] [DecidableEq E] [Algebra F E] [DecidableEq D]
  [Inhabited D]

/-- The comparison of the repeated final values. -/
def checkRepetition (repetition : List E) : Res E :=
  match repetition with
  | [] => none
  | finalValue :: rest =>
    if rest.any (fun entry => decide (entry ≠ finalValue)) then some (.error .incorrectDegree)
    else some (.ok finalValue)

theorem checkRepetition_const (n : Nat) (hn : 0 < n) (g : Nat → E) (v : E) (h : ∀ i < n, g i = v) :
    checkRepetition ((List.range n).map g) = some (.ok v) := by
  have : (List.range n).map g = List.replicate n v := by
    refine List.ext_getElem (by simp) fun i h1 h2 => ?_
    simp at h1 ⊢
    exact h i h1
  obtain ⟨m, rfl⟩ : ∃ m, n = m + 1 := ⟨n - 1, by omega⟩
  rw [this, List.replicate_succ, checkRepetition]
  rw [if_neg]
  simp

theorem checkRepetition_ok {l : List E} {v : E} (h : checkRepetition l = some (.ok v)) : l ≠ [] ∧ ∀ x ∈ l, x = v := by
  cases l with
  | nil => cases h
  | cons x l =>
    unfold checkRepetition at h
    dsimp only at h
    split at h
    · cases h
    · next hne =>
      injection h with h
      injection h with h
      subst h
      refine ⟨by simp, ?_⟩
      simpa using hne

theorem pow_chunks (n r : Nat) : 2 ^ (n + r) / 2 ^ n = 2 ^ r := by
  rw [Nat.pow_add, Nat.mul_div_cancel_left _ (Nat.two_pow_pos n)]

theorem verifyLastOracle_eq (v : Verifier F E D) (tas : List (TA F)) (terminateCodeword : List E)
    (scratch : Nat → Nat → E) : v.verifyLastOracle tas terminateCodeword scratch =
  (vcs (Verif.Merkle.verifyVector v.S (v.roundCommitments.getLast?.getD v.codewordCommitment) terminateCodeword
    (2 ^ v.params.nFinalChallenges))).andThen fun _ =>
  (if v.params.nOracles ≠ 0 then
    (sub? v.foldChallenges.length v.params.nFinalChallenges).andThen fun nPrior =>
    orPanic ((List.range (terminateCodeword.length / 2 ^ v.params.nFinalChallenges)).mapM fun i =>
      Verif.NTT.foldChunk tas (v.params.nFinalChallenges + v.params.code.logInvRate) i
        (asSlice (Verif.Merkle.chunk terminateCodeword (2 ^ v.params.nFinalChallenges) i)) (v.foldChallenges.drop nPrior))
  else
    orPanic ((List.range (terminateCodeword.length / 2 ^ (v.params.code.logDimension + v.params.logBatch))).mapM fun i =>
      Verif.NTT.foldInterleavedChunk 0 tas v.params.code.logLen v.params.logBatch i
        (asLanes (Verif.Merkle.chunk terminateCodeword (2 ^ (v.params.code.logDimension + v.params.logBatch)) i))
        v.interleaveTensor v.foldChallenges
        ⟨2 ^ v.params.code.logDimension, scratch i⟩)).andThen checkRepetition := by
  unfold Verifier.verifyLastOracle
  rfl

/-- The folds of the chunks of a word. -/
theorem chunks_fold (h2 : (1 : F) + 1 = 0) {γ : List F} {tas : List (TA F)}
    (h : NTT.withSubspace (⟨γ⟩ : BinarySubspace F) = some (.ok tas)) (n r : Nat) (w : List E)
    (hw : w.length = 2 ^ (n + r)) (ch : List E) (hch : ch.length = n) (hL : n + r ≤ γ.length) :
    (List.range (w.length / 2 ^ n)).mapM (fun i => Verif.NTT.foldChunk tas (n + r) i
      (asSlice (Verif.Merkle.chunk w (2 ^ n) i)) ch) =
    some ((List.range (2 ^ r)).map (foldMany γ (n + r) ch (word w))) := by
  rw [hw, pow_chunks, Merkle.mapM_some (g := foldMany γ (n + r) ch (word w))]
  intro c hc
  rw [List.mem_range] at hc
  have hcl : (chunk w (2 ^ n) c).length = 2 ^ n := by
    refine chunk_length ?_
    rw [hw, Nat.pow_add, Nat.mul_comm]
    exact Nat.mul_le_mul_left _ hc
  refine foldChunk_word h2 h (Or.inl rfl) (n + r) c ch (by omega) hL
    (by rw [hch, Nat.add_sub_cancel_left]; exact hc) (word w) _ (by unfold asSlice; dsimp only; rw [hcl, hch])
    fun k hk => ?_
  rw [hch] at hk ⊢
  exact chunk_word hk

/-- The folds of the chunks of interleaved words. -/
theorem chunks_interleaved (h2 : (1 : F) + 1 = 0) {γ : List F} {tas : List (TA F)}
    (h : NTT.withSubspace (⟨γ⟩ : BinarySubspace F) = some (.ok tas)) (ld lr : Nat) (w : List E)
    (ic fc : List E) (hw : w.length = 2 ^ (ld + lr + ic.length)) (hfc : fc.length = ld) (hL : ld + lr ≤ γ.length)
    (tensor : Slice E) (hts : tensor.size = 2 ^ ic.length) (htv : ∀ b < 2 ^ ic.length, tensor.val b = eqWeight ic b)
    (scratch : Nat → Nat → E) :
    (List.range (w.length / 2 ^ (ld + ic.length))).mapM (fun i => Verif.NTT.foldInterleavedChunk 0 tas (ld + lr)
      ic.length i (asLanes (Verif.Merkle.chunk w (2 ^ (ld + ic.length)) i)) tensor fc ⟨2 ^ ld, scratch i⟩) =
    some ((List.range (2 ^ lr)).map (foldMany γ (ld + lr) fc (combine ic (word w)))) := by
  rw [hw, show ld + lr + ic.length = ld + ic.length + lr by omega, pow_chunks,
    Merkle.mapM_some (g := foldMany γ (ld + lr) fc (combine ic (word w)))]
  intro c hc
  rw [List.mem_range] at hc
  have hcl : (chunk w (2 ^ (ld + ic.length)) c).length = 2 ^ (ld + ic.length) := by
    refine chunk_length ?_
    rw [hw, show ld + lr + ic.length = lr + (ld + ic.length) by omega, Nat.pow_add 2 lr]
    exact Nat.mul_le_mul_right _ hc
  refine interleavedChunk_word h2 h (Or.inl rfl) 0 (ld + lr) c ic fc (by omega) hL
    (by rw [hfc, Nat.add_sub_cancel_left]; exact hc) (Or.inr (Nat.zero_le _)) (word w) _
    (by unfold asLanes; dsimp only; rw [hcl, hfc, Nat.sub_zero]) tensor _ (by simpa using hts) htv
    (by dsimp only; rw [hfc]) fun k hk => ?_
  rw [hfc] at hk ⊢
  unfold flat asLanes
  dsimp only
  rw [Nat.pow_zero, Nat.div_one, Nat.add_comm ic.length] at *
  exact chunk_word hk

/-- The tensor of the verifier. -/
theorem tensor_eq (ic : List E) : ∃ t : Slice E, Tensor.eqIndPartialEval 0 ic = some t ∧ t.size = 2 ^ ic.length ∧
    ∀ b < 2 ^ ic.length, t.val b = eqWeight ic b := by
  obtain ⟨t, e, hs, hv, -⟩ := Tensor.eqIndPartialEval_eq 0 ic
  exact ⟨t, e, by simpa using hs, hv⟩

theorem foldedMessage_zero (ch : List E) (m : Nat → E) : foldedMessage ch m 0 = mle m ch := by
  unfold foldedMessage
  simp

/-- The whole query phase. -/
theorem queries_ok (v : Verifier F E D) (tas : List (TA F)) (terminate : List E) (layers : List (List D))
    (p : Params F) (codeword : List E) (committed : Tree D) (rounds : List (List E × Tree D))
    (queries : Nat → Nat) (scratch : Nat → Nat → E) (nq : Nat)
    (H : ∀ k < nq, ∃ items, proveQuery p codeword committed rounds (queries k) = some (.ok items) ∧
      ∀ rest, v.verifyQuery tas terminate layers (scratch k) (queries k) (items ++ rest) = some (.ok rest)) :
    ∀ (n k : Nat), k + n = nq → ∃ items, proveQueries p codeword committed rounds queries n k = some (.ok items) ∧
      ∀ rest, v.queriesLoop tas terminate layers queries scratch n k (items ++ rest) = some (.ok rest)
  | 0, _, _ => ⟨[], rfl, fun _ => rfl⟩
  | n + 1, k, hk => by
    obtain ⟨a, ha, hva⟩ := H k (by omega)
    obtain ⟨b, hb, hvb⟩ := queries_ok v tas terminate layers p codeword committed rounds queries scratch nq H n (k + 1)
      (by omega)
    refine ⟨a ++ b, ?_, fun rest => ?_⟩
    · rw [proveQueries, ha, andThen_ok, hb]; rfl
    · rw [Verifier.queriesLoop, List.append_assoc, hva, andThen_ok, hvb]

end Verif.Fri
