import Verif.Fri.PropsFri

/-! C58: which parameters the FRI protocol can be run with. -/

set_option linter.unusedSectionVars false

namespace Verif.Fri

open Verif.NTT (TA Lanes)
open Verif.Merkle (Scheme Tree)
open Verif.Code (ReedSolomonCode)

section
variable {F E D : Type*} [Field F] [DecidableEq F] [Field E] [DecidableEq E] [Algebra F E] [DecidableEq D]
  [Inhabited D]

/-- **C58** (finding).  `FRIParams::new` accepts a first arity below the logarithm of the batch size (there is an error
for it that nothing returns), and then every prover panics in the round of the first fold. -/
theorem C58_first_arity_too_small (code : ReedSolomonCode F) (lb nq a : Nat) (as : List Nat) (ha : 0 < a) (hlt : a < lb)
    (hsum : (a :: as).sum < code.logDimension + lb) :
    ∃ p : Params F, Params.new code lb (a :: as) nq = .ok p ∧
      ∀ (fold : FriFold E) (S : Scheme E D) (junk : Nat → Nat → D) (codeword challenges : List E) (f : Folder E D),
        Folder.new p codeword = some (.ok f) → a ≤ challenges.length →
        Folder.foldRounds fold S junk p codeword f challenges = none := by
  refine ⟨⟨code, lb, a :: as, nq⟩, ?_, ?_⟩
  · unfold Params.new
    rw [if_neg (by simpa using hsum)]
  · intro fold S junk codeword challenges f hf hc
    unfold Folder.new at hf
    split at hf
    · cases hf
    injection hf with hf; injection hf with hf
    subst hf
    obtain ⟨rs, x, ss, rfl, hrs⟩ : ∃ rs x ss, challenges = rs ++ x :: ss ∧ rs.length + 1 = a := by
      have hlt : a - 1 < challenges.length := by omega
      refine ⟨challenges.take (a - 1), challenges[a - 1], challenges.drop (a - 1 + 1), ?_, ?_⟩
      · rw [← List.drop_eq_getElem_cons hlt, List.take_append_drop]
      · rw [List.length_take]; omega
    rw [foldRounds_quiet fold S junk _ codeword _ _ rs 0 [] _ (fun j hj => by simp; omega), Folder.foldRounds,
      Folder.executeFoldRound]
    dsimp only
    rw [if_neg (by simp; omega)]
    unfold Folder.fold
    dsimp only [List.getLast?_nil]
    unfold sub?
    rw [if_pos (by simp; omega)]
    rfl

/-- **C58** (finding).  `FRIParams::new` accepts a first arity of zero (there is an error for it that nothing returns),
and then no prover commits to any word after the first, and the verifier refuses what was sent. -/
theorem C58_first_arity_zero (code : ReedSolomonCode F) (lb nq : Nat) (as : List Nat)
    (hsum : (0 :: as).sum < code.logDimension + lb) :
    ∃ p : Params F, Params.new code lb (0 :: as) nq = .ok p ∧
      ∀ (fold : FriFold E) (S : Scheme E D) (junk : Nat → Nat → D) (codeword challenges : List E) (f : Folder E D),
        Folder.new p codeword = some (.ok f) →
        ∃ g, Folder.foldRounds fold S junk p codeword f challenges = some (.ok (g, [])) ∧
          ∀ root, Verifier.new S p root ([] : List D) challenges = some (.error .invalidArgs) := by
  refine ⟨⟨code, lb, 0 :: as, nq⟩, ?_, ?_⟩
  · unfold Params.new
    rw [if_neg (by simpa using hsum)]
  · intro fold S junk codeword challenges f hf
    unfold Folder.new at hf
    split at hf
    · cases hf
    injection hf with hf; injection hf with hf
    subst hf
    have := foldRounds_quiet fold S junk (⟨code, lb, 0 :: as, nq⟩ : Params F) codeword (some 0) [] challenges 0 [] []
      (fun j hj => by simp)
    rw [List.append_nil] at this
    refine ⟨_, this, fun root => ?_⟩
    unfold Verifier.new
    rw [if_pos (by simp [Params.nOracles])]

/-! ### The constant arity -/

theorem minBits_le (m e : Nat) : Merkle.minBits m ≤ e ↔ m < 2 ^ e := by
  unfold Merkle.minBits
  split
  · next h => subst h; simp [Nat.two_pow_pos]
  · next h => rw [Nat.add_one_le_iff, Nat.log2_lt h]

/-- **C58** (the chosen parameters).  Let a code have the dimension that `choose_with_constant_fold_arity` gives it.
It panics for the arity zero.  It returns an error exactly if the message has one symbol, or if the arity divides the
logarithm of the length of the message and there are at most `2^log_inv_rate` queries.  Otherwise the arities are as
C58 needs them, and as many as possible such that the terminal codeword has no fewer symbols than there are queries
(if the first codeword has that many). -/
theorem C58_constant_arity (code : ReedSolomonCode F) (logMsgLen arity nq : Nat)
    (hd : code.logDimension = chooseLogDim logMsgLen arity) :
    (arity = 0 → Params.chooseWithConstantFoldArity code logMsgLen code.logInvRate arity nq = none) ∧
    (0 < arity →
      (logMsgLen = 0 ∨ (arity ∣ logMsgLen ∧ nq ≤ 2 ^ code.logInvRate) →
        Params.chooseWithConstantFoldArity code logMsgLen code.logInvRate arity nq =
          some (.error .invalidFoldAritySequence)) ∧
      (¬ (logMsgLen = 0 ∨ (arity ∣ logMsgLen ∧ nq ≤ 2 ^ code.logInvRate)) →
        ∃ p, Params.chooseWithConstantFoldArity code logMsgLen code.logInvRate arity nq = some (.ok p) ∧
          p.code = code ∧ p.nTestQueries = nq ∧ p.nFoldRounds = logMsgLen ∧ p.logBatch = min logMsgLen arity ∧
          (∀ a ∈ p.foldArities, a = arity) ∧ (∀ a ∈ p.foldArities.head?, p.logBatch ≤ a) ∧
          (nq ≤ 2 ^ (logMsgLen + code.logInvRate) → nq ≤ 2 ^ (p.nFinalChallenges + code.logInvRate)) ∧
          ∀ n, n * arity ≤ logMsgLen → nq ≤ 2 ^ (logMsgLen - n * arity + code.logInvRate) → n ≤ p.nOracles)) := by
  unfold chooseLogDim at hd
  generalize hlr : code.logInvRate = lr
  have hcap : ∀ e, Merkle.minBits (nq - 1) ≤ e ↔ nq ≤ 2 ^ e := by
    intro e
    rw [minBits_le]
    have := Nat.two_pow_pos e
    omega
  generalize hc : Merkle.minBits (nq - 1) = cap at hcap
  refine ⟨fun h => by unfold Params.chooseWithConstantFoldArity; rw [if_pos h], fun hpos => ?_⟩
  have hchoose : Params.chooseWithConstantFoldArity code logMsgLen lr arity nq =
      some (Params.new code (min logMsgLen arity) (List.replicate ((logMsgLen - (cap - lr)) / arity) arity) nq) := by
    unfold Params.chooseWithConstantFoldArity
    rw [if_neg (by omega)]
    dsimp only
    rw [hc]
  rw [hchoose]
  have hdim : code.logDimension + min logMsgLen arity = logMsgLen := by omega
  have hq1 := Nat.div_mul_le_self (logMsgLen - (cap - lr)) arity
  have hq2 : ∀ n, n * arity ≤ logMsgLen - (cap - lr) → n ≤ (logMsgLen - (cap - lr)) / arity :=
    fun n hn => (Nat.le_div_iff_mul_le hpos).2 hn
  generalize hk : (logMsgLen - (cap - lr)) / arity = k at hq1 hq2 ⊢
  have hsum : (List.replicate k arity).sum = k * arity := by rw [List.sum_replicate, smul_eq_mul]
  have hiff : logMsgLen ≤ k * arity ↔ logMsgLen = 0 ∨ (arity ∣ logMsgLen ∧ nq ≤ 2 ^ lr) := by
    rw [← hcap lr]
    constructor
    · intro hle
      rcases Nat.eq_zero_or_pos logMsgLen with h0 | h0
      · exact Or.inl h0
      · refine Or.inr ⟨⟨k, ?_⟩, by omega⟩
        rw [Nat.mul_comm]; omega
    · rintro (h0 | ⟨⟨m, hm⟩, hle⟩)
      · omega
      · have := hq2 m (by rw [Nat.mul_comm, ← hm]; omega)
        have := Nat.mul_le_mul_right arity this
        rw [Nat.mul_comm m, ← hm] at this
        exact this
  constructor
  · intro h
    unfold Params.new
    rw [if_pos (by rw [hsum, hdim]; exact hiff.2 h)]
  · intro h
    have hlt : ¬ logMsgLen ≤ k * arity := fun hle => h (hiff.1 hle)
    refine ⟨⟨code, min logMsgLen arity, List.replicate k arity, nq⟩, ?_, rfl, rfl, hdim, rfl, ?_, ?_, ?_, ?_⟩
    · unfold Params.new
      rw [if_neg (by rw [hsum, hdim]; exact hlt)]
    · intro a ha
      exact (List.mem_replicate.1 ha).2
    · intro a ha
      have : a ∈ List.replicate k arity := List.mem_of_mem_head? ha
      rw [(List.mem_replicate.1 this).2]
      exact Nat.min_le_right _ _
    · intro hle
      rw [← hcap] at hle ⊢
      unfold Params.nFinalChallenges Params.nFoldRounds
      dsimp only
      rw [hsum, hdim]
      omega
    · intro n hn hle
      rw [← hcap] at hle
      unfold Params.nOracles
      dsimp only
      rw [List.length_replicate]
      exact hq2 n (by omega)

/-- `choose_with_constant_fold_arity` fails for messages of four symbols, arity one or two and rate one half, if two
queries are enough; with three queries it succeeds, with one fold of arity one. -/
example (s : Verif.Subspace.BinarySubspace F) :
    Params.chooseWithConstantFoldArity (⟨s, chooseLogDim 2 1, 1⟩ : ReedSolomonCode F) 2 1 1 2 =
      some (.error .invalidFoldAritySequence) ∧
    Params.chooseWithConstantFoldArity (⟨s, chooseLogDim 2 2, 1⟩ : ReedSolomonCode F) 2 1 2 2 =
      some (.error .invalidFoldAritySequence) ∧
    Params.chooseWithConstantFoldArity (⟨s, chooseLogDim 2 1, 1⟩ : ReedSolomonCode F) 2 1 1 3 =
      some (.ok ⟨⟨s, 1, 1⟩, 1, [1], 3⟩) := by
  refine ⟨((C58_constant_arity _ 2 1 2 rfl).2 (by decide)).1 (Or.inr ⟨by decide, le_refl 2⟩),
    ((C58_constant_arity _ 2 2 2 rfl).2 (by decide)).1 (Or.inr ⟨by decide, le_refl 2⟩), ?_⟩
  have h1 : Merkle.minBits (3 - 1) = 2 := by decide
  unfold Params.chooseWithConstantFoldArity
  rw [h1]
  rfl

/-! ### The packed compute layer without access to the scalars -/

/-- `fri_fold` of the packed compute layer for packed fields that cannot be seen as slices of scalars,
crates/fast_compute/src/layer.rs:493-508: what is folded is the output buffer; `dataIn` is not used. -/
def fastFriFoldFallback (w : Nat) (scratch : Nat → Nat → E) (tas : List (TA F)) (logLen logBatch : Nat)
    (challenges : List E) (_dataIn : Slice (Lanes E)) (dataOut : Slice (Lanes E)) : Option (Slice (Lanes E)) :=
  (Verif.NTT.foldInterleavedAllocated w tas dataOut challenges logLen logBatch
    ⟨2 ^ (logLen - (challenges.length - logBatch)), fun _ => 0⟩ scratch).map fun out =>
    ⟨dataOut.size, fun e l => if e * 2 ^ w + l < out.size then out.val (e * 2 ^ w + l) else 0⟩

/-- **C58** (finding).  For packed fields that cannot be seen as slices of scalars, `fri_fold` of the packed compute
layer panics for every input and every output buffer of the right length, as soon as there is a challenge. -/
theorem C58_fast_fallback_panics (w : Nat) (scratch : Nat → Nat → E) (tas : List (TA F)) (logLen logBatch : Nat)
    (challenges : List E) (dataIn dataOut : Slice (Lanes E)) (hn : challenges ≠ [])
    (hle : challenges.length ≤ logLen + logBatch) (hb : logBatch ≤ challenges.length)
    (hout : dataOut.size * 2 ^ w = 2 ^ (logLen - (challenges.length - logBatch))) :
    fastFriFoldFallback w scratch tas logLen logBatch challenges dataIn dataOut = none := by
  unfold fastFriFoldFallback Verif.NTT.foldInterleavedAllocated
  rw [if_pos, Option.map_none]
  left
  intro h
  have h0 : 0 < challenges.length := List.length_pos_iff.2 hn
  rw [h, ← Nat.pow_add] at hout
  have := Nat.pow_right_injective (le_refl 2) hout
  omega

example : ∃ out : Slice (Lanes E), out.size * 2 ^ 1 = 2 ^ (2 - ([(0 : E), 1].length - 1)) := ⟨⟨1, fun _ _ => 0⟩, rfl⟩

end

end Verif.Fri
