import Verif.Fri.LemmasVerify

/-! C58: FRI completeness. -/

set_option linter.unusedSectionVars false

namespace Verif.Fri

open Finset Verif.NTT.Spec Verif.Mle Verif.Fri.Spec
open Verif.NTT (TA Lanes flat precomputeTwiddles domainBasis_length ready_of)
open Verif.Subspace (BinarySubspace)
open Verif.Merkle (Scheme Tree chunk)
open Verif.Code (ReedSolomonCode)

variable {F E D : Type*} [Field F] [DecidableEq F] [Field E] [DecidableEq E] [Algebra F E] [DecidableEq D]
  [Inhabited D]

theorem max?_ge {l : List Nat} {a : Nat} (h : a ∈ l) : a ≤ l.max?.getD 0 := by
  cases hm : l.max? with
  | none => rw [List.max?_eq_none_iff.1 hm] at h; cases h
  | some m => exact (List.max?_eq_some_iff.1 hm).2 a h

/-- The folds of the two compute layers. -/
def IsFold (tbl : List (TA F)) (lb : Nat) (arities : List Nat) (fold : FriFold E) : Prop :=
  fold = cpuFriFold tbl ∨
  ∃ w scratch, fold = fastFriFold w scratch tbl ∧ (lb = 0 ∨ w ≤ lb) ∧ ∀ a ∈ arities, w ≤ a

theorem IsFold.folds (h2 : (1 : F) + 1 = 0) {β : List F} {tas tbl : List (TA F)}
    (h : NTT.withSubspace (⟨β⟩ : BinarySubspace F) = some (.ok tas)) (ht : tbl = tas ∨ tbl = precomputeTwiddles tas)
    {lb : Nat} {arities : List Nat} {fold : FriFold E} (hf : IsFold tbl lb arities fold) {L b a : Nat}
    (hb : b = lb ∨ b = 0) (ha : a ∈ arities) (hba : b ≤ a) (hL : L ≤ β.length) (hn : a - b ≤ L) :
    Folds β fold L b a := by
  rcases hf with rfl | ⟨w, scratch, rfl, hw, hwa⟩
  · exact cpu_folds h2 h ht L b a hL hba hn
  · refine fast_folds h2 h ht w scratch L b a hL hba hn ?_ (hwa a ha)
    rcases hb with rfl | rfl
    · exact hw
    · exact Or.inl rfl

set_option maxHeartbeats 2000000 in
/-- **C58** (completeness).  For every message, all parameters with arities that are positive and the first at least
the logarithm of the batch size, all challenges and all query indices: the prover (with the fold of either compute
layer) commits, runs the fold rounds and finishes without error or panic; the verifier given its commitments and the
same challenges accepts the decommitment, reads exactly its bytes and returns the multilinear extension of the message
at the challenges.  The commitments are those of the words the prover holds. -/
theorem C58_completeness (h2 : (1 : F) + 1 = 0) {β : List F} {tas tbl : List (TA F)}
    (h : NTT.withSubspace (⟨β⟩ : BinarySubspace F) = some (.ok tas)) (ht : tbl = tas ∨ tbl = precomputeTwiddles tas)
    (S : Scheme E D) (junk : Nat → D) (junk' : Nat → Nat → D) (ld lr lb nq : Nat) (arities : List Nat) (p : Params F)
    (h0 : 0 < ld + lr) (hl : ld + lr ≤ β.length)
    (hp : Params.new ⟨⟨domainBasis β (ld + lr)⟩, ld, lr⟩ lb arities nq = .ok p)
    (hpos : ∀ a ∈ arities, 0 < a) (hfirst : ∀ a ∈ arities.head?, lb ≤ a)
    (fold : FriFold E) (hfold : IsFold tbl lb arities fold)
    (w k : Nat) (basis : Nat → E) (buffer : Slice (Lanes F)) (hw : w ≤ ld + lb + k)
    (hbuf : buffer.size = 2 ^ (ld + lr + (lb + k) - w))
    (challenges : List E) (hch : challenges.length = ld + lb)
    (queries : Nat → Nat) (hq : ∀ i < nq, queries i < 2 ^ p.indexBits) (scratch scratch' : Nat → Nat → E) :
    ∃ c f g roots advice v,
      commitInterleaved S junk β.length w k basis tbl p buffer = some (.ok c) ∧
      Folder.new p c.codeword = some (.ok f) ∧
      Folder.foldRounds fold S junk' p c.codeword f challenges = some (.ok (g, roots)) ∧
      g.finishProof p c.codeword c.committed queries = some (.ok advice) ∧
      Verifier.new S p c.commitment roots challenges = some (.ok v) ∧
      IsCommitment S (ld + lr + lb) (arities.head?.getD (ld + lb)) c.codeword c.committed c.commitment ∧
      RoundCommitments S p.nFinalChallenges (ld + lr + lb) arities g.roundCommitted roots ∧
      ∀ rest, v.verify queries scratch scratch' (advice ++ rest) =
        some (.ok (mle (element w k basis buffer) challenges, rest)) := by
  obtain ⟨-, -, hind, -⟩ := ready_of h2 h ht
  have hsumlt : arities.sum < ld + lb := by
    unfold Params.new at hp
    split at hp
    · cases hp
    · next hn => simpa using hn
  obtain rfl : p = ⟨⟨⟨domainBasis β (ld + lr)⟩, ld, lr⟩, lb, arities, nq⟩ := by
    unfold Params.new at hp
    rw [if_neg (by simpa using hsumlt)] at hp
    injection hp with hp
    exact hp.symm
  -- the first codeword
  obtain ⟨enc, henc, hev⟩ := Code.C15_ext_partial h2 h ht w ld lr lb k h0 hl (Or.inl (by omega)) basis buffer hbuf
  let cw := (List.range (2 ^ (ld + lb + lr))).map (element w k basis enc)
  have hcwl : cw.length = 2 ^ (ld + lr + lb) := by
    rw [List.length_map, List.length_range]; congr 1; omega
  have hcw : ∀ i < 2 ^ (ld + lr + lb), word cw i = element w k basis enc i := by
    intro i hi
    rw [word_of_lt (by omega)]
    simp [cw]
  have hcode : ∀ y < 2 ^ (ld + lr), ∀ x < 2 ^ lb, word cw (y * 2 ^ lb + x) =
      codeword (domainBasis β (ld + lr)) (2 ^ ld) (fun j => element w k basis buffer (j * 2 ^ lb + x)) y := by
    intro y hy x hx
    have hlt : y * 2 ^ lb + x < 2 ^ (ld + lr + lb) := by
      have := Nat.mul_le_mul_right (2 ^ lb) hy
      rw [Nat.succ_mul, ← Nat.pow_add] at this
      omega
    rw [hcw _ hlt]
    exact hev x hx y hy
  generalize hM : element w k basis buffer = M at hcode ⊢
  -- the NTT of the verifier
  obtain ⟨tas', htas'⟩ := domain_ntt h2 h h0 hl
  have hγl := domainBasis_length hl
  have hfd : ∀ (rs : List E) (l : Nat) (u : Nat → E), l ≤ (domainBasis β (ld + lr)).length →
      foldMany (domainBasis β (ld + lr)) l rs u = foldMany β l rs u := by
    intro rs l u hle
    exact foldMany_domain h2 hind hl rs l u (by omega)
  have hct : (challenges.take lb).length = lb := by rw [List.length_take]; omega
  have hcd : (challenges.drop lb).length = ld := by rw [List.length_drop]; omega
  obtain ⟨tensor, hten, htens, htenv⟩ := tensor_eq (challenges.take lb)
  rw [hct] at htens htenv
  -- the commitment
  obtain ⟨root, t, hcom, hH⟩ := honest_commit S junk cw (arities.head?.getD (ld + lb))
    (ld + lr + lb - arities.head?.getD (ld + lb)) (by
      rw [hcwl]
      congr 1
      cases arities with
      | nil => simp
      | cons a as => rw [List.sum_cons] at hsumlt; simp; omega)
  have hcommit : commitInterleaved S junk β.length w k basis tbl ⟨⟨⟨domainBasis β (ld + lr)⟩, ld, lr⟩, lb, arities, nq⟩
      buffer = some (.ok ⟨root, t, cw⟩) := by
    unfold commitInterleaved
    dsimp only
    rw [if_neg (by omega), henc, mapErr_ok, andThen_ok]
    rw [hcom, andThen_ok]
  have hnew : Folder.new (D := D) ⟨⟨⟨domainBasis β (ld + lr)⟩, ld, lr⟩, lb, arities, nq⟩ cw =
      some (.ok ⟨[], 0, arities.head?, []⟩) := by
    unfold Folder.new
    rw [if_neg]
    rw [hcwl]
    exact lt_irrefl _
  refine ⟨⟨root, t, cw⟩, ⟨[], 0, arities.head?, []⟩, ?_⟩
  cases arities with
  | nil =>
    have hr := foldRounds_quiet fold S junk' ⟨⟨⟨domainBasis β (ld + lr)⟩, ld, lr⟩, lb, [], nq⟩ cw none [] challenges 0 []
      [] (fun _ _ => by simp)
    rw [List.append_nil, List.nil_append, Nat.zero_add] at hr
    obtain ⟨items, hit, hiv⟩ := queries_ok (D := D) ⟨S, ⟨⟨⟨domainBasis β (ld + lr)⟩, ld, lr⟩, lb, [], nq⟩, root, [], tensor,
      challenges.drop lb⟩ tas' cw [] ⟨⟨⟨domainBasis β (ld + lr)⟩, ld, lr⟩, lb, [], nq⟩ cw t [] queries scratch nq
      (fun _ _ => ⟨[], rfl, fun _ => rfl⟩) nq 0 (by omega)
    refine ⟨_, [], cw.map .scalar ++ [] ++ items, ⟨S, ⟨⟨⟨domainBasis β (ld + lr)⟩, ld, lr⟩, lb, [], nq⟩, root, [], tensor,
      challenges.drop lb⟩, hcommit, hnew, hr, ?_, ?_, hH.commitment (show ld + lb ≤ ld + lr + lb by omega) hcwl, ⟨rfl, rfl⟩,
      fun rest => ?_⟩
    · unfold Folder.finishProof
      rw [if_neg (by simp [Params.nFoldRounds, hch])]
      dsimp only
      show Res.andThen (some (.ok [])) _ = _
      rw [andThen_ok]
      show Res.andThen (proveQueries _ cw t [] queries nq 0) _ = _
      rw [hit, andThen_ok]
      rfl
    · unfold Verifier.new
      rw [if_neg (by simp [Params.nOracles]), if_neg (by simp [Params.nFoldRounds, hch])]
      dsimp only
      rw [hten]
      rfl
    · unfold Verifier.verify
      dsimp only
      rw [htas', mapErr_ok, andThen_ok]
      have hnf : Params.nFinalChallenges (⟨⟨⟨domainBasis β (ld + lr)⟩, ld, lr⟩, lb, [], nq⟩ : Params F) = ld + lb := by
        simp [Params.nFinalChallenges, Params.nFoldRounds]
      rw [hnf]
      have hrd := readScalars_map (D := D) cw (items ++ rest)
      rw [hcwl, show ld + lr + lb = ld + lb + lr by omega] at hrd
      rw [List.append_nil, List.append_assoc, hrd, andThen_ok, verifyLastOracle_eq]
      dsimp only
      have hvv := hH.vector
      rw [hnf]
      rw [show ([] : List D).getLast?.getD root = root from rfl, show ([] : List Nat).head?.getD (ld + lb) = ld + lb from rfl] at *
      rw [hvv, vcs_ok, andThen_ok]
      rw [if_neg (by simp [Params.nOracles])]
      have hint := chunks_interleaved h2 htas' ld lr cw (challenges.take lb) (challenges.drop lb) (by rw [hcwl, hct]) hcd
        (by omega) tensor (by rw [hct, htens]) (by rw [hct]; exact htenv) scratch'
      rw [hct] at hint
      rw [show ReedSolomonCode.logLen (⟨⟨domainBasis β (ld + lr)⟩, ld, lr⟩ : ReedSolomonCode F) = ld + lr from rfl]
      rw [hint, orPanic_some, andThen_ok]
      rw [checkRepetition_const (2 ^ lr) (Nat.two_pow_pos _) _ (mle M challenges), andThen_ok]
      · show Res.andThen (some (.ok ([], items ++ rest))) _ = _
        rw [andThen_ok]
        show Res.andThen (some (.ok ())) _ = _
        rw [andThen_ok, hiv, andThen_ok]
      · intro i hi
        rw [hfd _ _ _ (by omega)]
        have := foldWord_codeword h2 h ht (ld + lr) 1 lb i challenges (by omega) (by omega) hl
          (by rw [show ld + lr - (challenges.length - lb) = lr by omega]; exact hi) M (word cw) (by
            rw [show challenges.length - lb = ld by omega, Nat.mul_one]; exact hcode)
        unfold foldWord at this
        rw [this, codeword_one, foldedMessage_zero]
  | cons a as =>
    have hfirst' : lb ≤ a := hfirst a rfl
    have hpa := hpos a (List.mem_cons_self ..)
    have hpas : ∀ b ∈ as, 0 < b := fun b hb => hpos b (List.mem_cons_of_mem _ hb)
    generalize hP : (⟨⟨⟨domainBasis β (ld + lr)⟩, ld, lr⟩, lb, a :: as, nq⟩ : Params F) = p at *
    have hPa : p.foldArities = a :: as := by rw [← hP]
    have hPb : p.logBatch = lb := by rw [← hP]
    have hPl : p.code.logLen = ld + lr := by rw [← hP]; rfl
    have hPd : p.code.logDimension = ld := by rw [← hP]
    have hPr : p.code.logInvRate = lr := by rw [← hP]
    have hPs : p.code.subspace = ⟨domainBasis β (ld + lr)⟩ := by rw [← hP]
    have hPq : p.nTestQueries = nq := by rw [← hP]
    have hPn : p.nFoldRounds = ld + lb := by rw [← hP]; rfl
    rw [List.sum_cons] at hsumlt
    have hnf : p.nFinalChallenges = ld + lb - (a + as.sum) := by
      unfold Params.nFinalChallenges
      rw [hPn, hPa, List.sum_cons]
    have hib : p.indexBits = ld + lr + lb - a := by
      unfold Params.indexBits Params.logLen
      rw [hPa, hPl, hPb]
      rfl
    rw [show (a :: as).head?.getD (ld + lb) = a from rfl] at hH hcom
    rw [hib] at hq
    obtain ⟨w', rounds, roots, unp, next, hr, hw', hR⟩ := foldRounds_all (β := β) fold S junk' p cw lr (ld + lr) lb a as
      challenges hPa hpa hpas hPb hfirst' hPl (by omega) (by omega) hcwl
      (hfold.folds h2 h ht (Or.inl rfl) (List.mem_cons_self ..) hfirst' hl (by omega))
      (fun b hb l h1 h2' => hfold.folds h2 h ht (Or.inr rfl) (List.mem_cons_of_mem _ hb) (Nat.zero_le _) (by omega)
        (by omega))
    rw [hPa] at hr
    have htake : (challenges.take a).length = a := by rw [List.length_take]; omega
    -- the second word
    have hword' : ∀ i < 2 ^ (ld + lr - (a - lb)), word w' i = codeword (domainBasis β (ld + lr - (a - lb)))
        (2 ^ (ld + lr - (a - lb) - lr)) (foldedMessage (challenges.take a) M) i := by
      intro i hi
      rw [hw' i hi, foldWord_codeword h2 h ht (ld + lr) (2 ^ (ld + lr - (a - lb) - lr)) lb i (challenges.take a) (by omega)
        (by omega) hl (by rw [htake]; exact hi) M (word cw) (by
          rw [htake, ← Nat.pow_add, show a - lb + (ld + lr - (a - lb) - lr) = ld by omega]; exact hcode), htake]
    obtain ⟨wl, tl, rl, hgl, hgr, hHl, hwll, hwl⟩ := hR.last_word h2 h ht lr _ (by omega) (by omega)
      (by rw [List.length_drop]; omega) hword'
    obtain ⟨items, layers, hpl, hrl, hvl, hfa⟩ := hR.layers nq
    obtain ⟨layer, hly, hlyl, hlyv, -⟩ := hH.open_ (Merkle.optimalVerifyLayer nq (ld + lr + lb - a)) (Nat.min_le_right _ _)
    have hdepths : p.depths = Merkle.optimalVerifyLayer nq (ld + lr + lb - a) ::
        layerDepths nq (ld + lr - (a - lb)) as := by
      unfold Params.depths Params.logLen
      rw [hPa, hPl, hPb, hPq, layerDepths, show ld + lr + lb - a = ld + lr - (a - lb) by omega]
    -- the verifier
    let v : Verifier F E D := ⟨S, p, root, roots, tensor, challenges.drop lb⟩
    have hvnew : Verifier.new S p root roots challenges = some (.ok v) := by
      unfold Verifier.new
      rw [if_neg (by rw [hR.roots_length]; simp [Params.nOracles, hPa]), if_neg (by rw [hPn, hch]; simp), hPb, hten]
      rfl
    -- a query
    obtain ⟨its, hits, hitv⟩ := queries_ok v tas' wl (layer :: layers) p cw t rounds queries scratch nq (by
      intro i hi
      have hidx := hq i hi
      obtain ⟨a1, ha1, hva1⟩ := coset_opening hH (optimal_le _ _) hly hidx
      obtain ⟨a2, index', ha2, hva2⟩ := hR.query h2 htas' (Or.inl rfl) hfd v nq layers (a - lb) (by omega)
        (by show p.code.logLen = _; omega) (by show _ ≤ (challenges.drop lb).length; omega) (by
          show (challenges.drop lb).drop (a - lb) = _
          rw [List.drop_drop]; congr 1; omega) hfa (queries i) (by
          rwa [show ld + lr - (a - lb) = ld + lr + lb - a by omega])
      refine ⟨a1 ++ a2, ?_, fun rest => ?_⟩
      · unfold proveQuery
        rw [hPa, hdepths]
        dsimp only
        rw [show proveCosetOpening cw t (queries i) a (Merkle.optimalVerifyLayer nq (ld + lr + lb - a)) = some (.ok a1)
          from ha1, andThen_ok, ha2]
        rfl
      · obtain ⟨wl', hwl', hlt, hloop⟩ := hva2 rest 0
        rw [hgl] at hwl'
        obtain rfl : wl = wl' := by injection hwl'
        unfold Verifier.verifyQuery
        show (match p.foldArities with
          | [] => _
          | firstArity :: arities => _) = _
        rw [hPa]
        dsimp only
        rw [show v.params.depths = _ from hdepths]
        dsimp only
        have hvb : v.params.logBatch = lb := hPb
        have hvi : v.params.indexBits = ld + lr + lb - a := hib
        have hvlog : v.params.code.logLen = ld + lr := hPl
        unfold sub?
        rw [hvb, if_neg (by omega), andThen_ok, hvi, List.append_assoc]
        rw [show verifyCosetOpening v.S (queries i) a (Merkle.optimalVerifyLayer nq (ld + lr + lb - a)) (ld + lr + lb - a)
          layer (a1 ++ (a2 ++ rest)) = _ from hva1 _, andThen_ok]
        unfold range?
        have hvf : v.foldChallenges = challenges.drop lb := rfl
        rw [hvf, if_neg (by rw [hcd]; omega), andThen_ok, List.drop_zero]
        dsimp only
        have htk : ((challenges.drop lb).take (a - lb)).length = a - lb := by rw [List.length_take]; omega
        have hcl : (chunk cw (2 ^ a) (queries i)).length = 2 ^ a := by
          refine chunk_length ?_
          rw [hH.len, Nat.mul_comm]
          exact Nat.mul_le_mul_left _ hidx
        have hic := interleavedChunk_word h2 htas' (Or.inl rfl) 0 (ld + lr) (queries i) (challenges.take lb)
          ((challenges.drop lb).take (a - lb)) (by omega) (by omega)
          (by rw [htk, show ld + lr - (a - lb) = ld + lr + lb - a by omega]; exact hidx) (Or.inr (Nat.zero_le _))
          (word cw) (asLanes (chunk cw (2 ^ a) (queries i)))
          (by unfold asLanes; dsimp only; rw [hcl, htk, hct, Nat.sub_zero]; congr 1; omega) tensor
          ⟨p.scratchLen, scratch i⟩ (by rw [hct, htens]; simp) (by rw [hct]; exact htenv) (by
            rw [htk]
            unfold Params.scratchLen
            dsimp only
            have : a ≤ p.foldArities.max?.getD 0 := max?_ge (by rw [hPa]; exact List.mem_cons_self ..)
            have := Nat.pow_le_pow_right (n := 2) (by omega) (show a - lb ≤ p.foldArities.max?.getD 0 by omega)
            omega) (fun q hq => by
            rw [hct, htk, show lb + (a - lb) = a by omega] at hq ⊢
            unfold flat asLanes
            dsimp only
            rw [Nat.pow_zero, Nat.div_one]
            exact chunk_word hq)
        rw [hct] at hic
        rw [hvlog, show v.interleaveTensor = tensor from rfl, show v.params.scratchLen = p.scratchLen from rfl, hic]
        unfold orPanic
        rw [Option.map_some, andThen_ok, hfd _ _ _ (by omega)]
        have hfw : foldMany β (ld + lr) ((challenges.drop lb).take (a - lb)) (combine (challenges.take lb) (word cw))
            (queries i) = word w' (queries i) := by
          rw [hw' _ (by rw [show ld + lr - (a - lb) = ld + lr + lb - a by omega]; exact hidx)]
          unfold foldWord
          rw [List.take_take, Nat.min_eq_left hfirst', List.drop_take]
        rw [hfw, show ld + lr + lb - a = ld + lr - (a - lb) by omega, hloop, andThen_ok]
        dsimp only
        rw [List.getElem?_eq_getElem hlt, Option.map_some, andThen_ok, word_of_lt hlt, if_neg (by simp)]) nq 0 (by omega)
    have hcdl : (challenges.drop lb).length = ld := hcd
    refine ⟨_, roots, wl.map .scalar ++ (layer.map .digest ++ items) ++ its, v, hcommit, hnew, hr, ?_, hvnew,
      hH.commitment (show a ≤ ld + lr + lb by omega) hcwl,
      by rw [show ld + lr - (a - lb) = ld + lr + lb - a by omega] at hR; exact hR.commitments,
      fun rest => ?_⟩
    · unfold Folder.finishProof
      rw [if_neg (by dsimp only; rw [hPn, hch]; simp)]
      dsimp only
      rw [hgl, hdepths, proveLayers, hly]
      show Res.andThen (Res.andThen (proveLayers _ _) _) _ = _
      rw [hpl, andThen_ok, andThen_ok, hPq, hits, andThen_ok]
      rfl
    · unfold Verifier.verify
      rw [show v.params.code.subspace = _ from hPs, htas', mapErr_ok, andThen_ok]
      have hvr : v.params.code.logInvRate = lr := hPr
      have hrd := readScalars_map (D := D) wl ((layer.map .digest ++ items) ++ (its ++ rest))
      rw [hwll] at hrd
      rw [hvr, List.append_assoc, List.append_assoc, show v.params.nFinalChallenges = p.nFinalChallenges from rfl, hrd,
        andThen_ok]
      dsimp only
      rw [verifyLastOracle_eq]
      rw [show v.roundCommitments.getLast?.getD v.codewordCommitment = rl by
        show roots.getLast?.getD root = rl
        rw [hgr]; rfl, show v.params.nFinalChallenges = p.nFinalChallenges from rfl,
        show v.S = S from rfl, hHl.vector, vcs_ok, andThen_ok]
      rw [if_pos (by show p.nOracles ≠ 0; simp [Params.nOracles, hPa])]
      unfold sub?
      have hvf : v.foldChallenges = challenges.drop lb := rfl
      rw [hvf, hcd, if_neg (by omega), andThen_ok, hvr]
      have hfin : ((challenges.drop lb).drop (ld - p.nFinalChallenges)).length = p.nFinalChallenges := by
        rw [List.length_drop]; omega
      rw [chunks_fold h2 htas' p.nFinalChallenges lr wl hwll _ hfin (by omega), orPanic_some, andThen_ok]
      rw [checkRepetition_const (2 ^ lr) (Nat.two_pow_pos _) _ (mle M challenges), andThen_ok]
      · rw [show v.params.depths = _ from hdepths, readLayers, ← hlyl, List.append_assoc, readDigests_map, andThen_ok]
        dsimp only
        rw [hrl, andThen_ok, andThen_ok]
        dsimp only
        rw [show v.codewordCommitment = root from rfl, show v.roundCommitments = roots from rfl, verifyLayers, hlyv]
        show Res.andThen (verifyLayers _ _ _ _) _ = _
        rw [hvl, andThen_ok, show v.params.nTestQueries = nq from hPq, hitv, andThen_ok]
      · intro i hi
        rw [hfd _ _ _ (by omega), foldMany_codeword h2 h ht (p.nFinalChallenges + lr) 1 i _ (by omega) (by omega)
          (by rw [hfin, Nat.add_sub_cancel_left]; exact hi) _ _ (by rw [hfin, Nat.mul_one]; exact hwl), codeword_one,
          NTT.foldedMessage_append, NTT.foldedMessage_append, foldedMessage_zero]
        congr 1
        rw [List.drop_drop, show lb + (ld - p.nFinalChallenges) = a + as.sum by omega,
          ← List.drop_drop, List.take_append_drop, List.take_append_drop]

/-- The hypotheses are met: messages of four elements of the field with four elements, in two interleaved codewords of
length four, with the NTT of `exampleBasis`; one fold of arity one before the second oracle. -/
example {D : Type} [DecidableEq D] [Inhabited D] (S : Scheme (Field.T 1) D) (message : Nat → Field.T 1)
    (r s : Field.T 1) :
    ∃ tas p c f g roots advice v,
      NTT.withSubspace (⟨NTT.exampleBasis⟩ : BinarySubspace (Field.T 1)) = some (.ok tas) ∧
      Params.new ⟨⟨domainBasis NTT.exampleBasis 2⟩, 1, 1⟩ 1 [1] 3 = .ok p ∧
      commitInterleaved S (fun _ => default) 2 0 0 (fun _ => (1 : Field.T 1)) tas p ⟨8, fun i _ => message i⟩ =
        some (.ok c) ∧
      Folder.new p c.codeword = some (.ok f) ∧
      Folder.foldRounds (cpuFriFold tas) S (fun _ _ => default) p c.codeword f [r, s] = some (.ok (g, roots)) ∧
      g.finishProof p c.codeword c.committed (fun k => k % 4) = some (.ok advice) ∧
      Verifier.new S p c.commitment roots [r, s] = some (.ok v) ∧
      v.verify (fun k => k % 4) (fun _ _ => 0) (fun _ _ => 0) advice =
        some (.ok (mle (element 0 0 (fun _ => (1 : Field.T 1)) ⟨8, fun i _ => message i⟩) [r, s], [])) := by
  obtain ⟨tas, h⟩ := NTT.exampleBasis_ok
  obtain ⟨c, f, g, roots, advice, v, h1, h2, h3, h4, h5, -, -, h6⟩ := C58_completeness (by decide) h (Or.inl rfl) S
    (fun _ => default) (fun _ _ => default) 1 1 1 3 [1] ⟨⟨⟨domainBasis NTT.exampleBasis 2⟩, 1, 1⟩, 1, [1], 3⟩
    (by decide) (by decide) rfl (by decide) (by simp) (cpuFriFold tas) (Or.inl rfl) 0 0 (fun _ => (1 : Field.T 1))
    ⟨8, fun i _ => message i⟩ (by decide) rfl [r, s] rfl (fun k => k % 4)
    (fun i _ => Nat.mod_lt i (show 0 < 4 by decide)) (fun _ _ => 0) (fun _ _ => 0)
  have := h6 []
  rw [List.append_nil] at this
  exact ⟨tas, _, c, f, g, roots, advice, v, h, rfl, h1, h2, h3, h4, h5, this⟩

end Verif.Fri
