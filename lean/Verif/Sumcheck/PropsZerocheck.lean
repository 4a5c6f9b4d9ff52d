import Verif.Sumcheck.LemmasZerocheck4
import Verif.Math.PropsSubspace

/-! Property C57: zerochecks. -/

set_option linter.unusedSectionVars false

namespace Verif.Sumcheck

open Verif.Mle Verif.Protocol Finset

variable {F : Type} [Field F] [DecidableEq F]

/-- The claim that the product of two multilinears in two variables vanishes. The first multilinear is
the first variable; the second is its complement plus `c`, so that the product vanishes when `c` does. -/
noncomputable def zeroProductInstance (c : F) : ZeroInstance F :=
  ⟨⟨2, 2, [productComposition]⟩, [MvPolynomial.X 0 * MvPolynomial.X 1],
    [fun i => if i % 2 = 1 then 1 else 0, fun i => (if i % 2 = 1 then 0 else 1) + c]⟩

theorem zeroProductInstance_wf (c : F) : (zeroProductInstance c).WellFormed := by
  refine ⟨rfl, .cons ⟨⟨?_, ?_⟩, ?_, rfl⟩ .nil⟩
  · intro q hq
    match q, hq with
    | [a, b], _ => simp [productComposition, evalAt]
  · refine (MvPolynomial.totalDegree_mul _ _).trans ?_
    simp [productComposition, MvPolynomial.totalDegree_X]
  · refine (MvPolynomial.vars_mul _ _).trans ?_
    rw [MvPolynomial.vars_X, MvPolynomial.vars_X]
    intro i hi
    simp only [Finset.mem_union, Finset.mem_singleton] at hi
    show i ∈ range 2
    rw [Finset.mem_range]
    omega

theorem zeroProductInstance_holds (c : F) : (zeroProductInstance c).Holds ↔ c = 0 := by
  unfold ZeroInstance.Holds zeroProductInstance
  simp only [List.mem_singleton, forall_eq]
  constructor
  · intro h
    have := h 1 (by decide)
    simpa [evalAt] using this
  · rintro rfl b _
    simp only [evalAt, List.map_cons, List.map_nil, map_mul, MvPolynomial.eval_X]
    by_cases hb : b % 2 = 1 <;> simp [hb]

/-- **C57 (construction).** A claim is constructed, unchanged, exactly when every composition takes as
many arguments as there are multilinears. -/
theorem C57_claim_new (nVars nMultilinears : Nat) (zeros : List (Composition F)) (c : ZerocheckClaim F) :
    ZerocheckClaim.new nVars nMultilinears zeros = .ok c ↔
      c = ⟨nVars, nMultilinears, zeros⟩ ∧ ∀ s ∈ zeros, s.nVars = nMultilinears := by
  unfold ZerocheckClaim.new
  cases h : zeros.find? fun s => s.nVars != nMultilinears with
  | some s =>
    simp only
    refine ⟨fun h => by simp at h, fun hc => ?_⟩
    have h1 := List.find?_some h
    have h2 := hc.2 s (List.mem_of_find?_eq_some h)
    simp [h2] at h1
  | none =>
    simp only
    rw [List.find?_eq_none] at h
    constructor
    · intro hc
      injection hc with hc
      exact ⟨hc.symm, fun s hs => by simpa using h s hs⟩
    · rintro ⟨rfl, -⟩
      rfl

example : ZerocheckClaim.new 2 2 [productComposition (F := ℚ)] = .ok ⟨2, 2, [productComposition]⟩ :=
  (C57_claim_new _ _ _ _).mpr ⟨rfl, by simp [productComposition]⟩

section

variable {K : Type} [AddCommGroup K]

/-- **C57 (soundness).** If some composite does not vanish on the hypercube, then whatever the prover
does, at most a fraction `ε / |F|` of the challenge vectors makes the verifier accept with correct
evaluations of the multilinears, where
`ε = (n - s) + k + (D 2^s - 1) + (n - s) (D + 1) + 2 s + m`
for `n` variables in the largest claim, `s` skipped rounds, `k` composites, `m` multilinears and degrees
at most `D`. One of the largest claims has to have a composite, unless all rounds are skipped. -/
theorem C57_soundness [Fintype F] (basisChecked : Nat → Option K) (emb : K → F) (skip : Nat)
    (all : List (ZeroInstance F)) (hwf : ∀ I ∈ all, I.WellFormed)
    (big : ZeroInstance F) (hbig : big ∈ all) (hmax : ∀ I ∈ all, I.claim.nVars ≤ big.claim.nVars)
    (hzeros : big.claim.nVars ≤ skip ∨ big.claim.zeros ≠ [])
    (D : Nat) (hD : ∀ I ∈ all, ∀ c ∈ I.claim.zeros, c.degree ≤ D)
    (hskip : skip ≤ 64) (hsize : D * 2 ^ skip ≤ 2 ^ 64)
    (hfalse : ∃ I ∈ all, ¬ I.Holds) (msg : List F → Nat → List F) :
    let n := big.claim.nVars
    let N := (n - skip) + (all.length + ((n - skip + (1 + skip)) + 1))
    accepting (ZeroCorrectEvals all) msg (zerocheckVerify basisChecked emb (all.map fun I => I.claim) skip)
        [] 0 N * Fintype.card F
      ≤ ((n - skip) + ((all.map fun I => I.claim.zeros.length).sum + ((D * 2 ^ skip - 1)
          + ((n - skip) * (D + 1) + (skip * 2 + (all.map fun I => I.tables.length).sum)))))
        * Fintype.card F ^ N :=
  soundErr_count (zerocheck_err basisChecked emb skip hskip all hwf big hbig hmax hzeros D hD hsize hfalse) msg _
    (zerocheck_samples basisChecked emb skip all hwf big hbig hmax) [] 0

end

instance : Fact (Nat.Prime 17) := ⟨by norm_num⟩

/-- A false claim over the field with seventeen elements, and one skipped round: of the `17 ^ 6`
challenge vectors at most a fraction of `12 / 17` is bad. -/
example (msg : List (ZMod 17) → Nat → List (ZMod 17)) :
    accepting (ZeroCorrectEvals [zeroProductInstance (1 : ZMod 17)]) msg
      (zerocheckVerify (fun i => some ((2 : ℤ) ^ i)) (fun i => (i : ZMod 17))
        [(zeroProductInstance (1 : ZMod 17)).claim] 1) [] 0 6 * 17 ≤ 12 * 17 ^ 6 := by
  have h := C57_soundness (fun i => some ((2 : ℤ) ^ i)) (fun i => (i : ZMod 17)) 1
    [zeroProductInstance (1 : ZMod 17)] (by simp [zeroProductInstance_wf]) (zeroProductInstance 1)
    (by simp) (by simp) (Or.inr (by simp [zeroProductInstance])) 2
    (by simp [zeroProductInstance, productComposition]) (by norm_num) (by norm_num)
    ⟨_, List.mem_singleton_self _, fun h =>
      absurd ((zeroProductInstance_holds (1 : ZMod 17)).mp h) (by decide)⟩ msg
  simpa [zeroProductInstance, ZMod.card] using h

/-- The points of the default subspaces of the canonical tower fields are distinct. -/
theorem tower_points (level dim : Nat) (emb : Verif.Field.T (0 + level) →+* F) (h1 : dim ≤ 2 ^ level)
    (h2 : dim ≤ 64) :
    ∃ qs, subspacePoints (Verif.Subspace.towerBasisChecked level) emb dim = .ok qs ∧ qs.Nodup := by
  obtain ⟨s, hs, hl, hg⟩ := (Verif.Subspace.C23_with_dim level dim).2 h1
  refine ⟨(s.isomorphic emb).iter, by unfold subspacePoints; rw [hs], ?_⟩
  have hlen : (s.isomorphic emb).iter.length = 2 ^ dim := by
    rw [iter_length _ (by show (s.basis.map emb).length ≤ 64; rw [List.length_map]; omega)]
    show 2 ^ (s.basis.map emb).length = _
    rw [List.length_map, hl]
  have hget : ∀ i < 2 ^ dim, (s.isomorphic emb).get i
      = emb (Verif.Field.toT (BitVec.ofNat (2 ^ (0 + level)) i)) := by
    intro i hi
    have := Verif.Subspace.C23_isomorphic emb.toAddMonoidHom s i
    rw [hg i (by rw [Nat.min_eq_left h2]; exact hi)] at this
    exact this
  unfold Verif.Subspace.BinarySubspace.iter at hlen ⊢
  rw [List.length_map, List.length_range] at hlen
  rw [hlen]
  refine List.Nodup.map_on (fun i hi j hj hij => ?_) List.nodup_range
  rw [List.mem_range] at hi hj
  rw [hget i hi, hget j hj] at hij
  have h3 := Verif.Field.toT_injective (emb.injective hij)
  have h4 := congrArg BitVec.toNat h3
  have hp : 2 ^ dim ≤ 2 ^ 2 ^ (0 + level) := Nat.pow_le_pow_right (by omega) (by rw [Nat.zero_add]; exact h1)
  rwa [BitVec.toNat_ofNat, BitVec.toNat_ofNat, Nat.mod_eq_of_lt (by omega), Nat.mod_eq_of_lt (by omega)] at h4

/-- **C57 (completeness).** With true claims in ascending order of size and provers that follow the
documentation, the verifier accepts, and both sides obtain the same output, in which the evaluations
are those of the multilinears. The points of the univariate round are those of a canonical tower field
of `2 ^ level` bits, which has to have enough of them. Some composite must not be constant, some largest
claim has to have a composite unless all rounds are skipped, and there has to be a multilinear if
rounds are skipped. -/
theorem C57_completeness (level : Nat) (emb : Verif.Field.T (0 + level) →+* F) (build : RegularBuilder F)
    (hb : BuildsRegular build) (skip : Nat) (all : List (ZeroInstance F)) (hwf : ∀ I ∈ all, I.WellFormed)
    (hh : ∀ I ∈ all, I.Holds) (hasc : all.Pairwise fun I J => I.claim.nVars ≤ J.claim.nVars)
    (big : ZeroInstance F) (hbig : big ∈ all) (hmax : ∀ I ∈ all, I.claim.nVars ≤ big.claim.nVars)
    (hskip : skip ≤ big.claim.nVars)
    (hzeros : big.claim.nVars = skip ∨ big.claim.zeros ≠ []) (hne : skip = 0 ∨ ∃ I ∈ all, I.tables ≠ [])
    (hpos : ∃ I ∈ all, ∃ c ∈ I.claim.zeros, 1 ≤ c.degree)
    (hsize : ∀ I ∈ all, ∀ c ∈ I.claim.zeros, c.degree * 2 ^ skip ≤ 2 ^ min (2 ^ level) 64)
    (provers : List F → List (ZerocheckProver F))
    (hon : ∀ r : List F, r.length = big.claim.nVars - skip →
      List.Forall₂ (fun pr I => HonestZero (Verif.Subspace.towerBasisChecked level) emb skip r pr I)
        (provers r) all) (chal : Nat → F) :
    let proof := (sampleAndProve (Verif.Subspace.towerBasisChecked level) emb build big.claim.nVars skip
      provers).run chal
    ∃ out, proof.2 = .ok out ∧
      (zerocheckVerify (Verif.Subspace.towerBasisChecked level) emb (all.map fun I => I.claim) skip).run
        (fun _ i => proof.1.getD i []) [] 0 chal = .ok out ∧ ZeroCorrectEvals all out := by
  intro proof
  have hms : maxDomainSize skip (all.map fun I => I.claim) ≤ 2 ^ min (2 ^ level) 64 := by
    refine max_getD_le _ _ fun x hx => ?_
    rw [List.map_map] at hx
    obtain ⟨I, hI, rfl⟩ := List.mem_map.mp hx
    show I.claim.maxIndividualDegree <<< skip ≤ _
    rw [Nat.shiftLeft_eq]
    rcases max_getD_mem (I.claim.zeros.map fun s => s.degree) with h | h
    · unfold ZerocheckClaim.maxIndividualDegree
      rw [h, Nat.zero_mul]
      exact Nat.zero_le _
    · obtain ⟨c, hc, e⟩ := List.mem_map.mp h
      unfold ZerocheckClaim.maxIndividualDegree
      rw [← e]
      exact hsize I hI c hc
  have hdim := log2Ceil_le _ _ hms
  obtain ⟨qs, hqs, hqn⟩ := tower_points level (log2CeilUsize (maxDomainSize skip (all.map fun I => I.claim))) emb
    (hdim.trans (Nat.min_le_left _ _)) (hdim.trans (Nat.min_le_right _ _))
  have hposD : ∃ I ∈ all, 1 ≤ I.claim.maxIndividualDegree := by
    obtain ⟨I, hI, c, hc, h1⟩ := hpos
    refine ⟨I, hI, h1.trans ?_⟩
    unfold ZerocheckClaim.maxIndividualDegree
    cases hm : (I.claim.zeros.map fun s => s.degree).max? with
    | none =>
      rw [List.max?_eq_none_iff, List.map_eq_nil_iff] at hm
      rw [hm] at hc
      simp at hc
    | some m => exact (List.max?_eq_some_iff.mp hm).2 _ (List.mem_map.mpr ⟨c, hc, rfl⟩)
  obtain ⟨a, b, h1, h2, rfl, h4⟩ := agree_run (zerocheck_agree (Verif.Subspace.towerBasisChecked level) emb build hb
    skip all hwf hh hasc big hbig hmax hskip hzeros hne hposD
    (hms.trans (Nat.pow_le_pow_right (by omega) (Nat.min_le_right _ _))) hqs hqn provers hon) [] [] chal
  exact ⟨a, h1, h2, h4⟩

/-- **C57 (the hypotheses of completeness can be met).** Provers that follow the documentation exist. -/
theorem C57_honest_exists {K : Type} [AddCommGroup K] (basisChecked : Nat → Option K) (emb : K → F)
    (skip : Nat) (r : List F) (I : ZeroInstance F) (hwf : I.WellFormed) :
    ∃ pr, HonestZero basisChecked emb skip r pr I := by
  choose sp hsp ho using fun w : Nat → F =>
    C29_honest_exists .highToLow ((I.fold skip w).regular r) (regular_wf r (fold_wf skip w hwf))
  refine ⟨⟨I.claim.nVars, fun s => I.claim.maxIndividualDegree * 2 ^ s, fun _ size α =>
      match subspacePoints basisChecked emb skip, subspacePoints basisChecked emb (log2CeilUsize size) with
      | .ok ps, .ok qs => .ok ((List.range (size - 2 ^ skip)).map fun i =>
          (List.ofFn fun k : Fin I.polys.length =>
            α ^ (k : Nat) * I.roundValue skip ps r I.polys[k] (qs.getD (2 ^ skip + i) 0)).sum)
      | _, _ => .error .panic,
    fun _ _ _ z => match subspacePoints basisChecked emb skip with
      | .ok ps => .ok (sp (lagW ps z))
      | .error e => .error e,
    fun _ y => .ok (I.projected skip y)⟩, rfl, rfl, ?_, ?_, ?_⟩
  · intro size α ps qs _ _ hps hqs
    simp only [hps, hqs]
  · intro size α z ps hps
    simp only [hps]
    exact ⟨_, rfl, ho _, hsp _⟩
  · intro y _
    rfl

/-- **C57 (the hypotheses of completeness can be met).** So does a builder of provers for regular
sumchecks. -/
theorem C57_builder_exists : ∃ build : RegularBuilder F, BuildsRegular build := by
  classical
  choose sp hsp ho using fun (I : Instance F) (h : I.WellFormed) => C29_honest_exists .highToLow I h
  refine ⟨fun n tables sums =>
    if h : ∃ I : Instance F, I.WellFormed ∧ I.claim.nVars = n ∧ I.tables = tables ∧ I.claim.sums = sums then
      .ok (sp h.choose h.choose_spec.1)
    else .error .panic, fun I hI => ?_⟩
  have h : ∃ J : Instance F, J.WellFormed ∧ J.claim.nVars = I.claim.nVars ∧ J.tables = I.tables ∧
      J.claim.sums = I.claim.sums := ⟨I, hI, rfl, rfl, rfl⟩
  refine ⟨sp h.choose h.choose_spec.1, dif_pos h, ho _ _, ?_⟩
  obtain ⟨hJ, e1, e2, e3⟩ := h.choose_spec
  have hon := hsp h.choose h.choose_spec.1
  have hor := ho h.choose h.choose_spec.1
  generalize sp h.choose h.choose_spec.1 = pr at hon hor ⊢
  generalize h.choose = J at *
  have hlen : J.polys.length = I.polys.length := by
    rw [← hJ.compositions.length_eq, ← hI.compositions.length_eq, e3]
  have hdeg : J.claim.maxIndividualDegree = I.claim.maxIndividualDegree := by
    unfold Claim.maxIndividualDegree
    rw [e3]
  have hval : ∀ (i : Nat) (h1 : i < J.polys.length) (h2 : i < I.polys.length) (q : List F),
      q.length = I.tables.length → evalAt J.polys[i] q = evalAt I.polys[i] q := by
    intro i h1 h2 q hq
    have hsl := hI.compositions.length_eq
    have hsl' := hJ.compositions.length_eq
    have g1 := (List.forall₂_iff_get.mp hJ.compositions).2 i (by omega) h1
    have g2 := (List.forall₂_iff_get.mp hI.compositions).2 i (by omega) h2
    have es : J.claim.sums.get ⟨i, by omega⟩ = I.claim.sums.get ⟨i, by omega⟩ := by
      simp only [List.get_eq_getElem]
      congr 1
    have k1 := g1.1.evaluate q (by rw [g1.2, ← hJ.nMultilinears, e2, hq])
    have k2 := g2.1.evaluate q (by rw [g2.2, ← hI.nMultilinears, hq])
    rw [es] at k1
    exact Except.ok.inj (k1.symm.trans k2)
  refine ⟨hon.nVars.trans e1, fun folded α hf => ?_, fun folded hf => ?_⟩
  · obtain ⟨cs, h1, h2, h3⟩ := hon.execute folded α (by omega)
    refine ⟨cs, h1, by rw [h2, hdeg], fun x => (h3 x).trans ?_⟩
    rw [e1]
    refine Finset.sum_congr rfl fun b _ => ?_
    refine Fintype.sum_equiv (finCongr hlen) _ _ fun i => ?_
    show α ^ (i : Nat) * evalAt J.polys[(i : Nat)] _ = α ^ (i : Nat) * evalAt I.polys[(i : Nat)] _
    rw [hval i _ (by omega) _ (by rw [List.length_map, e2]), e2]
  · rw [hon.finish folded (by omega), e2]

/-- Completeness for a true claim with one skipped round, with honest provers. -/
example (chal : Nat → Verif.Field.T 3) : ∃ (build : RegularBuilder (Verif.Field.T 3))
    (provers : List (Verif.Field.T 3) → List (ZerocheckProver (Verif.Field.T 3))) (out : _),
    (zerocheckVerify (Verif.Subspace.towerBasisChecked 3) (RingHom.id (Verif.Field.T 3))
      [(zeroProductInstance (0 : Verif.Field.T 3)).claim] 1).run
      (fun _ i => ((sampleAndProve (Verif.Subspace.towerBasisChecked 3) (RingHom.id (Verif.Field.T 3)) build 2 1
        provers).run chal).1.getD i []) [] 0 chal = .ok out := by
  obtain ⟨build, hb⟩ := C57_builder_exists (F := Verif.Field.T 3)
  choose pr hpr using fun r => C57_honest_exists (Verif.Subspace.towerBasisChecked 3)
    (RingHom.id (Verif.Field.T 3)) 1 r (zeroProductInstance (0 : Verif.Field.T 3)) (zeroProductInstance_wf _)
  obtain ⟨out, -, h, -⟩ := C57_completeness 3 (RingHom.id (Verif.Field.T 3)) build hb 1
    [zeroProductInstance (0 : Verif.Field.T 3)] (by simp [zeroProductInstance_wf])
    (by simp [zeroProductInstance_holds]) (by simp) (zeroProductInstance 0) (by simp) (by simp)
    (by simp [zeroProductInstance]) (Or.inr (by simp [zeroProductInstance]))
    (Or.inr ⟨_, List.mem_singleton_self _, by simp [zeroProductInstance]⟩)
    ⟨_, List.mem_singleton_self _, productComposition, by simp [zeroProductInstance], by decide⟩
    (by simp [zeroProductInstance, productComposition]) (fun r => [pr r]) (fun r _ => .cons (hpr r) .nil) chal
  exact ⟨build, fun r => [pr r], out, h⟩

/-! ## The evaluation claims -/

theorem zipWith_all_iff {A B C : Type} (g : A → B → C) (v : C → Prop) (f : A → B)
    (hv : ∀ a b, v (g a b) ↔ b = f a) (as : List A) (bs : List B) (hl : as.length = bs.length) :
    (∀ c ∈ List.zipWith g as bs, v c) ↔ bs = as.map f := by
  induction as generalizing bs with
  | nil =>
    cases bs with
    | nil => simp
    | cons b bs => simp at hl
  | cons a as ih =>
    cases bs with
    | nil => simp at hl
    | cons b bs =>
      rw [List.zipWith_cons_cons, List.forall_mem_cons, List.map_cons, List.cons.injEq,
        ih bs (by simpa using hl), hv]

theorem zeroEvalPoint_eq (out : ZerocheckOutput F) (m n : Nat)
    (h : m = out.skippedChallenges.length + out.unskippedChallenges.length) :
    zeroEvalPoint m out.skippedChallenges out.unskippedChallenges n = zeroPoint out n := by
  unfold zeroEvalPoint zeroPoint suffix
  have e1 : out.skippedChallenges.take (min n out.skippedChallenges.length) = out.skippedChallenges.take n := by
    rw [Nat.min_comm, ← List.take_take]
    exact List.take_of_length_le (List.length_take_le' _ _)
  rw [e1]
  congr 2
  omega

/-- **C57 (evaluation claims).** The output is turned into evaluation claims exactly when the claims
come in ascending order of size, and the numbers of multilinears and of challenges are right. Then there
is one claim for each multilinear, in order, at a point with as many coordinates as it has variables;
and all these claims are true exactly when the evaluations in the output are correct in the sense of
soundness and completeness. -/
theorem C57_eval_claims (all : List (ZeroInstance F × OracleClaimMeta)) (table : Nat → Nat → F)
    (hn : ∀ p ∈ all, p.2.nVars = p.1.claim.nVars) (ht : ∀ p ∈ all, p.1.tables = p.2.oracleIds.map table)
    (out : ZerocheckOutput F) :
    ((∃ claims, makeZerocheckEvalClaims (all.map Prod.snd) out = .ok claims) ↔
      (all.Pairwise fun p q => p.2.nVars ≤ q.2.nVars) ∧
      (all.map fun p => p.2.oracleIds.length).sum = out.concatMultilinearEvals.length ∧
      (all.getLast?.map fun p => p.2.nVars).getD 0
        = out.skippedChallenges.length + out.unskippedChallenges.length) ∧
    ∀ claims, makeZerocheckEvalClaims (all.map Prod.snd) out = .ok claims →
      (claims.map fun c => (c.id, c.evalPoint.length))
        = (all.flatMap fun p => p.2.oracleIds.map fun id => (id, p.2.nVars)) ∧
      ((∀ c ∈ claims, c.eval = mle (table c.id) c.evalPoint) ↔ ZeroCorrectEvals (all.map Prod.fst) out) := by
  have hasc : Verif.Sorting.isSortedAscending ((all.map Prod.snd).map fun m => m.nVars) = false ↔
      ¬ all.Pairwise fun p q => p.2.nVars ≤ q.2.nVars := by
    rw [← Bool.not_eq_true, asc_iff, List.map_map, List.pairwise_map]
    rfl
  have hcount : ((all.map Prod.snd).map fun m => m.oracleIds.length)
      = all.map fun p => p.2.oracleIds.length := by
    rw [List.map_map]
    rfl
  have hlast : ((all.map Prod.snd).getLast?.map fun m => m.nVars).getD 0
      = (all.getLast?.map fun p => p.2.nVars).getD 0 := by
    rw [List.getLast?_map, Option.map_map]
    rfl
  unfold makeZerocheckEvalClaims
  simp only [hasc, hcount, hlast]
  generalize hmx : (all.getLast?.map fun p => p.2.nVars).getD 0 = mx at *
  by_cases h1 : all.Pairwise fun p q => p.2.nVars ≤ q.2.nVars
  swap
  · simp [h1]
  by_cases h2 : (all.map fun p => p.2.oracleIds.length).sum = out.concatMultilinearEvals.length
  swap
  · simp [h1, h2]
  by_cases h3 : mx = out.skippedChallenges.length + out.unskippedChallenges.length
  swap
  · simp [h1, h2, h3]
  rw [if_neg (not_not_intro h1), if_neg (not_not_intro h2), if_neg (not_not_intro h3)]
  refine ⟨⟨fun _ => ⟨h1, h2, h3⟩, fun _ => ⟨_, rfl⟩⟩, fun claims hc => ?_⟩
  injection hc with hc
  have hflat : ((all.map Prod.snd).flatMap fun m => m.oracleIds.map fun id => (id, m.nVars))
      = all.flatMap fun p => p.2.oracleIds.map fun id => (id, p.2.nVars) := by
    rw [List.flatMap_map]
  rw [hflat] at hc
  have hL : (all.flatMap fun p => p.2.oracleIds.map fun id => (id, p.2.nVars)).length
      = out.concatMultilinearEvals.length := by
    rw [List.length_flatMap, ← h2]
    congr 1
    exact List.map_congr_left fun p _ => List.length_map _
  have hle : ∀ p ∈ all, p.2.nVars ≤ mx := by
    intro p hp
    rw [← hmx]
    rcases List.eq_nil_or_concat all with rfl | ⟨init, last, rfl⟩
    · simp at hp
    · rw [List.concat_eq_append] at *
      rw [List.getLast?_append]
      simp only [List.getLast?_singleton, Option.some_or, Option.map_some, Option.getD_some]
      rcases List.mem_append.mp hp with hp | hp
      · exact (List.pairwise_append.mp h1).2.2 p hp last (by simp)
      · rw [List.mem_singleton.mp hp]
  constructor
  · rw [← hc, List.map_zipWith]
    refine List.ext_getElem (by simp [hL]) fun i hi hi' => ?_
    rw [List.getElem_zipWith]
    have hm := List.getElem_mem hi'
    generalize (all.flatMap fun p => p.2.oracleIds.map fun id => (id, p.2.nVars))[i] = x at hm ⊢
    obtain ⟨p, hp, hx⟩ := List.mem_flatMap.mp hm
    obtain ⟨id, -, rfl⟩ := List.mem_map.mp hx
    have := hle p hp
    refine Prod.ext rfl ?_
    show (zeroEvalPoint mx _ _ p.2.nVars).length = p.2.nVars
    unfold zeroEvalPoint
    rw [List.length_append, List.length_take, List.length_drop]
    omega
  · rw [← hc, zipWith_all_iff _ _ (fun q : Nat × Nat => mle (table q.1) (zeroPoint out q.2)) _ _ _ hL]
    · unfold ZeroCorrectEvals
      rw [List.map_flatMap, List.flatMap_map]
      have : (all.flatMap fun p => (p.2.oracleIds.map fun id => (id, p.2.nVars)).map
            fun q : Nat × Nat => mle (table q.1) (zeroPoint out q.2))
          = all.flatMap fun p => p.1.tables.map fun t => mle t (zeroPoint out p.1.claim.nVars) := by
        refine List.flatMap_congr fun p hp => ?_
        rw [ht p hp, List.map_map, List.map_map, ← hn p hp]
        rfl
      rw [this]
    · intro a b
      show b = mle _ (zeroEvalPoint mx _ _ _) ↔ _
      rw [zeroEvalPoint_eq out mx a.2 h3]

/-- Two claims with one skipped round: the smaller one has no unskipped variables. -/
example : makeZerocheckEvalClaims [⟨1, [4]⟩, ⟨3, [2, 7]⟩] (⟨[10], [20, 30], [1, 2, 3]⟩ : ZerocheckOutput ℚ)
    = .ok [⟨4, [10], 1⟩, ⟨2, [10, 20, 30], 2⟩, ⟨7, [10, 20, 30], 3⟩] := by
  decide

end Verif.Sumcheck
