import Verif.Fri.LemmasSound
import Verif.Fri.PropsFri

/-! C59: what the acceptance of a FRI decommitment means. -/

set_option linter.unusedSectionVars false

namespace Verif.Fri

open Finset Verif.NTT.Spec Verif.Mle Verif.Fri.Spec
open Verif.NTT (TA Lanes flat precomputeTwiddles domainBasis_length ready_of)
open Verif.Subspace (BinarySubspace)
open Verif.Merkle (Scheme Tree chunk)

variable {F E D : Type*} [Field F] [DecidableEq F] [Field E] [DecidableEq E] [Algebra F E] [DecidableEq D]
  [Inhabited D]

theorem areCommitments_last {S : Scheme E D} {nF lr : Nat} : ∀ {as : List Nat} {L : Nat}
    {rounds : List (List E × Tree D)} {roots : List D}, AreCommitments S nF L as rounds roots → as.sum + nF + lr = L →
    (∃ w t, rounds.head? = some (w, t)) ∧ ∃ wl tl rl, rounds.getLast? = some (wl, tl) ∧ roots.getLast? = some rl ∧
      IsCommitment S (nF + lr) nF wl tl rl
  | [], L, rounds, roots, hA, hs => by
    rcases rounds with _ | ⟨⟨w, t⟩, _ | ⟨q, rounds⟩⟩
    · exact absurd hA (by simp [AreCommitments])
    · rcases roots with _ | ⟨r, _ | ⟨r', roots⟩⟩
      · exact absurd hA (by simp [AreCommitments])
      · obtain rfl : nF + lr = L := by simpa using hs
        exact ⟨⟨w, t, rfl⟩, w, t, r, rfl, rfl, hA⟩
      · exact absurd hA (by simp [AreCommitments])
    · rcases roots with _ | ⟨r, _ | ⟨r', roots⟩⟩ <;> exact absurd hA (by simp [AreCommitments])
  | a :: as, L, rounds, roots, hA, hs => by
    rcases rounds with _ | ⟨⟨w, t⟩, rounds⟩
    · exact absurd hA (by simp [AreCommitments])
    rcases roots with _ | ⟨r, roots⟩
    · exact absurd hA (by simp [AreCommitments])
    rw [List.sum_cons] at hs
    obtain ⟨-, wl, tl, rl, h1, h2, h3⟩ := areCommitments_last hA.2 (show as.sum + nF + lr = L - a by omega)
    refine ⟨⟨w, t, rfl⟩, wl, tl, rl, ?_, ?_, h3⟩
    · rw [List.getLast?_cons, h1]; rfl
    · rw [List.getLast?_cons, h2]; rfl

theorem readLayers_length : ∀ {ds : List Nat} {advice : List (Item E D)} {ls : List (List D)} {rest : List (Item E D)},
    readLayers ds advice = some (.ok (ls, rest)) → ls.length = ds.length
  | [], _, _, _, h => by
    unfold readLayers at h
    injection h with h; injection h with h; injection h with h1 h2
    subst h1; rfl
  | d :: ds, advice, ls, rest, h => by
    unfold readLayers at h
    obtain ⟨⟨ys, r⟩, h1, h'⟩ := andThen_eq_ok h
    obtain ⟨⟨zs, r'⟩, h2, h'⟩ := andThen_eq_ok h'
    have := readLayers_length h2
    injection h' with h'; injection h' with h'; injection h' with h5 h6
    subst h5
    simp [this]

theorem layerDepths_length (nq : Nat) : ∀ (as : List Nat) (L : Nat), (layerDepths nq L as).length = as.length
  | [], _ => rfl
  | a :: as, L => by rw [layerDepths, List.length_cons, layerDepths_length nq as, List.length_cons]

theorem queries_sound (v : Verifier F E D) (tas : List (TA F)) (terminate : List E) (layers : List (List D))
    (queries : Nat → Nat) (scratch : Nat → Nat → E) (adv : List (Item E D)) (P : Nat → Prop)
    (H : ∀ k advice rest, advice <:+ adv →
      v.verifyQuery tas terminate layers (scratch k) (queries k) advice = some (.ok rest) → rest <:+ adv ∧ P k) :
    ∀ (n k : Nat) (advice rest : List (Item E D)), advice <:+ adv →
      v.queriesLoop tas terminate layers queries scratch n k advice = some (.ok rest) → ∀ j, k ≤ j → j < k + n → P j
  | 0, _, _, _, _, _, j, h1, h2 => by omega
  | n + 1, k, advice, rest, hs, hq, j, h1, h2 => by
    unfold Verifier.queriesLoop at hq
    obtain ⟨adv1, hq1, hq2⟩ := andThen_eq_ok hq
    obtain ⟨hs1, hP⟩ := H k advice adv1 hs hq1
    rcases Nat.eq_or_lt_of_le h1 with rfl | hlt
    · exact hP
    · exact queries_sound v tas terminate layers queries scratch adv P H n (k + 1) adv1 rest hs1 hq2 j hlt (by omega)

/-- The last word of the proof is the commitment's, or a collision is found. -/
theorem terminate_sound {S : Scheme E D} {L nF : Nat} {wl x : List E} {tl : Tree D} {rl : D}
    (hc : IsCommitment S L nF wl tl rl) {adv : List (Item E D)} (hx : x.length = 2 ^ L)
    (hxi : x.map .scalar <:+: adv) (h : Merkle.verifyVector S rl x (2 ^ nF) = some (.ok ())) :
    x = wl ∨ ∃ c, Found S adv wl tl (2 ^ nF) c ∧ c.Valid S := by
  obtain ⟨hL, hwl, junk, hcom⟩ := hc
  obtain ⟨root, t, e, -, hv, -⟩ := Merkle.C24_complete S junk wl (2 ^ nF) (L - nF) (Nat.two_pow_pos _) (by
    rw [hwl, ← Nat.pow_add]; congr 1; omega)
  rw [e] at hcom
  simp only [Option.some.injEq, Except.ok.injEq, Prod.mk.injEq, Merkle.Commitment.mk.injEq, and_true] at hcom
  obtain ⟨rfl, rfl⟩ := hcom
  rcases Merkle.C25_vector S root x wl (2 ^ nF) (by omega) h hv with h1 | ⟨i, -, h1⟩ | ⟨c, h1, h2⟩
  · exact Or.inl h1
  · exact Or.inr ⟨_, Found.coset x i hxi, h1⟩
  · exact Or.inr ⟨c, Found.vector x _ c hxi h1, h2⟩

set_option maxHeartbeats 2000000 in
/-- **C59** (consistency).  Let the verifier have been given Merkle roots of arbitrary words.  If it accepts any
decommitment and returns a value, then a collision of the hash functions is found in the decommitment, or the last
committed word folds to this value everywhere and at every query each committed word folds to the next one. -/
theorem C59_consistency (h2 : (1 : F) + 1 = 0) {β : List F} {tas : List (TA F)}
    (h : NTT.withSubspace (⟨β⟩ : BinarySubspace F) = some (.ok tas))
    (S : Scheme E D) (ld lr lb nq : Nat) (arities : List Nat) (p : Params F)
    (h0 : 0 < ld + lr) (hl : ld + lr ≤ β.length)
    (hp : Params.new ⟨⟨domainBasis β (ld + lr)⟩, ld, lr⟩ lb arities nq = .ok p)
    (hfirst : ∀ a ∈ arities.head?, lb ≤ a) (w : List E) (t : Tree D) (root : D) (rounds : List (List E × Tree D))
    (roots : List D) (hroot : IsCommitment S (ld + lr + lb) (arities.head?.getD (ld + lb)) w t root)
    (hrounds : RoundCommitments S p.nFinalChallenges (ld + lr + lb) arities rounds roots)
    (challenges : List E) (v : Verifier F E D) (hv : Verifier.new S p root roots challenges = some (.ok v))
    (queries : Nat → Nat) (scratch scratch' : Nat → Nat → E) (advice rest : List (Item E D)) (value : E)
    (hok : v.verify queries scratch scratch' advice = some (.ok (value, rest))) :
    FoundAny S advice ((w, t) :: rounds) ∨
    ((∀ i < 2 ^ lr, match rounds.getLast? with
        | none => foldWord β (ld + lr) lb challenges (word w) i = value
        | some q => foldMany β (p.nFinalChallenges + lr) (challenges.drop arities.sum) (word q.1) i = value) ∧
      ∀ k < nq, QueryConsistent β (ld + lr) lb arities challenges (word w) (rounds.map fun q => word q.1)
        (queries k)) := by
  obtain ⟨-, -, hind, -⟩ := ready_of h2 h (Or.inl rfl)
  have hsumlt : arities.sum < ld + lb := by
    unfold Params.new at hp
    split at hp
    · cases hp
    · next hn => simpa using hn
  obtain rfl : p = ⟨⟨⟨domainBasis β (ld + lr)⟩, ld, lr⟩, lb, arities, nq⟩ := by
    unfold Params.new at hp
    rw [if_neg (by simpa using hsumlt)] at hp
    injection hp with hp
    exact hp.symm
  generalize hP : (⟨⟨⟨domainBasis β (ld + lr)⟩, ld, lr⟩, lb, arities, nq⟩ : Params F) = p at *
  have hPa : p.foldArities = arities := by rw [← hP]
  have hPb : p.logBatch = lb := by rw [← hP]
  have hPl : p.code.logLen = ld + lr := by rw [← hP]; rfl
  have hPd : p.code.logDimension = ld := by rw [← hP]
  have hPr : p.code.logInvRate = lr := by rw [← hP]
  have hPs : p.code.subspace = ⟨domainBasis β (ld + lr)⟩ := by rw [← hP]
  have hPq : p.nTestQueries = nq := by rw [← hP]
  have hPn : p.nFoldRounds = ld + lb := by rw [← hP]; rfl
  have hnf : p.nFinalChallenges = ld + lb - arities.sum := by
    unfold Params.nFinalChallenges
    rw [hPn, hPa]
  -- the verifier
  unfold Verifier.new at hv
  split at hv
  · cases hv
  next hrl =>
  split at hv
  · cases hv
  next hcl =>
  rw [hPn, not_not] at hcl
  obtain ⟨tensor, hten, hv⟩ := andThen_eq_ok hv
  have hten := orPanic_eq_ok hten
  injection hv with hv; injection hv with hv
  rw [hPb] at hten hv
  have hct : (challenges.take lb).length = lb := by rw [List.length_take]; omega
  have hcd : (challenges.drop lb).length = ld := by rw [List.length_drop]; omega
  obtain ⟨tensor', hten', htens, htenv⟩ := tensor_eq (challenges.take lb)
  rw [hten] at hten'
  obtain rfl := Option.some.inj hten'
  rw [hct] at htens htenv
  have hvS : v.S = S := by rw [← hv]
  have hvp : v.params = p := by rw [← hv]
  have hvc : v.codewordCommitment = root := by rw [← hv]
  have hvr : v.roundCommitments = roots := by rw [← hv]
  have hvt : v.interleaveTensor = tensor := by rw [← hv]
  have hvf : v.foldChallenges = challenges.drop lb := by rw [← hv]
  -- the NTT of the verifier
  obtain ⟨tas', htas'⟩ := domain_ntt h2 h h0 hl
  have hγl := domainBasis_length hl
  have hfd : ∀ (rs : List E) (l : Nat) (u : Nat → E), l ≤ (domainBasis β (ld + lr)).length →
      foldMany (domainBasis β (ld + lr)) l rs u = foldMany β l rs u := by
    intro rs l u hle
    exact foldMany_domain h2 hind hl rs l u (by omega)
  -- the run
  unfold Verifier.verify at hok
  rw [hvp, hPs, htas', mapErr_ok, andThen_ok, hPr] at hok
  obtain ⟨⟨x, adv1⟩, hrd, hok⟩ := andThen_eq_ok hok
  obtain ⟨fv, hlast, hok⟩ := andThen_eq_ok hok
  obtain ⟨⟨layers, adv2⟩, hrl, hok⟩ := andThen_eq_ok hok
  obtain ⟨_, hvl, hok⟩ := andThen_eq_ok hok
  obtain ⟨adv3, hqs, hok⟩ := andThen_eq_ok hok
  injection hok with hok; injection hok with hok; injection hok with hval hrest
  subst hval
  dsimp only at hlast hrl hvl hqs
  obtain ⟨hxl, hadv⟩ := readScalars_ok hrd
  obtain ⟨hinf, hsuf⟩ := readLayers_ok hrl
  have hs1 : adv1 <:+ advice := by rw [hadv]; exact List.suffix_append _ _
  have hxi : x.map (Item.scalar (D := D)) <:+: advice := by
    rw [hadv]; exact (List.prefix_append _ _).isInfix
  have hlayd : Layered S advice (root :: roots) p.depths layers := by
    rw [hvS, hvc, hvr] at hvl
    exact verifyLayers_ok hvl fun l hl => (hinf l hl).trans hs1.isInfix
  rw [verifyLastOracle_eq, hvS, hvp, hvr, hvc, hPr, hvf] at hlast
  obtain ⟨_, hvec, hlast⟩ := andThen_eq_ok hlast
  have hvec := mapErr_eq_ok hvec
  obtain ⟨rep, hrep, hlast⟩ := andThen_eq_ok hlast
  obtain ⟨-, hall⟩ := checkRepetition_ok hlast
  by_cases hF : FoundAny S advice ((w, t) :: rounds)
  · exact Or.inl hF
  right
  cases arities with
  | nil =>
    obtain ⟨rfl, rfl⟩ := hrounds
    rw [List.sum_nil, Nat.sub_zero] at hnf
    rw [hnf] at hvec
    rw [hnf, show ld + lb + lr = ld + lr + lb by omega] at hxl
    obtain rfl : x = w := by
      rcases terminate_sound hroot hxl hxi hvec with hx | ⟨c, hc1, hc2⟩
      · exact hx
      · exact absurd ⟨(w, t), List.mem_cons_self .., _, c, hc1, hc2⟩ hF
    refine ⟨fun i hi => ?_, fun k _ => by unfold QueryConsistent; trivial⟩
    dsimp only [List.getLast?_nil]
    rw [if_neg (by unfold Params.nOracles; rw [hPa]; simp)] at hrep
    have hrep := orPanic_eq_ok hrep
    have hint := chunks_interleaved h2 htas' ld lr x (challenges.take lb) (challenges.drop lb) (by rw [hxl, hct]) hcd
      (by omega) tensor (by rw [hct, htens]) (by rw [hct]; exact htenv) scratch'
    rw [hct] at hint
    rw [hPd, hPb, hPl, hvt, hint] at hrep
    have hrep := Option.some.inj hrep
    have := hall (foldMany (domainBasis β (ld + lr)) (ld + lr) (challenges.drop lb) (combine (challenges.take lb) (word x)) i)
      (by rw [← hrep]; exact List.mem_map.2 ⟨i, List.mem_range.2 hi, rfl⟩)
    rw [hfd _ _ _ (by omega)] at this
    exact this
  | cons a as =>
    have hba : lb ≤ a := hfirst a rfl
    rw [List.sum_cons] at hsumlt hnf
    have hsum : as.sum + p.nFinalChallenges + lr = ld + lr + lb - a := by omega
    obtain ⟨⟨w1, t1, hh1⟩, wl, tl, rl, hgl, hgr, hcl'⟩ := areCommitments_last hrounds hsum
    rw [hgr, Option.getD_some] at hvec
    have hmeml : (wl, tl) ∈ rounds := List.mem_of_getLast? hgl
    obtain rfl : x = wl := by
      rcases terminate_sound hcl' hxl hxi hvec with hx | ⟨c, hc1, hc2⟩
      · exact hx
      · exact absurd ⟨(wl, tl), List.mem_cons_of_mem _ hmeml, _, c, hc1, hc2⟩ hF
    constructor
    · intro i hi
      rw [hgl]
      dsimp only
      rw [if_pos (by unfold Params.nOracles; rw [hPa]; simp)] at hrep
      unfold sub? at hrep
      rw [hcd, if_neg (by omega), andThen_ok] at hrep
      have hrep := orPanic_eq_ok hrep
      have hfin : ((challenges.drop lb).drop (ld - p.nFinalChallenges)).length = p.nFinalChallenges := by
        rw [List.length_drop]; omega
      rw [chunks_fold h2 htas' p.nFinalChallenges lr x hxl _ hfin (by omega)] at hrep
      have hrep := Option.some.inj hrep
      have := hall _ (by rw [← hrep]; exact List.mem_map.2 ⟨i, List.mem_range.2 hi, rfl⟩)
      rw [hfd _ _ _ (by omega), List.drop_drop, show lb + (ld - p.nFinalChallenges) = a + as.sum by omega] at this
      rw [List.sum_cons]
      exact this
    · have hdepths : p.depths = Merkle.optimalVerifyLayer nq (ld + lr + lb - a) ::
          layerDepths nq (ld + lr + lb - a) as := by
        unfold Params.depths Params.logLen
        rw [hPa, hPl, hPb, hPq, layerDepths]
      have hib : p.indexBits = ld + lr + lb - a := by
        unfold Params.indexBits Params.logLen
        rw [hPa, hPl, hPb]
        rfl
      have hll := readLayers_length hrl
      rw [hdepths] at hlayd hll
      rcases layers with _ | ⟨layer, layers⟩
      · cases hll
      obtain ⟨⟨hv1, hli⟩, hlay'⟩ := hlayd
      have key := queries_sound v tas' x (layer :: layers) queries scratch advice
        (fun k => QueryConsistent β (ld + lr) lb (a :: as) challenges (word w) (rounds.map fun q => word q.1) (queries k)) (by
          intro k advice' rest' hs' hvq
          unfold Verifier.verifyQuery at hvq
          rw [hvp, hPa] at hvq
          dsimp only at hvq
          rw [hdepths] at hvq
          dsimp only at hvq
          unfold sub? at hvq
          rw [hPb, if_neg (by omega), andThen_ok, hib, hvf] at hvq
          obtain ⟨⟨vals, ad1⟩, hop, hvq⟩ := andThen_eq_ok hvq
          obtain ⟨chs, hchs, hvq⟩ := andThen_eq_ok hvq
          obtain ⟨nv, hnv, hvq⟩ := andThen_eq_ok hvq
          obtain ⟨⟨index', y, ad2⟩, hloop, hvq⟩ := andThen_eq_ok hvq
          obtain ⟨tv, htv, hvq⟩ := andThen_eq_ok hvq
          have hnv := orPanic_eq_ok hnv
          have htv := orPanic_eq_ok htv
          dsimp only at hnv hloop htv hvq
          split at hvq
          · cases hvq
          next hytv =>
          rw [not_not] at hytv
          injection hvq with hvq; injection hvq with hvq
          subst hvq
          subst hytv
          rw [hvS] at hop
          obtain ⟨hs2, hidx, hvlen, hsound⟩ := opening_sound hroot hv1 hli hs' hop
          rcases hsound with hvals | ⟨c, hc1, hc2⟩
          swap
          · exact absurd ⟨(w, t), List.mem_cons_self .., _, c, hc1, hc2⟩ hF
          have hvals : vals = chunk w (2 ^ a) (queries k) := hvals
          subst hvals
          obtain ⟨hs3, hcon⟩ := queryLoop_sound h2 htas' hfd v nq p.nFinalChallenges advice as rounds roots layers
            (ld + lr + lb - a) (a - lb) 0 (queries k) index' nv y ad1 ad2 w1 t1 (by rw [hvS]; exact hrounds)
            (by rw [hvS]; exact hlay') (by
              have := layerDepths_length nq as (ld + lr + lb - a)
              simp only [List.length_cons] at hll
              omega) hh1 (by omega) (by rw [hvp]; omega) hs2 hidx hloop ⟨x, by rw [hgl]; rfl, htv⟩
          refine ⟨hs3, ?_⟩
          rcases hcon with ⟨q, hq1, hq2⟩ | ⟨hnx, hcons⟩
          · rw [hvS] at hq2
            exact absurd ⟨q, List.mem_cons_of_mem _ hq1, hq2⟩ hF
          unfold range? at hchs
          rw [if_neg (by rw [hcd]; omega), List.drop_zero] at hchs
          injection hchs with hchs; injection hchs with hchs
          subst hchs
          have htk : ((challenges.drop lb).take (a - lb)).length = a - lb := by rw [List.length_take]; omega
          have hvl2 : (chunk w (2 ^ a) (queries k)).length = 2 ^ a := hvlen
          have hic := interleavedChunk_word h2 htas' (Or.inl rfl) 0 (ld + lr) (queries k) (challenges.take lb)
            ((challenges.drop lb).take (a - lb)) (by omega) (by omega)
            (by rw [htk, show ld + lr - (a - lb) = ld + lr + lb - a by omega]; exact hidx) (Or.inr (Nat.zero_le _))
            (word w) (asLanes (chunk w (2 ^ a) (queries k)))
            (by unfold asLanes; dsimp only; rw [hvl2, htk, hct, Nat.sub_zero]; congr 1; omega) tensor
            ⟨p.scratchLen, scratch k⟩ (by rw [hct, htens]; simp) (by rw [hct]; exact htenv) (by
              rw [htk]
              unfold Params.scratchLen
              dsimp only
              have : a ≤ p.foldArities.max?.getD 0 := max?_ge (by rw [hPa]; exact List.mem_cons_self ..)
              have := Nat.pow_le_pow_right (n := 2) (by omega) (show a - lb ≤ p.foldArities.max?.getD 0 by omega)
              omega) (fun q hq => by
              rw [hct, htk, show lb + (a - lb) = a by omega] at hq ⊢
              unfold flat asLanes
              dsimp only
              rw [Nat.pow_zero, Nat.div_one]
              exact chunk_word hq)
          rw [hct] at hic
          rw [hvt, hPl, hic] at hnv
          have hnv := Option.some.inj hnv
          rcases rounds with _ | ⟨⟨w2, t2⟩, rounds⟩
          · cases hh1
          injection hh1 with hh1; injection hh1 with e1 e2
          subst e1 e2
          rw [List.map_cons]
          unfold QueryConsistent
          refine ⟨?_, ?_⟩
          · rw [← hnx, ← hnv, hfd _ _ _ (by omega)]
            unfold foldWord
            rw [List.take_take, Nat.min_eq_left hba, List.drop_take]
          · rw [show ld + lr - (a - lb) = ld + lr + lb - a by omega]
            rw [hvf, List.drop_drop, show lb + (a - lb) = a by omega] at hcons
            exact hcons)
      intro k hk
      rw [hPq] at hqs
      exact key nq 0 adv2 adv3 (hsuf.trans hs1) hqs k (Nat.zero_le _) (by omega)

open Classical in
/-- **C59** (counting).  The commitments and the challenges are fixed before the queries are sampled.  Let `m` be the
number of query indices at which the committed words fold to each other.  Then there are at most `m^n_test_queries`
lists of query indices (of `2^(index_bits · n_test_queries)`) for which some decommitment is accepted and yields no
collision. -/
theorem C59_count (h2 : (1 : F) + 1 = 0) {β : List F} {tas : List (TA F)}
    (h : NTT.withSubspace (⟨β⟩ : BinarySubspace F) = some (.ok tas))
    (S : Scheme E D) (ld lr lb nq : Nat) (arities : List Nat) (p : Params F)
    (h0 : 0 < ld + lr) (hl : ld + lr ≤ β.length)
    (hp : Params.new ⟨⟨domainBasis β (ld + lr)⟩, ld, lr⟩ lb arities nq = .ok p)
    (hfirst : ∀ a ∈ arities.head?, lb ≤ a) (w : List E) (t : Tree D) (root : D) (rounds : List (List E × Tree D))
    (roots : List D) (hroot : IsCommitment S (ld + lr + lb) (arities.head?.getD (ld + lb)) w t root)
    (hrounds : RoundCommitments S p.nFinalChallenges (ld + lr + lb) arities rounds roots)
    (challenges : List E) (v : Verifier F E D) (hv : Verifier.new S p root roots challenges = some (.ok v)) :
    (univ.filter fun queries : Fin nq → Fin (2 ^ p.indexBits) =>
        ∃ scratch scratch' advice rest value,
          v.verify (fun k => if hk : k < nq then queries ⟨k, hk⟩ else 0) scratch scratch' advice =
            some (.ok (value, rest)) ∧
          ¬ FoundAny S advice ((w, t) :: rounds)).card ≤
      (univ.filter fun q : Fin (2 ^ p.indexBits) =>
        QueryConsistent β (ld + lr) lb arities challenges (word w) (rounds.map fun q => word q.1) q).card ^ nq := by
  refine le_trans (Finset.card_le_card (t := Fintype.piFinset fun _ : Fin nq =>
    univ.filter fun q : Fin (2 ^ p.indexBits) =>
      QueryConsistent β (ld + lr) lb arities challenges (word w) (rounds.map fun q => word q.1) q) ?_) ?_
  · intro queries hq
    obtain ⟨scratch, scratch', advice, rest, value, hok, hno⟩ := (mem_filter.1 hq).2
    rw [Fintype.mem_piFinset]
    intro k
    refine mem_filter.2 ⟨mem_univ _, ?_⟩
    rcases C59_consistency h2 h S ld lr lb nq arities p h0 hl hp hfirst w t root rounds roots hroot hrounds challenges v
      hv _ scratch scratch' advice rest value hok with hF | ⟨-, hc⟩
    · exact absurd hF hno
    · have := hc k k.2
      rw [dif_pos k.2] at this
      exact this
  · rw [Fintype.card_piFinset, Finset.prod_const, Finset.card_univ, Fintype.card_fin]

/-- The hypotheses are met by every honest run, for instance the one beside `C58_completeness`. -/
example {D : Type} [DecidableEq D] [Inhabited D] (S : Scheme (Field.T 1) D) (message : Nat → Field.T 1)
    (r s : Field.T 1) :
    ∃ tas p w t root rounds roots v advice value,
      NTT.withSubspace (⟨NTT.exampleBasis⟩ : BinarySubspace (Field.T 1)) = some (.ok tas) ∧
      Params.new ⟨⟨domainBasis NTT.exampleBasis 2⟩, 1, 1⟩ 1 [1] 3 = .ok p ∧
      IsCommitment S (1 + 1 + 1) ([1].head?.getD (1 + 1)) w t root ∧
      RoundCommitments S p.nFinalChallenges (1 + 1 + 1) [1] rounds roots ∧
      Verifier.new S p root roots [r, s] = some (.ok v) ∧
      v.verify (fun k => k % 4) (fun _ _ => 0) (fun _ _ => 0) advice = some (.ok (value, [])) := by
  obtain ⟨tas, h⟩ := NTT.exampleBasis_ok
  obtain ⟨c, f, g, roots, advice, v, -, -, -, -, h5, h6, h7, h8⟩ := C58_completeness (by decide) h (Or.inl rfl) S
    (fun _ => default) (fun _ _ => default) 1 1 1 3 [1] ⟨⟨⟨domainBasis NTT.exampleBasis 2⟩, 1, 1⟩, 1, [1], 3⟩
    (by decide) (by decide) rfl (by decide) (by simp) (cpuFriFold tas) (Or.inl rfl) 0 0 (fun _ => (1 : Field.T 1))
    ⟨8, fun i _ => message i⟩ (by decide) rfl [r, s] rfl (fun k => k % 4)
    (fun i _ => Nat.mod_lt i (show 0 < 4 by decide)) (fun _ _ => 0) (fun _ _ => 0)
  have := h8 []
  rw [List.append_nil] at this
  exact ⟨tas, _, c.codeword, c.committed, c.commitment, g.roundCommitted, roots, v, advice, _, h, rfl, h6, h7, h5, this⟩

end Verif.Fri
