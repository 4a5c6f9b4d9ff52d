import Verif.Gkr.LemmasExpBatch2
import Verif.Sumcheck.PropsSumcheck

/-! Soundness of the batched exponentiation. -/

set_option linter.dupNamespace false
set_option linter.unusedSectionVars false

namespace Verif.Gkr

open Verif.Mle Verif.Protocol Verif.Sumcheck Finset

variable {F : Type} [Field F] [DecidableEq F]

theorem le_max?_getD {l : List Nat} {a : Nat} (h : a ∈ l) : a ≤ (l.max?).getD 0 := by
  cases hm : l.max? with
  | none =>
    rw [List.max?_eq_none_iff] at hm
    rw [hm] at h
    simp at h
  | some m => exact (List.max?_eq_some_iff.mp hm).2 a h

theorem gReg_nVars (k : Nat) {g : List (ExpItem F)} (hg : IsGroup g) (hl : AtLayer k g) {it : ExpItem F} (hit : it ∈ g) :
    (gReg k g).claim.nVars = it.claim.nVars := by
  show (gPoint g).length = _
  rw [← hg.2 it hit, (hl it hit).1.point]

theorem reduce_groups (k : Nat) (gs : List (List (ExpItem F))) :
    reduceToRegularSumchecks (gs.map fun g => (gInst k g).claim) = .ok ((gs.map (gReg k)).map fun I => I.claim) := by
  have h := reduce_ok [] (gs.map (gInst k)) (by
    intro I hI
    obtain ⟨g, _, rfl⟩ := List.mem_map.mp hI
    exact gInst_wf k g)
  rw [List.map_map, List.map_map, List.map_map] at h
  rw [List.map_map]
  exact h

/-- What the sumcheck of a layer has ended with. -/
def LayerOut (k : Nat) (cur : List (ExpItem F)) (out : Output F) : Prop :=
  out.challenges.length = ((((liveGroups k cur).map (gReg k)).map fun I => I.claim).map fun c => c.nVars).max?.getD 0 ∧
    List.Forall₂ (fun (c : Claim F) (e : List F) => e.length = c.nMultilinears)
      (((liveGroups k cur).map (gReg k)).map fun I => I.claim) out.multilinearEvals

theorem flatten_length {k : Nat} {gs : List (List (ExpItem F))} {evals : List (List F)}
    (h : List.Forall₂ (fun g (e : List F) => e.length = (gTables k g).length + 1) gs evals) :
    (evals.map List.dropLast).flatten.length = (gs.flatMap fun g => g.flatMap (ExpItem.layerTables k)).length := by
  induction h with
  | nil => rfl
  | cons h _ ih =>
    rw [List.map_cons, List.flatten_cons, List.length_append, List.flatMap_cons, List.length_append, ih,
      List.length_dropLast, h]
    rfl

theorem layer_finish (order : EvaluationOrder) {k : Nat} {cur : List (ExpItem F)} (hl : AtLayer k cur) {out : Output F}
    (ho : LayerOut k cur out) (tail : List (List F)) :
    (∃ e, buildLayerExponentBitClaims order (cur.map fun it => it.claim) out ((liveGroups k cur).map gPoint ++ tail) k =
        .error e ∧ ¬ CorrectEvals order ((liveGroups k cur).map (gReg k)) out) ∨
    ∃ cur' outs, buildLayerExponentBitClaims order (cur.map fun it => it.claim) out
        ((liveGroups k cur).map gPoint ++ tail) k = .ok (cur'.map fun it => it.claim, outs) ∧
      List.Forall₂ SameItem cur cur' ∧ (∀ it ∈ cur', it.WellFormed) ∧
      (outs.map fun c => c.evalPoint.length) = cur.flatMap (outShape k) ∧
      ((List.Forall₂ TableTrue (cur.flatMap (ExpItem.outTables k)) outs ∧
          ∀ it ∈ cur', k + 1 < it.cols.length → it.TrueAt (k + 1)) ↔
        (CorrectEvals order ((liveGroups k cur).map (gReg k)) out ∧
          ∀ it ∈ cur, it.layerTables k = [] → it.TrueAt k)) := by
  obtain ⟨hgs, hcov, hflat, -, -⟩ := liveGroups_spec hl
  obtain ⟨hch, hev⟩ := ho
  obtain ⟨ch, evals⟩ := out
  simp only at hch hev
  have hnv : ∀ g ∈ liveGroups k cur, (gPoint g).length ≤ ch.length := by
    intro g hg
    rw [hch]
    exact le_max?_getD (List.mem_map.mpr ⟨(gReg k g).claim, List.mem_map.mpr
      ⟨gReg k g, List.mem_map.mpr ⟨g, hg, rfl⟩, rfl⟩, rfl⟩)
  rw [List.forall₂_map_left_iff, List.forall₂_map_left_iff] at hev
  have hev' : List.Forall₂ (fun g (e : List F) => e.length = (gTables k g).length + 1) (liveGroups k cur) evals := hev
  have hlen : evals.length = ((liveGroups k cur).map gPoint).length := by
    rw [List.length_map]; exact hev.length_eq.symm
  have hiff := checkEqInds_iff order ch tail evals ((liveGroups k cur).map gPoint) hlen (by
    intro p hp
    obtain ⟨g, hg, rfl⟩ := List.mem_map.mp hp
    exact hnv g hg)
  unfold buildLayerExponentBitClaims
  simp only
  cases hc : checkEqInds order ch evals ((liveGroups k cur).map gPoint ++ tail) with
  | error e =>
    refine Or.inl ⟨e, rfl, fun hcor => ?_⟩
    have hlast : List.Forall₂ (fun (e p : List F) => e.getLast? = some (mle (eqWeight p) (claimPoint order ch p.length)))
        evals ((liveGroups k cur).map gPoint) := by
      unfold CorrectEvals at hcor
      rw [List.forall₂_map_left_iff] at hcor
      rw [List.forall₂_map_right_iff]
      refine (hcor.imp fun g e he => ?_).flip
      rw [he]
      show ((gTables k g ++ [eqWeight (suffix (gPoint g).length (gPoint g))]).map _).getLast? = _
      rw [suffix_full _ _ (Nat.le_refl _), List.map_append, List.map_singleton, List.getLast?_concat]
      rfl
    have := (hiff (evals.map List.dropLast)).mpr ⟨rfl, hlast⟩
    rw [hc] at this
    cases this
  | ok es =>
    obtain ⟨hes, hlast⟩ := (hiff es).mp hc
    have hcor := correct_iff order ch k (liveGroups k cur) evals (fun g hg => ⟨(hgs g hg).1, (hgs g hg).2.1⟩) hev' hlast
    rw [hflat (layerTarget order ch k) (fun it h => by unfold layerTarget; rw [h]; rfl), ← hes] at hcor
    have hfl : es.flatten.length = (cur.flatMap (ExpItem.layerTables k)).length := by
      rw [hes, ← hflat (ExpItem.layerTables k) (fun it h => h)]
      exact flatten_length hev'
    obtain ⟨cur', outs, f1, f2, f3, f5, f4⟩ := finishLoop_ok order ch cur es.flatten hl hfl (by
      intro it hit hne
      obtain ⟨g, hg, hig⟩ := hcov it hit hne
      have := hnv g hg
      rw [← (hgs g hg).1.2 it hig, ((hgs g hg).2.1 it hig).1.point] at this
      exact this)
    exact Or.inr ⟨cur', outs, f1, f2, f3, f5, by rw [f4, hcor]⟩

theorem expLayers_post (checks : Bool) (order : EvaluationOrder) : ∀ (left k : Nat) (vs : List (ExpClaim F))
    (done : List (List (ExpLayerClaim F))), Post (fun out => done <+: out) (expLayers checks order left k vs done)
  | 0, _, _, done => List.prefix_rfl
  | left + 1, k, vs, done => by
    rw [expLayers]
    refine Post.bind (Post.trivial _) fun cp _ => ?_
    refine Post.bind (Post.trivial _) fun reg _ => ?_
    refine Post.bind (Post.trivial _) fun out _ => ?_
    refine Post.bind (Post.trivial _) fun vo _ => ?_
    refine Post.bind (Post.trivial _) fun vs' _ => ?_
    exact (expLayers_post checks order left (k + 1) vs' _).mono fun out h => (List.prefix_append done [vo.2]).trans h

theorem exists_big : ∀ (l : List (Instance F)), l ≠ [] →
    ∃ big ∈ l, ∀ I ∈ l, I.claim.nVars ≤ big.claim.nVars
  | [], h => absurd rfl h
  | [a], _ => ⟨a, by simp, by simp⟩
  | a :: b :: l, _ => by
    obtain ⟨big, hb, hm⟩ := exists_big (b :: l) (by simp)
    by_cases h : a.claim.nVars ≤ big.claim.nVars
    · refine ⟨big, List.mem_cons_of_mem _ hb, fun I hI => ?_⟩
      rcases List.mem_cons.mp hI with rfl | hI
      · exact h
      · exact hm I hI
    · refine ⟨a, by simp, fun I hI => ?_⟩
      rcases List.mem_cons.mp hI with rfl | hI
      · exact Nat.le_refl _
      · have := hm I hI
        omega

/-- The items after a layer. -/
theorem next_spec {k : Nat} {cur cur' : List (ExpItem F)} (hs : List.Forall₂ SameItem cur cur')
    (hw : ∀ it ∈ cur', it.WellFormed) :
    AtLayer (k + 1) (nextItems k cur') ∧ (nextItems k cur').length ≤ cur.length ∧
    (∀ it' ∈ nextItems k cur', ∃ it ∈ cur, SameItem it it') ∧
    ∀ j, k + 1 ≤ j → (nextItems k cur').flatMap (ExpItem.outTables j) = cur.flatMap (ExpItem.outTables j) := by
  refine ⟨nextItems_at hw, ?_, ?_, ?_⟩
  · rw [hs.length_eq]
    exact List.length_filter_le _ _
  · intro it' h
    have := (List.mem_filter.mp h).1
    clear h hw
    induction hs with
    | nil => simp at this
    | @cons a b l l' hab _ ih =>
      rcases List.mem_cons.mp this with rfl | h
      · exact ⟨a, by simp, hab⟩
      · obtain ⟨it, h1, h2⟩ := ih h
        exact ⟨it, by simp [h1], h2⟩
  · intro j hj
    clear hw
    induction hs with
    | nil => rfl
    | @cons a b l l' hab _ ih =>
      unfold nextItems at ih ⊢
      rw [List.flatMap_cons, ← ih, ← hab.outTables]
      by_cases h : k + 1 < b.cols.length
      · rw [List.filter_cons_of_pos (by simpa using h), List.flatMap_cons]
      · rw [List.filter_cons_of_neg (by simpa using h)]
        have : b.outTables j = [] := by
          unfold ExpItem.outTables
          rw [if_neg (by omega)]
        rw [this, List.nil_append]

/-- What is left of a layer after its sumcheck. -/
def layerRest (checks : Bool) (order : EvaluationOrder) (left k : Nat) (vs : List (ExpClaim F)) (pts : List (List F))
    (done : List (List (ExpLayerClaim F))) (out : Output F) : P F (List (List (ExpLayerClaim F))) :=
  (Prog.ofExcept (buildLayerExponentBitClaims order vs out pts k)).bind fun vo =>
    (Prog.ofExcept (retainLayer k vo.1)).bind fun vs =>
      expLayers checks order left (k + 1) vs (done ++ [vo.2])

theorem layer_eq (checks : Bool) (order : EvaluationOrder) (left : Nat) {k : Nat} {cur : List (ExpItem F)} (hne : cur ≠ [])
    (hl : AtLayer k cur) (done : List (List (ExpLayerClaim F))) :
    ∃ tail, expLayers checks order (left + 1) k (cur.map fun it => it.claim) done =
      (batchVerify order (((liveGroups k cur).map (gReg k)).map fun I => I.claim)).bind
        (layerRest checks order left k (cur.map fun it => it.claim) ((liveGroups k cur).map gPoint ++ tail) done) := by
  obtain ⟨tail, h⟩ := buildLayerClaims_ok checks hne hl
  refine ⟨tail, ?_⟩
  rw [expLayers, ofExcept_bind, h]
  dsimp only
  rw [ofExcept_bind, reduce_groups]
  rfl

theorem layerRest_ok (checks : Bool) (order : EvaluationOrder) (left : Nat) {k : Nat} {vs : List (ExpClaim F)}
    {pts : List (List F)} (done : List (List (ExpLayerClaim F))) {out : Output F} {cur' : List (ExpItem F)}
    (hk : AtLayer k cur') {outs : List (ExpLayerClaim F)}
    (h : buildLayerExponentBitClaims order vs out pts k = .ok (cur'.map fun it => it.claim, outs)) :
    layerRest checks order left k vs pts done out =
      expLayers checks order left (k + 1) ((nextItems k cur').map fun it => it.claim) (done ++ [outs]) := by
  unfold layerRest
  rw [ofExcept_bind, h]
  dsimp only
  rw [ofExcept_bind, retainLayer_ok cur' hk]

theorem same_at {k : Nat} {cur cur' : List (ExpItem F)} (hs : List.Forall₂ SameItem cur cur') (hl : AtLayer k cur)
    (hw : ∀ it ∈ cur', it.WellFormed) : AtLayer k cur' := by
  intro it' h
  refine ⟨hw it' h, ?_⟩
  clear hw
  induction hs with
  | nil => simp at h
  | @cons a b l l' hab _ ih =>
    rcases List.mem_cons.mp h with rfl | h
    · rw [hab.cols]
      exact (hl a (by simp)).2
    · exact ih hl.tail h

theorem exp_err (checks : Bool) (order : EvaluationOrder) (items : List (ExpItem F)) (n m : Nat) :
    ∀ (left k : Nat) (cur : List (ExpItem F)) (done : List (List (ExpLayerClaim F))), AtLayer k cur →
    cur.length ≤ m → (∀ it ∈ cur, it.claim.nVars ≤ n ∧ it.cols.length ≤ k + left) → done.length = k →
    (∀ j, k ≤ j → items.flatMap (ExpItem.outTables j) = cur.flatMap (ExpItem.outTables j)) →
    (∃ it ∈ cur, ¬ it.TrueAt k) →
    SoundErr (ExpOutputHolds items) (expLayers checks order left k (cur.map fun it => it.claim) done)
      (left * (5 * n + m))
  | 0, k, cur, done, hl, _, hb, _, _, ⟨it, hit, _⟩ => by
    have := (hl it hit).2
    have := (hb it hit).2
    omega
  | left + 1, k, cur, done, hl, hm, hb, hd, hit, hfalse => by
    have hne : cur ≠ [] := by
      obtain ⟨it, hi, _⟩ := hfalse
      exact List.ne_nil_of_mem hi
    obtain ⟨hgs, hcov, -, -, hsum⟩ := liveGroups_spec hl
    obtain ⟨tail, he⟩ := layer_eq checks order left hne hl done
    rw [he]
    have hrest : ∀ out, LayerOut k cur out →
        ¬ (CorrectEvals order ((liveGroups k cur).map (gReg k)) out ∧
          ∀ it ∈ cur, it.layerTables k = [] → it.TrueAt k) →
        SoundErr (ExpOutputHolds items) (layerRest checks order left k (cur.map fun it => it.claim)
          ((liveGroups k cur).map gPoint ++ tail) done out) (left * (5 * n + m)) := by
      intro out ho hbad
      rcases layer_finish order hl ho tail with ⟨e, h, -⟩ | ⟨cur', outs, h, hs, hw, -, hiff⟩
      · unfold layerRest
        rw [ofExcept_bind, h]
        exact .fail
      · rw [layerRest_ok checks order left done (same_at hs hl hw) h]
        obtain ⟨g1, g2, g3, g4⟩ := next_spec (k := k) hs hw
        rw [← hiff] at hbad
        by_cases hout : List.Forall₂ TableTrue (cur.flatMap (ExpItem.outTables k)) outs
        · refine exp_err checks order items n m left (k + 1) _ _ g1 (g2.trans hm) ?_ (by simp [hd]) ?_ ?_
          · intro it' hi
            obtain ⟨it, hi', hsame⟩ := g3 it' hi
            have := hb it hi'
            rw [hsame.nVars, hsame.cols]
            exact ⟨this.1, by omega⟩
          · intro j hj
            rw [g4 j hj, hit j (by omega)]
          · by_contra hall
            push Not at hall
            refine hbad ⟨hout, fun it hi hk => ?_⟩
            exact hall it (List.mem_filter.mpr ⟨hi, by simpa using hk⟩)
        · refine soundErr_of_post _ ((expLayers_post checks order left (k + 1) _ (done ++ [outs])).mono ?_)
          intro final hpre hgood
          obtain ⟨t, rfl⟩ := hpre
          have := hgood k outs (by
            rw [List.append_assoc, List.getElem?_append_right (by omega), hd]
            simp)
          rw [hit k (Nat.le_refl _)] at this
          exact hout this
    have hpost := batchVerify_postL order (((liveGroups k cur).map (gReg k)).map fun I => I.claim)
    by_cases hA : ∃ it ∈ cur, it.layerTables k ≠ [] ∧ ¬ it.TrueAt k
    · obtain ⟨it, hi, htab, hf⟩ := hA
      obtain ⟨g, hg, hig⟩ := hcov it hi htab
      have hgm : gReg k g ∈ (liveGroups k cur).map (gReg k) := List.mem_map.mpr ⟨g, hg, rfl⟩
      obtain ⟨big, hbig, hmax⟩ := exists_big ((liveGroups k cur).map (gReg k)) (List.ne_nil_of_mem hgm)
      obtain ⟨gb, hgb, rfl⟩ := List.mem_map.mp hbig
      have herr := batch_err order ((liveGroups k cur).map (gReg k)) (by
          intro I hI
          obtain ⟨g, _, rfl⟩ := List.mem_map.mp hI
          exact regular_wf _ (gInst_wf k g)) (gReg k gb) hbig hmax
        (Or.inr (regular_degree_pos _ _ (gSums_ne k _ gb 0 (hgs gb hgb).2.2.1))) 5 (by
          intro I hI
          obtain ⟨g, _, rfl⟩ := List.mem_map.mp hI
          exact regular_degree _ _ 4 fun s hs => (gSums_mem hs).1)
        ⟨gReg k g, hgm, fun hh => by
          have h1 := (regular_holds (gPoint g) (gInst_wf k g) (Nat.le_refl _)).mp hh
          exact hf ((gHolds k g (hgs g hg).2.1 (hgs g hg).1.2).mp h1 it hig htab)⟩
      refine (soundErr_bindL herr hpost fun out ho hbad => hrest out ho fun h => hbad h.1).mono ?_
      have hnb : (gReg k gb).claim.nVars ≤ n := by
        obtain ⟨x, hx⟩ := List.exists_mem_of_ne_nil _ (hgs gb hgb).1.1
        rw [gReg_nVars k (hgs gb hgb).1 (hgs gb hgb).2.1 hx]
        exact (hb x ((hgs gb hgb).2.2.2 x hx)).1
      have hss : (((liveGroups k cur).map (gReg k)).map fun I => I.claim.sums.length).sum ≤ m := by
        refine Nat.le_trans ?_ (hsum.trans hm)
        rw [List.map_map]
        refine List.sum_le_sum fun g _ => ?_
        show (List.map _ (gSums k _ g 0)).length ≤ g.length
        rw [List.length_map]
        exact gSums_length k _ g 0
      have : (gReg k gb).claim.nVars * 5 ≤ 5 * n := by omega
      rw [show (left + 1) * (5 * n + m) = left * (5 * n + m) + (5 * n + m) from Nat.succ_mul _ _]
      omega
    · push Not at hA
      obtain ⟨it, hi, hf⟩ := hfalse
      have h0 : it.layerTables k = [] := by
        by_contra h
        exact hf (hA it hi h)
      refine (soundErr_throughL hpost fun out ho => hrest out ho fun h => hf (h.2 it hi h0)).mono ?_
      rw [show (left + 1) * (5 * n + m) = left * (5 * n + m) + (5 * n + m) from Nat.succ_mul _ _]
      omega

theorem exp_samples (checks : Bool) (order : EvaluationOrder) (n m : Nat) :
    ∀ (left k : Nat) (cur : List (ExpItem F)) (done : List (List (ExpLayerClaim F))), AtLayer k cur →
    cur.length ≤ m → (∀ it ∈ cur, it.claim.nVars ≤ n) →
    SamplesLeL (expLayers checks order left k (cur.map fun it => it.claim) done) (left * (n + m))
  | 0, k, cur, done, _, _, _ => True.intro
  | left + 1, k, cur, done, hl, hm, hb => by
    by_cases hne : cur = []
    · rw [hne]
      exact True.intro
    obtain ⟨hgs, -, -, -, hsum⟩ := liveGroups_spec hl
    obtain ⟨tail, he⟩ := layer_eq checks order left hne hl done
    rw [he, Nat.succ_mul, Nat.add_comm]
    have hpost := batchVerify_postL order (((liveGroups k cur).map (gReg k)).map fun I => I.claim)
    refine SamplesLeL.bind ?_ hpost fun out ho => ?_
    · by_cases hz : (liveGroups k cur).map (gReg k) = []
      · rw [hz]
        have : SamplesLeL (batchVerify order ([] : List (Claim F))) 0 := by
          unfold batchVerify
          show SamplesLeL (if (0 : F) ≠ 0 then _ else _) 0
          split <;> exact True.intro
        exact this.mono (Nat.zero_le _)
      · obtain ⟨big, hbig, hmax⟩ := exists_big _ hz
        obtain ⟨gb, hgb, rfl⟩ := List.mem_map.mp hbig
        refine (SamplesLeL.of (batch_samples order _ _ hbig hmax)).mono ?_
        have hnb : (gReg k gb).claim.nVars ≤ n := by
          obtain ⟨x, hx⟩ := List.exists_mem_of_ne_nil _ (hgs gb hgb).1.1
          rw [gReg_nVars k (hgs gb hgb).1 (hgs gb hgb).2.1 hx]
          exact hb x ((hgs gb hgb).2.2.2 x hx)
        have : (liveGroups k cur).length ≤ ((liveGroups k cur).map List.length).sum := by
          have hz : ∀ l : List (List (ExpItem F)), (∀ g ∈ l, g ≠ []) → l.length ≤ (l.map List.length).sum := by
            intro l
            induction l with
            | nil => simp
            | cons a l ih =>
              intro h
              have h1 := ih fun g hg => h g (by simp [hg])
              have h2 := List.length_pos_iff.mpr (h a (by simp))
              rw [List.length_cons, List.map_cons, List.sum_cons]
              omega
          exact hz _ fun g hg => (hgs g hg).1.1
        rw [List.length_map]
        omega
    · rcases layer_finish order hl ho tail with ⟨e, h, -⟩ | ⟨cur', outs, h, hs, hw, -, -⟩
      · unfold layerRest
        rw [ofExcept_bind, h]
        exact True.intro
      · rw [layerRest_ok checks order left done (same_at hs hl hw) h]
        obtain ⟨g1, g2, g3, -⟩ := next_spec (k := k) hs hw
        refine exp_samples checks order n m left (k + 1) _ _ g1 (g2.trans hm) fun it' hi => ?_
        obtain ⟨it, hi', hsame⟩ := g3 it' hi
        rw [hsame.nVars]
        exact hb it hi'

theorem exp_shape (checks : Bool) (order : EvaluationOrder) (items : List (ExpItem F)) :
    ∀ (left k : Nat) (cur : List (ExpItem F)) (done : List (List (ExpLayerClaim F))), AtLayer k cur →
    done.length = k → (∀ j, k ≤ j → items.flatMap (outShape j) = cur.flatMap (outShape j)) →
    (∀ j layer, done[j]? = some layer → (layer.map fun c => c.evalPoint.length) = items.flatMap (outShape j)) →
    PostL (fun out => out.length = k + left ∧ ∀ j layer, out[j]? = some layer →
        (layer.map fun c => c.evalPoint.length) = items.flatMap (outShape j))
      (expLayers checks order left k (cur.map fun it => it.claim) done)
  | 0, k, cur, done, _, hd, _, hdone => ⟨by omega, hdone⟩
  | left + 1, k, cur, done, hl, hd, hit, hdone => by
    by_cases hne : cur = []
    · rw [hne]
      exact True.intro
    obtain ⟨tail, he⟩ := layer_eq checks order left hne hl done
    rw [he]
    refine PostL.bind (batchVerify_postL order _) fun out ho => ?_
    rcases layer_finish order hl ho tail with ⟨e, h, -⟩ | ⟨cur', outs, h, hs, hw, hsh, -⟩
    · unfold layerRest
      rw [ofExcept_bind, h]
      exact True.intro
    · rw [layerRest_ok checks order left done (same_at hs hl hw) h]
      obtain ⟨g1, -, -, -⟩ := next_spec (k := k) hs hw
      have hnext : ∀ j, k + 1 ≤ j → (nextItems k cur').flatMap (outShape j) = cur.flatMap (outShape j) := by
        intro j hj
        clear hsh h he hdone hit hl hne hw g1 ho
        induction hs with
        | nil => rfl
        | @cons a b l l' hab _ ih =>
          unfold nextItems at ih ⊢
          have hsame : outShape j b = outShape j a := by
            unfold outShape
            rw [hab.outTables, hab.nVars]
          rw [List.flatMap_cons, ← ih, ← hsame]
          by_cases h : k + 1 < b.cols.length
          · rw [List.filter_cons_of_pos (by simpa using h), List.flatMap_cons]
          · rw [List.filter_cons_of_neg (by simpa using h)]
            have : outShape j b = [] := by
              unfold outShape ExpItem.outTables
              rw [if_neg (by omega)]
              rfl
            rw [this, List.nil_append]
      refine (exp_shape checks order items left (k + 1) _ (done ++ [outs]) g1 (by simp [hd])
        (fun j hj => by rw [hnext j hj, hit j (by omega)]) ?_).mono fun out h => ⟨by omega, h.2⟩
      intro j layer hj
      by_cases hjd : j < done.length
      · rw [List.getElem?_append_left hjd] at hj
        exact hdone j layer hj
      · rw [List.getElem?_append_right (by omega)] at hj
        have : j - done.length = 0 := by
          by_contra hc
          rw [List.getElem?_eq_none (by simp; omega)] at hj
          cases hj
        rw [this] at hj
        simp only [List.getElem?_cons_zero, Option.some.injEq] at hj
        rw [← hj, hsh, hit j (by omega), show j = k by omega]

end Verif.Gkr
