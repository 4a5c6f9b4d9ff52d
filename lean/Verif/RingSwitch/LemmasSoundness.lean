import Verif.RingSwitch.LemmasVerify

/-! Soundness of ring switching. -/

set_option linter.dupNamespace false
set_option linter.unusedSectionVars false

namespace Verif.RingSwitch

open Finset Verif.Mle Verif.Protocol
open Verif.Oracle (OracleSet)
open Verif.Piop (SparseIndex CommitMeta PiopClaim isCommitted)
open Verif.Evalcheck (Claim)

variable {F : Type} [Field F] [DecidableEq F]
variable {os : OracleSet F} {index : SparseIndex Nat} {sys : System F} {items : List (Item F)}

theorem SysOk.suffix (hs : SysOk os index sys items) {i : Nat} (hi : i < items.length) :
    sys.suffixes[(itemAt items i).desc.suffixIdx]? = some ⟨(itemAt items i).suf, (itemAt items i).kappa⟩ :=
  (hs.item _ (itemAt_mem items hi)).2.1.1

theorem SysOk.prefix (hs : SysOk os index sys items) {i : Nat} (hi : i < items.length) :
    sys.prefixes[(itemAt items i).prefixIdx]? = some (itemAt items i).pre :=
  (hs.item _ (itemAt_mem items hi)).2.1.2

theorem makeEqInds_ok (suffixes : List (SuffixDesc F)) (rows : List F) : ∀ (l : List (ClaimDesc F × F)) (ps : List (EqInd F)),
    makeEqInds suffixes rows l = .ok ps → ps.length = l.length ∧
      ∀ (i : Nat) (d : ClaimDesc F) (m : F) (s : SuffixDesc F), l[i]? = some (d, m) → suffixes[d.suffixIdx]? = some s → ∃ lv : Level, lv.kappa = s.kappa ∧
        2 ^ lv.kappa ≤ rows.length ∧ ps[i]? = some ⟨lv, s.suffix, rows, m⟩
  | [], ps, h => by
    injection h with h
    subst h
    simp
  | (d, m) :: l, ps, h => by
    rw [makeEqInds] at h
    cases hsd : suffixes[d.suffixIdx]? with
    | none => rw [hsd] at h; cases h
    | some s =>
      rw [hsd] at h
      dsimp only at h
      unfold makeEqInd at h
      cases hl : levelOf s.kappa with
      | error e => rw [hl] at h; cases h
      | ok lv =>
        rw [hl] at h
        dsimp only at h
        unfold EqInd.new at h
        by_cases hr : rows.length < 2 ^ lv.kappa
        · rw [if_pos hr] at h; cases h
        rw [if_neg hr] at h
        dsimp only at h
        cases hrest : makeEqInds suffixes rows l with
        | error e => rw [hrest] at h; cases h
        | ok ps' =>
          rw [hrest] at h
          injection h with h
          obtain ⟨h1, h2⟩ := makeEqInds_ok suffixes rows l ps' hrest
          subst h
          refine ⟨by rw [List.length_cons, List.length_cons, h1], fun i d' m' s' hi hs' => ?_⟩
          cases i with
          | zero =>
            rw [List.getElem?_cons_zero] at hi
            injection hi with hi
            injection hi with hd hm
            subst hd hm
            rw [hsd] at hs'
            injection hs' with hs'
            subst hs'
            exact ⟨lv, kappa_of_levelOf hl, by omega, rfl⟩
          | succ i =>
            rw [List.getElem?_cons_succ] at hi ⊢
            exact h2 i d' m' s' hi hs'

theorem makeClaims_ok (suffixes : List (SuffixDesc F)) : ∀ (l : List (ClaimDesc F × F)) (k : Nat) (cs : List (PiopClaim F)),
    makeClaims suffixes k l = .ok cs → cs.length = l.length ∧
      ∀ (i : Nat) (d : ClaimDesc F) (e : F) (s : SuffixDesc F), l[i]? = some (d, e) → suffixes[d.suffixIdx]? = some s →
        cs[i]? = some ⟨s.suffix.length, d.committedIdx, k + i, e⟩
  | [], k, cs, h => by
    injection h with h
    subst h
    simp
  | (d, e) :: l, k, cs, h => by
    rw [makeClaims] at h
    cases hsd : suffixes[d.suffixIdx]? with
    | none => rw [hsd] at h; cases h
    | some s =>
      rw [hsd] at h
      dsimp only at h
      cases hrest : makeClaims suffixes (k + 1) l with
      | error e => rw [hrest] at h; cases h
      | ok cs' =>
        rw [hrest] at h
        injection h with h
        obtain ⟨h1, h2⟩ := makeClaims_ok suffixes l (k + 1) cs' hrest
        subst h
        refine ⟨by rw [List.length_cons, List.length_cons, h1], fun i d' e' s' hi hs' => ?_⟩
        cases i with
        | zero =>
          rw [List.getElem?_cons_zero] at hi
          injection hi with hi
          injection hi with hd hm
          subst hd hm
          rw [hsd] at hs'
          injection hs' with hs'
          subst hs'
          rfl
        | succ i =>
          rw [List.getElem?_cons_succ] at hi ⊢
          rw [h2 i d' e' s' hi hs']
          congr 2
          omega

theorem checkRows_true (tw : Tower F) (rows : List F) : ∀ l : List (F × TElem F), checkRows tw rows l = true ↔
    ∀ p ∈ l, p.2.fold tw rows = p.1
  | [] => by simp [checkRows]
  | (e, t) :: l => by
    rw [checkRows]
    by_cases h : t.fold tw rows ≠ e
    · rw [if_pos h]
      refine ⟨fun hh => by simp at hh, fun hh => absurd (hh (e, t) List.mem_cons_self) h⟩
    · rw [if_neg h, checkRows_true tw rows l]
      have h := not_not.1 h
      refine ⟨fun hh p hp => ?_, fun hh p hp => hh p (List.mem_cons_of_mem _ hp)⟩
      rcases List.mem_cons.1 hp with rfl | hp
      · exact h
      · exact hh p hp

/-- The value of a true sumcheck claim. -/
theorem sumTrue_value (h2 : ∀ x : F, x + x = 0) {tw : Tower F} (hl : tw.Lawful) (polys : Nat → Nat → F)
    (ps : List (EqInd F)) (lv : Level) (suf rows : List F) (m : F) (hco : 2 ^ lv.kappa ≤ rows.length) (c i : Nat) (e : F)
    (hp : ps[i]? = some ⟨lv, suf, rows, m⟩) (hst : SumTrue tw polys ps ⟨suf.length, c, i, e⟩) :
    e = foldFun (tw lv) lv.kappa (fun w => m * partialTable (tw lv) suf (polys c) w) fun v => rows[v]?.getD 0 := by
  obtain ⟨p, A, h3, h4, h5⟩ := hst
  rw [hp] at h3
  injection h3 with h3
  subst h3
  rw [foldFun_partialTable (hl lv)]
  refine h5.symm.trans ?_
  refine sum_congr rfl fun u hu => ?_
  have := h4 u (mem_range.1 hu)
  rw [evaluate_eq h2 hl _ hco _ (vertex_length _ _), mle_vertex _ _ _ (mem_range.1 hu)] at this
  injection this with this
  show _ * A u = _
  rw [← this]
  rfl

/-- What `finishVerify` guarantees when all its sumcheck claims are true. -/
theorem finishVerify_sound (h2 : ∀ x : F, x + x = 0) {tw : Tower F} (hl : tw.Lawful) (hs : SysOk os index sys items)
    (polys : Nat → Nat → F) (N : Nat) (hN : items.length ≤ N) (w : Nat → F) (rows : List F) (ts : List (TElem F))
    (hts : ts.length = sys.prefixes.length) (evals : List F) (hev : evals.length = items.length) (red : Reduced F)
    (h : finishVerify tw sys ((List.range N).map w) rows ts evals = .ok red)
    (hall : ∀ s ∈ red.claims, SumTrue tw polys red.transparents s) (j : Nat) (t : TElem F) (pre : List F)
    (htj : ts[j]? = some t) (hpj : sys.prefixes[j]? = some pre) (hk : t.level.kappa = pre.length)
    (hrows : 2 ^ t.level.kappa ≤ rows.length) :
    foldFun (tw t.level) t.level.kappa t.elem (fun v => rows[v]?.getD 0) =
      foldFun (tw t.level) t.level.kappa (fun x => ∑ i ∈ range items.length, if (itemAt items i).prefixIdx = j then
        w i * partialTable (tw t.level) (itemAt items i).suf (polys (itemAt items i).committed) x else 0)
        (fun v => rows[v]?.getD 0) := by
  obtain ⟨y, rfl⟩ : ∃ y : Nat → F, evals = (List.range items.length).map y :=
    ⟨fun i => evals[i]?.getD 0, by rw [← hev]; exact list_eq_map_range evals 0⟩
  unfold finishVerify at h
  rw [hs.accumulate_eq] at h
  dsimp only at h
  by_cases hcr : checkRows tw rows (((List.range sys.prefixes.length).map fun j =>
      ∑ i ∈ range items.length, if (itemAt items i).prefixIdx = j then y i else 0).zip ts) = false
  · rw [if_pos hcr] at h; cases h
  rw [if_neg hcr, hs.zip_eq N hN, hs.zip_eq items.length le_rfl] at h
  have hcr := (checkRows_true tw rows _).1 (by simpa using hcr)
  cases hps : makeEqInds sys.suffixes rows ((List.range items.length).map fun i => ((itemAt items i).desc, w i)) with
  | error e => rw [hps] at h; cases h
  | ok ps =>
    rw [hps] at h
    dsimp only at h
    cases hcs : makeClaims sys.suffixes 0 ((List.range items.length).map fun i => ((itemAt items i).desc, y i)) with
    | error e => rw [hcs] at h; cases h
    | ok cs =>
      rw [hcs] at h
      injection h with h
      subst h
      dsimp only at hall
      obtain ⟨-, hps'⟩ := makeEqInds_ok _ _ _ _ hps
      obtain ⟨-, hcs'⟩ := makeClaims_ok _ _ _ _ hcs
      obtain ⟨hjl, hpj'⟩ := List.getElem?_eq_some_iff.1 hpj
      obtain ⟨hjt, htj'⟩ := List.getElem?_eq_some_iff.1 htj
      have hrow := hcr ((∑ i ∈ range items.length, if (itemAt items i).prefixIdx = j then y i else 0), t) (by
        rw [List.mem_iff_getElem]
        refine ⟨j, by simp [hjl, hjt], ?_⟩
        simp [htj'])
      rw [show t.fold tw rows = foldFun (tw t.level) t.level.kappa t.elem fun v => rows[v]?.getD 0 from
        foldVertical_eq _ _ _ _ hrows] at hrow
      dsimp only at hrow
      rw [hrow, (hl t.level).foldFun_sum (range items.length) (fun i x => if (itemAt items i).prefixIdx = j then
        w i * partialTable (tw t.level) (itemAt items i).suf (polys (itemAt items i).committed) x else 0)]
      refine sum_congr rfl fun i hi => ?_
      have hi := mem_range.1 hi
      by_cases hpi : (itemAt items i).prefixIdx = j
      · simp only [if_pos hpi]
        obtain ⟨lv, hlv, hco, hp⟩ := hps' i (itemAt items i).desc (w i) _ (by simp [hi]) (hs.suffix hi)
        have hc := hcs' i (itemAt items i).desc (y i) _ (by simp [hi]) (hs.suffix hi)
        have hpre : (itemAt items i).pre = pre := by
          have := hs.prefix hi
          rw [hpi, hpj] at this
          injection this with this
          exact this.symm
        have hlev : lv = t.level := kappa_injective (by
          rw [hlv, hk, ← hpre, Item.pre_length])
        subst hlev
        rw [Nat.zero_add] at hc
        exact sumTrue_value h2 hl polys ps _ _ rows _ hco _ i _ hp (hall _ (List.mem_of_getElem? hc))
      · simp only [if_neg hpi]
        unfold foldFun
        symm
        refine sum_eq_zero fun v _ => ?_
        unfold transpose
        rw [sum_eq_zero, zero_mul]
        intro x _
        rw [(hl t.level).coord_zero, zero_mul]

/-- Soundness on the items. -/
theorem verify_sound (h2 : ∀ x : F, x + x = 0) {tw : Tower F} (hl : tw.Lawful) (hs : SysOk os index sys items)
    (polys : Nat → Nat → F) (x : Item F) (hx : x ∈ items) (hfalse : ¬ ClaimTrue tw os index polys x.claim) :
    SoundErr (fun red => ∀ s ∈ red.claims, SumTrue tw polys red.transparents s) (verify tw sys)
      (log2Ceil sys.claims.length + sys.maxKappa) := by
  obtain ⟨i0, hi0, rfl⟩ : ∃ i0 < items.length, itemAt items i0 = x := by
    obtain ⟨i, hi, e⟩ := List.mem_iff_getElem.1 hx
    exact ⟨i, hi, by unfold itemAt; rw [List.getElem?_eq_getElem hi]; exact e⟩
  obtain ⟨⟨o, ho, hcm, htl, hkap⟩, -, hidx⟩ := hs.item _ hx
  have hpre0 := hs.prefix hi0
  have hkm : (itemAt items i0).kappa ≤ sys.maxKappa := by
    rw [← Item.pre_length]
    exact le_maxKappa sys _ (List.mem_of_getElem? hpre0)
  have hN : items.length ≤ 2 ^ log2Ceil sys.claims.length := by rw [hs.length]; exact le_log2Ceil _
  unfold verify
  by_cases hlv : ∃ lv : Level, lv.kappa = (itemAt items i0).kappa
  · obtain ⟨lv, hlv⟩ := hlv
    have hval : mle (unpacked (tw lv) lv.kappa (polys (itemAt items i0).committed)) (itemAt items i0).claim.point ≠
        (itemAt items i0).claim.eval := fun h =>
      hfalse ⟨o, _, lv, ho, hidx, towerLevel_of_kappa lv _ htl (by rw [hlv, hkap]), h⟩
    have herr := sampleVec_err (log2Ceil sys.claims.length) (fun i => if i < items.length ∧
        (itemAt items i).prefixIdx = (itemAt items i0).prefixIdx then (itemAt items i).claim.eval -
          mle (partialTable (tw lv) (itemAt items i).suf (polys (itemAt items i).committed)) (itemAt items i0).pre
        else 0) ⟨i0, by omega, by
          rw [if_pos ⟨hi0, rfl⟩]
          intro h
          apply hval
          rw [← mle_partialTable, hlv]
          exact (sub_eq_zero.1 h).symm⟩
    refine soundErr_bind herr (sampleVec_post _) fun r hr hmle => ?_
    rw [expandQuery_eq, hr]
    show SoundErr _ ((receiveTensorElems sys _).bind _) _
    refine soundErr_through (hs.receive_post _ hN _) fun ts hts => ?_
    obtain ⟨htl', hts⟩ := hts
    obtain ⟨hjl, -⟩ := List.getElem?_eq_some_iff.1 hpre0
    obtain ⟨t, ht⟩ : ∃ t, ts[(itemAt items i0).prefixIdx]? = some t :=
      ⟨_, List.getElem?_eq_getElem (by omega)⟩
    obtain ⟨htk, htm⟩ := hts _ _ _ hpre0 ht
    have htl2 : t.level = lv := kappa_injective (by rw [htk, Item.pre_length, hlv])
    obtain ⟨v0, hv0, hne⟩ : ∃ v < 2 ^ lv.kappa, transpose (tw lv) lv.kappa t.elem v - transpose (tw lv) lv.kappa
        (fun x => ∑ i ∈ range items.length, if (itemAt items i).prefixIdx = (itemAt items i0).prefixIdx then
          eqWeight r i * partialTable (tw lv) (itemAt items i).suf (polys (itemAt items i).committed) x else 0) v ≠ 0 := by
      by_contra hall
      push Not at hall
      apply hmle
      have heq : ∀ x < 2 ^ lv.kappa, t.elem x = ∑ i ∈ range items.length,
          if (itemAt items i).prefixIdx = (itemAt items i0).prefixIdx then
          eqWeight r i * partialTable (tw lv) (itemAt items i).suf (polys (itemAt items i).committed) x else 0 := by
        intro x hx
        rw [← (hl lv).transpose_transpose t.elem hx, ← (hl lv).transpose_transpose (fun x =>
          ∑ i ∈ range items.length, if (itemAt items i).prefixIdx = (itemAt items i0).prefixIdx then
          eqWeight r i * partialTable (tw lv) (itemAt items i).suf (polys (itemAt items i).committed) x else 0) hx]
        exact transpose_congr _ _ (fun v hv => sub_eq_zero.1 (hall v hv)) x
      have hm2 : mle t.elem (itemAt items i0).pre = ∑ i ∈ range items.length,
          if (itemAt items i).prefixIdx = (itemAt items i0).prefixIdx then eqWeight r i *
          mle (partialTable (tw lv) (itemAt items i).suf (polys (itemAt items i).committed)) (itemAt items i0).pre
          else 0 := by
        rw [mle_congr (fun x hx => heq x (by rw [hlv, ← Item.pre_length]; exact hx)), mle_sum]
        refine sum_congr rfl fun i _ => ?_
        by_cases hp : (itemAt items i).prefixIdx = (itemAt items i0).prefixIdx
        · simp only [if_pos hp]
          exact mle_smul _ _ _
        · simp only [if_neg hp]
          exact mle_zero _
      rw [htm] at hm2
      rw [mle_eq_sum, hr, ← sum_subset (range_subset_range.2 hN)]
      · rw [← sub_eq_zero, ← sum_sub_distrib] at hm2
        refine Eq.trans ?_ hm2
        refine sum_congr rfl fun i hi => ?_
        by_cases hp : (itemAt items i).prefixIdx = (itemAt items i0).prefixIdx
        · simp only [if_pos hp, if_pos (show i < items.length ∧ _ from ⟨mem_range.1 hi, hp⟩)]
          ring
        · rw [if_neg hp, if_neg hp, if_neg (fun h => hp h.2), mul_zero, sub_zero]
      · intro i _ hi
        rw [if_neg (fun h => hi (mem_range.2 h.1)), mul_zero]
    have herr2 := sampleVec_err sys.maxKappa (fun v => if v < 2 ^ lv.kappa then
        transpose (tw lv) lv.kappa t.elem v - transpose (tw lv) lv.kappa
        (fun x => ∑ i ∈ range items.length, if (itemAt items i).prefixIdx = (itemAt items i0).prefixIdx then
          eqWeight r i * partialTable (tw lv) (itemAt items i).suf (polys (itemAt items i).committed) x else 0) v
        else 0) ⟨v0, hv0.trans_le (Nat.pow_le_pow_right (by decide) (by omega)), by rw [if_pos hv0]; exact hne⟩
    have hle : 2 ^ lv.kappa ≤ 2 ^ sys.maxKappa := Nat.pow_le_pow_right (by decide) (by omega)
    refine SoundErr.mono (ε := sys.maxKappa + 0) ?_ le_rfl
    refine soundErr_bind herr2 (sampleVec_post _) fun rho hrho hmle2 => ?_
    rw [expandQuery_eq, hrho]
    show SoundErr _ (.read _ _) _
    refine .read fun evals hev => ?_
    refine soundErr_of_post _ (Post.ofExcept fun red hred hall => hmle2 ?_)
    subst htl2
    have hfin := finishVerify_sound h2 hl hs polys _ hN _ _ ts htl' evals (by rw [hev, hs.length]) red hred hall _ t _ ht
      hpre0 htk (by simpa using hle)
    rw [← sub_eq_zero] at hfin
    unfold foldFun at hfin
    rw [← sum_sub_distrib] at hfin
    rw [mle_eq_sum, hrho, ← sum_subset (range_subset_range.2 hle)]
    · refine Eq.trans ?_ hfin
      refine sum_congr rfl fun v hv => ?_
      have hv := mem_range.1 hv
      dsimp only
      rw [if_pos hv, List.getElem?_map, List.getElem?_range (by omega)]
      simp only [Option.map_some, Option.getD_some]
      ring
    · intro v _ hv
      rw [if_neg (fun h => hv (mem_range.2 h)), mul_zero]
  · refine soundErr_of_post _ ?_
    refine Post.bind (sampleVec_post _) fun r hr => ?_
    rw [expandQuery_eq, hr]
    show Post _ ((receiveTensorElems sys _).bind _)
    refine Post.bind (hs.receive_post _ hN _) fun ts hts => ?_
    exfalso
    obtain ⟨htl', hts⟩ := hts
    obtain ⟨hjl, -⟩ := List.getElem?_eq_some_iff.1 hpre0
    obtain ⟨t, ht⟩ : ∃ t, ts[(itemAt items i0).prefixIdx]? = some t :=
      ⟨_, List.getElem?_eq_getElem (by omega)⟩
    obtain ⟨htk, -⟩ := hts _ _ _ hpre0 ht
    exact hlv ⟨t.level, by rw [htk, Item.pre_length]⟩

theorem samplesLe_ofExcept {A : Type} (e : Except RsError A) : (Prog.ofExcept (F := F) e).SamplesLe 0 := by
  cases e <;> trivial

theorem samplesLe_receiveLoop : ∀ l : List (List F × F), (receiveLoop l).SamplesLe 0
  | [] => trivial
  | (pre, e) :: l => by
    rw [receiveLoop]
    intro m
    rw [← Nat.add_zero 0]
    refine samplesLe_bind (samplesLe_ofExcept _) fun t => ?_
    rw [← Nat.add_zero 0]
    refine samplesLe_bind (samplesLe_ofExcept _) fun e' => ?_
    split
    · trivial
    · rw [← Nat.add_zero 0]
      exact samplesLe_bind (samplesLe_receiveLoop l) fun ts => True.intro

theorem samplesLe_receive (sys : System F) (mix : List F) : (receiveTensorElems sys mix).SamplesLe 0 := by
  unfold receiveTensorElems
  rw [← Nat.add_zero 0]
  exact samplesLe_bind (samplesLe_ofExcept _) fun _ => samplesLe_receiveLoop _

/-- The number of challenges. -/
theorem verify_samples (tw : Tower F) (sys : System F) :
    (verify tw sys).SamplesLe (log2Ceil sys.claims.length + sys.maxKappa) := by
  unfold verify
  refine samplesLe_bind (samplesLe_sampleVec _) fun r => ?_
  refine samplesLe_mono (N := 0 + (0 + (sys.maxKappa + (0 + 0)))) ?_ (by omega)
  refine samplesLe_bind (samplesLe_ofExcept _) fun mix => ?_
  refine samplesLe_bind (samplesLe_receive _ _) fun ts => ?_
  refine samplesLe_bind (samplesLe_sampleVec _) fun rho => ?_
  exact samplesLe_bind (samplesLe_ofExcept _) fun rows m => samplesLe_ofExcept _

end Verif.RingSwitch
