import Verif.Piop.LemmasPiopComplete

set_option linter.unusedSectionVars false
set_option linter.dupNamespace false

/-! The verifier accepts what the prover sends. -/

namespace Verif.Piop

open Verif.Mle Verif.Sumcheck Verif.Protocol Finset
open Verif.Piecewise (Piece concat)

variable {F : Type} [Field F] [DecidableEq F]

theorem pbind_ret {A : Type} (p : PP F A) : p.bind .ret = p := by
  induction p with
  | ret a => rfl
  | fail e => rfl
  | write m p ih => simp only [PProg.bind, ih]
  | sample c ih => simp only [PProg.bind, ih]

theorem interleaved_agree {order : EvaluationOrder} {nR digest : Nat} {arities : List Nat} {C : List (Piece F)}
    {commitAt : List F → Option (List F)} {finishProof : List F → PP F Unit} {fri : List (List F) → List F → P F F}
    (hfri : FriComplete nR digest arities C commitAt finishProof fri)
    (all : List (SumcheckProver F × Instance F))
    (hon : ∀ p ∈ all, HonestOrEmpty p.1 p.2 ∧ p.1.evaluationOrder = order)
    (hwf : ∀ p ∈ all, p.2.WellFormed) (hh : ∀ p ∈ all, p.2.Holds)
    (hz : ∀ p ∈ all, p.2.claim.maxIndividualDegree = 0 → p.2.polys = [])
    (hsort : all.Pairwise fun p q => p.2.claim.nVars ≤ q.2.claim.nVars)
    (hmax : ∀ p ∈ all, p.2.claim.nVars ≤ nR) :
    Agree (fun _ (out : FriOutput F) => out.challenges.length = nR ∧
        out.multilinearEvals = (all.map fun p => p.2.tables.map fun t =>
          mle t (arrange order (out.challenges.take p.2.claim.nVars))) ∧
        out.friFinal = mle (message C) out.challenges)
      (proveInterleaved nR commitAt finishProof (all.map Prod.fst))
      (verifyInterleaved nR digest arities fri (all.map fun p => p.2.claim)) := by
  unfold proveInterleaved verifyInterleaved newBatchVerifier
  rw [Verif.Protocol.bind_assoc, List.length_map, List.length_map]
  refine sampleVec_agree _ _ _ fun cs hcs => ?_
  let items : List (Item F) := List.zipWith (fun p c => ⟨p.1, c, p.2⟩) all cs
  have hil : items.length = all.length := by simp [items, hcs]
  have hget : ∀ i (hi : i < items.length), items[i] = ⟨(all[i]'(by omega)).1, cs[i]'(by omega), (all[i]'(by omega)).2⟩ := by
    intro i hi
    simp [items]
  have hmem : ∀ a ∈ items, (a.prover, a.inst) ∈ all := by
    intro a ha
    obtain ⟨i, hi, rfl⟩ := List.getElem_of_mem ha
    rw [hget i hi]
    exact List.getElem_mem _
  have e1 : items.map Item.coeff = cs := by
    refine List.ext_getElem (by simp [hil, hcs]) fun i h1 h2 => ?_
    rw [List.getElem_map, hget]
  have e2 : items.map Item.prover = all.map Prod.fst := by
    refine List.ext_getElem (by simp [hil]) fun i h1 h2 => ?_
    rw [List.getElem_map, hget, List.getElem_map]
  have e3 : items.map Item.inst = all.map Prod.snd := by
    refine List.ext_getElem (by simp [hil]) fun i h1 h2 => ?_
    rw [List.getElem_map, hget, List.getElem_map]
  have e4 : (items.map fun a => a.inst.claim) = all.map fun p => p.2.claim := by
    refine List.ext_getElem (by simp [hil]) fun i h1 h2 => ?_
    rw [List.getElem_map, hget, List.getElem_map]
  have hion : ∀ a ∈ items, HonestOrEmpty a.prover a.inst ∧ a.prover.evaluationOrder = order := fun a ha => hon _ (hmem a ha)
  have hisort : items.Pairwise fun a b => a.inst.claim.nVars ≤ b.inst.claim.nVars := by
    rw [List.pairwise_iff_getElem]
    intro i k hi hk hik
    rw [hget, hget]
    exact List.pairwise_iff_getElem.mp hsort i k _ _ hik
  have hsum : (List.zipWith (fun (claim : Claim F) coeff => batchWeightedValue coeff (claim.sums.map fun s => s.sum))
      (all.map fun p => p.2.claim) cs).sum = (items.map fun a => batchWeightedValue a.coeff a.inst.trues).sum := by
    congr 1
    refine List.ext_getElem (by simp [hil, hcs]) fun i h1 h2 => ?_
    have hi : i < all.length := by simp at h1; omega
    have := holds_iff.mp (hh _ (List.getElem_mem hi))
    simp only [List.getElem_zipWith, List.getElem_map, hget]
    rw [← this]
    rfl
  have hasc : Verif.Sorting.isSortedAscending ((all.map fun p => p.2.claim).map fun c => c.nVars) = true := by
    rw [asc_iff, List.map_map, List.pairwise_map]
    exact hsort
  have hvars : (all.map Prod.fst).map (fun p => p.nVars) = (all.map fun p => p.2.claim).map fun c => c.nVars := by
    rw [List.map_map, List.map_map]
    exact List.map_congr_left fun p hp => (hon p hp).1.nVars
  have hany : mixedOrders (all.map Prod.fst) = false := by
    unfold mixedOrders
    by_cases hne : all = []
    · rw [hne]; rfl
    rw [List.head?_map, List.head?_eq_some_head hne]
    simp only [Option.map_some]
    rw [List.any_eq_false]
    intro p hp
    obtain ⟨q, hq, rfl⟩ := List.mem_map.mp hp
    simp [(hon q hq).2, (hon _ (List.head_mem hne)).2]
  have hzip : (all.map Prod.fst).zip cs = items.map Item.pc := by
    rw [← e2]
    conv_lhs => rw [← e1]
    rw [List.zip_map']
    rfl
  have hpc : items.map Item.coeff = (items.map Item.ci).map Prod.fst := by rw [List.map_map]; rfl
  have hic : (items.map fun a => a.inst.claim) = (items.map Item.ci).map fun a => a.2.claim := by
    rw [List.map_map]; rfl
  unfold newPrebatched
  rw [hvars, hasc]
  simp only [Bool.true_eq_false, if_false, List.length_map, ne_eq, hcs, not_true_eq_false, hany, Bool.false_eq_true]
  rw [hzip, ofExcept_bind]
  simp only
  have hcl := spread_claims (fun c a m h => h) _ _ (zip_forall₂ (items.map Item.ci))
  rw [← hpc, ← hic, e1, e4] at hcl
  refine piopRounds_agree (order := order) (nR := nR) (all := items) hfri.rounds hfri.digest (fun a ha => hwf _ (hmem a ha)) hion
    (fun a ha => hz _ (hmem a ha)) nR [] items [] [] _ _ (by simp) ⟨rfl, rfl, by simp, ?_, rfl, hcl, ?_, hisort, ?_⟩
    (NextOK.first hfri.positive) _ _ ?_
  · show CoeffsOrSum.sum _ = CoeffsOrSum.sum _
    rw [hsum, ftruth_nil, List.map_map]
    rfl
  · refine (spread_degEq _ ?_).1
    intro c hc
    rw [List.zipWith_map_left] at hc
    obtain ⟨i, hi, rfl⟩ := List.getElem_of_mem hc
    simp
  · exact fun a ha => ⟨Nat.zero_le _, hmax _ (hmem a ha)⟩
  · intro done pend evs chs v hlen hinv
    refine piopReady_agree (nR := nR) (fun a ha => hwf _ (hmem a ha)) hion chs _ _ evs done pend v ?_ _ ?_ hinv
    swap
    · have := hinv.claims.length_eq
      rw [List.length_map] at this
      show pend.length < v.claims.length + 1
      omega
    intro e done pend v hinv hlt
    have hp : pend = [] := by
      cases pend with
      | nil => rfl
      | cons a pend =>
        have h1 := hlt a (List.mem_cons_self ..)
        have h2 := hinv.range a (List.mem_cons_self ..)
        omega
    subst hp
    have hcl : v.claims = [] := List.forall₂_nil_right_iff.mp hinv.claims
    rw [ofExcept_bind]
    simp only [BatchVerifier.finish, hcl, hinv.last]
    simp only [List.isEmpty_nil, Bool.true_eq_false, if_false, List.map_nil, ftruth,
      List.sum_nil, ne_eq, not_true_eq_false]
    rw [← pbind_ret (finishProof chs)]
    refine agree_bind (hfri.accepts chs hlen) fun _ y hy => .ret ⟨hlen, ?_, hy⟩
    have hs := hinv.split
    rw [List.append_nil] at hs
    show evs ++ e = _
    rw [hinv.evs, ← hs]
    have : ∀ f : Instance F → List F, (items.map fun a => f a.inst) = all.map fun p => f p.2 := by
      intro f
      rw [show (items.map fun a => f a.inst) = (items.map Item.inst).map f by rw [List.map_map]; rfl, e3, List.map_map]
      rfl
    exact this fun I => I.tables.map fun t => mle t (arrange order (chs.take I.claim.nVars))

/-! ## The descriptions -/

theorem transparentLoop_end : ∀ (ts : List Nat) (cur : Nat) (descs descs' : List (ClaimDesc F)) (N : Nat),
    transparentLoop ts cur descs = some (.ok descs') → (∀ d ∈ descs, d.transparent.2 ≤ N) →
    ∀ d ∈ descs', d.transparent.2 ≤ N + ts.length
  | [], cur, descs, descs', N, h, hd => by
    simp only [transparentLoop, Option.some.injEq, Except.ok.injEq] at h
    subst h
    exact hd
  | t :: ts, cur, descs, descs', N, h, hd => by
    have key : ∀ (i : Nat) (x : ClaimDesc F), x.transparent.2 ≤ N + 1 → ∀ d ∈ descs.set i x, d.transparent.2 ≤ N + 1 := by
      intro i x hx d hm
      rcases List.mem_or_eq_of_mem_set hm with hm | rfl
      · exact (hd d hm).trans (Nat.le_succ _)
      · exact hx
    unfold transparentLoop at h
    split at h
    · cases h
    split at h
    · cases h1 : descs[cur]? with
      | none => rw [h1] at h; cases h
      | some d =>
        rw [h1, Option.bind_some] at h
        cases h2 : descs[t]? with
        | none => rw [h2] at h; cases h
        | some e =>
          rw [h2, Option.bind_some] at h
          have := transparentLoop_end ts _ _ descs' (N + 1) h (key _ _ (Nat.succ_le_succ (hd d (List.mem_of_getElem? h1))))
          intro x hx
          have := this x hx
          rw [List.length_cons]
          omega
    · cases h1 : descs[cur]? with
      | none => rw [h1] at h; cases h
      | some d =>
        rw [h1, Option.bind_some] at h
        have := transparentLoop_end ts _ _ descs' (N + 1) h (key _ _ (Nat.succ_le_succ (hd d (List.mem_of_getElem? h1))))
        intro x hx
        have := this x hx
        rw [List.length_cons]
        omega

theorem claimLoop_end (N : Nat) : ∀ (cs : List (PiopClaim F)) (i : Nat) (descs descs' : List (ClaimDesc F)),
    claimLoop i cs descs = some (.ok descs') → (∀ d ∈ descs, d.transparent.2 ≤ N) → ∀ d ∈ descs', d.transparent.2 ≤ N
  | [], i, descs, descs', h, hd => by
    simp only [claimLoop, Option.some.injEq, Except.ok.injEq] at h
    subst h
    exact hd
  | c :: cs, i, descs, descs', h, hd => by
    unfold claimLoop at h
    cases h1 : descs[c.nVars]? with
    | none => rw [h1] at h; cases h
    | some d =>
      rw [h1, Option.bind_some] at h
      split at h
      · cases h
      split at h
      · cases h
      simp only at h
      split at h
      · refine claimLoop_end N cs _ _ descs' h fun x hx => ?_
        rcases List.mem_or_eq_of_mem_set hx with hx | rfl
        · exact hd x hx
        · exact hd d (List.mem_of_getElem? h1)
      · cases h

theorem descs_transEnd {m : CommitMeta} {ts : List Nat} {claims : List (PiopClaim F)} {descs : List (ClaimDesc F)}
    (h : makeSumcheckClaimDescs m ts claims = some (.ok descs)) : ∀ d ∈ descs, d.transparent.2 ≤ ts.length := by
  unfold makeSumcheckClaimDescs at h
  split at h
  · cases h
  · cases h
  next descs1 h1 =>
  refine claimLoop_end _ _ _ _ _ h ?_
  have := transparentLoop_end ts 0 _ _ 0 h1 (fun d hd => by
    obtain ⟨v, hv⟩ := List.getElem?_of_mem hd
    rw [((initialDescs_ok (F := F) m).2 v d hv).2.1])
  simpa using this

section

variable {m : CommitMeta} {C T : List (Piece F)} {claims : List (PiopClaim F)} {descs : List (ClaimDesc F)}

/-- Checking the evaluations of the transparent polynomials passes for the true ones. -/
theorem verifyTransparent_true {ts : List (Transparent F)} (ht : Transparent.Are ts T) (chs : List F) :
    ∀ ps : List (Nat × ClaimDesc F),
    (∀ p ∈ ps, DescOK C T claims p.1 p.2 ∧ p.1 ≤ chs.length ∧ p.2.transparent.2 ≤ T.length) →
    verifyTransparentEvals ts chs ps (ps.map fun p => (groupOf C T p).1.tables.map fun t => mle t (chs.take p.1).reverse) =
      .ok ((ps.flatMap fun p => (C.drop p.2.committed.1).take p.2.nCommitted).map fun q => mle q.2 (chs.take q.1).reverse)
  | [], _ => rfl
  | p :: ps, h => by
    obtain ⟨hd, hv, he⟩ := h p (List.mem_cons_self ..)
    rw [List.map_cons, verifyTransparentEvals]
    have hlen : ((groupOf C T p).1.tables.map fun t => mle t (chs.take p.1).reverse).length =
        p.2.nCommitted + p.2.nTransparent := by rw [List.length_map]; exact hd.wf.nMultilinears
    have hsl : Transparent.Are ((ts.drop p.2.transparent.1).take p.2.nTransparent)
        ((T.drop p.2.transparent.1).take p.2.nTransparent) := List.forall₂_take _ (List.forall₂_drop _ ht)
    have hfl := hd.nTransparent
    rw [← hd.transparent] at hfl
    rw [if_neg (by omega), if_neg (by omega), if_neg (by rw [ht.length_eq]; omega)]
    have hck : checkTransparents chs p.1 p.2.transparent.1
        (((groupOf C T p).1.tables.map fun t => mle t (chs.take p.1).reverse).drop p.2.nCommitted)
        ((ts.drop p.2.transparent.1).take p.2.nTransparent) = .ok () := by
      refine (checkTransparents_iff chs p.1 hv _ _ _ _ hsl (fun q hq => ?_) ?_).mpr ?_
      · rw [hd.transparent, List.mem_filter] at hq
        simpa using hq.2
      · rw [hsl.length_eq, List.length_drop, ← hfl]; omega
      · rw [← List.map_drop]
        have := hd.take.2
        rw [show (groupOf C T p).1.tables.drop p.2.nCommitted = _ from this, hd.transparent, List.map_map]
        rfl
    rw [hck]
    simp only
    rw [verifyTransparent_true ht chs ps fun q hq => h q (List.mem_cons_of_mem _ hq)]
    simp only [List.flatMap_cons, List.map_append]
    congr 2
    rw [← List.map_take, show (groupOf C T p).1.tables.take p.2.nCommitted = _ from hd.take.1, hd.committed, List.map_map]
    refine List.map_congr_left fun q hq => ?_
    rw [List.mem_filter] at hq
    have : q.1 = p.1 := by simpa using hq.2
    simp [this]

/-- The prover of each description is made. -/
theorem descProver_ok (h2 : (2 : F) = 0) (hc : ∀ c ∈ claims, ClaimHolds C T c) {v : Nat} {d : ClaimDesc F} (hd : DescOK C T claims v d)
    (hne : d.committed.1 < d.committed.2) (he : d.transparent.2 ≤ T.length) :
    ∃ pr, descProver C T (v, d) = .ok pr ∧ HonestOrEmpty pr (groupOf C T (v, d)).1 ∧ pr.evaluationOrder = .highToLow := by
  have hps : Piop.pieces C T (v, d) = (C.drop d.committed.1).take d.nCommitted ++ (T.drop d.transparent.1).take d.nTransparent := rfl
  obtain ⟨s, h1, h3, h4⟩ := C63_honest h2 v d.sums (Piop.pieces C T (v, d)) (fun q hq => by
      rw [hd.pieces, List.mem_append, List.mem_filter, List.mem_filter] at hq
      rcases hq with hq | hq
      · simpa using hq.2
      · simpa using hq.2) (fun s hs => by
      obtain ⟨c, hcm, hcv, hme⟩ := hd.entry s hs
      unfold entryMeaning claimMeaning at hme
      simp only [Prod.mk.injEq] at hme
      obtain ⟨a1, a2⟩ := pieces_left (C := C) (T := T) d v _ _ hme.1 hd.commEnd
      obtain ⟨b1, b2⟩ := pieces_right (C := C) (T := T) d v _ _ hme.2.1 hd.commEnd hd.transEnd
      obtain ⟨p, q, g1, g2, g3⟩ := hc c hcm
      refine ⟨p.2, q.2, ?_, ?_, ?_⟩
      · rw [List.getElem?_map, a1, g1]; rfl
      · rw [List.getElem?_map, b1, g2]; rfl
      · rw [hme.2.2, g3, hcv])
  refine ⟨s.toProver, ?_, h4 _ ⟨rfl, ?_, rfl, rfl⟩, h3⟩
  · unfold descProver
    rw [if_neg, hd.claim]
    · simp only
      rw [← hps, h1]
    · have := hd.commEnd (by unfold ClaimDesc.nCommitted; omega)
      show ¬ (C.length < d.committed.2 ∨ T.length < d.transparent.2)
      omega
  · show (claimOf (v, d)).maxIndividualDegree = _
    have h5 := claimOf_degree (v, d)
    split
    · next hs => simp [Claim.maxIndividualDegree, claimOf, hs]
    · next hs =>
      unfold Claim.maxIndividualDegree claimOf
      simp only [List.map_map]
      cases hsum : d.sums with
      | nil => exact absurd hsum hs
      | cons s l =>
        have : ((s :: l).map ((fun s : CompositeSum F => s.composition.degree) ∘ fun s =>
            (⟨bivComposition (d.nCommitted + d.nTransparent) s.1.1 s.1.2, s.2⟩ : CompositeSum F))) =
            List.replicate (s :: l).length 2 := by
          rw [List.eq_replicate_iff]
          refine ⟨by simp, fun b hb => ?_⟩
          obtain ⟨x, _, rfl⟩ := List.mem_map.mp hb
          rfl
        rw [this]
        simp

/-- The verifier accepts the messages of the prover of true claims. -/
theorem prove_agree (h2 : (2 : F) = 0) {digest : Nat} {arities : List Nat} {commitAt : List F → Option (List F)}
    {finishProof : List F → PP F Unit} {fri : List (List F) → List F → P F F} {ts : List (Transparent F)}
    (h : WellFormed m C T claims) (ht : Transparent.Are ts T) (hc : ∀ c ∈ claims, ClaimHolds C T c)
    (hfri : FriComplete m.totalVars digest arities C commitAt finishProof fri) :
    Agree (fun _ out => out.challenges.length = m.totalVars ∧ FriTrue C out) (prove m commitAt finishProof C T claims)
      (verify m digest arities fri ts claims) := by
  obtain ⟨descs, h1, hl, hd⟩ := descs_ok h
  have hend := descs_transEnd h1
  rw [List.length_map] at hend
  unfold verify prove
  rw [transparent_vars ht, h1]
  simp only
  have hD : ∀ p ∈ nonEmptyDescs descs, DescOK C T claims p.1 p.2 ∧ p.1 ≤ m.totalVars ∧ p.2.transparent.2 ≤ T.length :=
    fun p hp => by
      have hp' := mem_nonEmpty.mp hp
      refine ⟨hd p.1 p.2 hp'.1, ?_, hend _ (List.mem_of_getElem? hp'.1)⟩
      obtain ⟨q, hq, e⟩ := (hd p.1 p.2 hp'.1).nonempty hp'.2
      rw [← e]
      exact h.vars_le q hq
  have hpr : ∀ p ∈ nonEmptyDescs descs, ∃ pr, descProver C T p = .ok pr ∧ HonestOrEmpty pr (groupOf C T p).1 ∧
      pr.evaluationOrder = .highToLow := fun p hp =>
    descProver_ok h2 hc (hD p hp).1 (mem_nonEmpty.mp hp).2 (hD p hp).2.2
  have : Nonempty (SumcheckProver F) := ⟨⟨0, .highToLow, fun _ _ => .error .panic, fun _ => .error .panic⟩⟩
  choose! pr hpr1 hpr2 hpr3 using hpr
  rw [collect_map_ok _ _ pr hpr1, pofExcept_ok rfl, ofExcept_bind, collect_claims (T := T) hd]
  simp only
  have hag := interleaved_agree hfri ((nonEmptyDescs descs).map fun p => (pr p, (groupOf C T p).1)) (order := .highToLow)
    ?_ ?_ ?_ ?_ ?_ ?_
  · rw [List.map_map, List.map_map] at hag
    rw [List.map_map, ← pbind_ret (proveInterleaved _ _ _ _)]
    refine agree_bind hag ?_
    rintro _ out ⟨o1, o2, o3⟩
    have hv := verifyTransparent_true (C := C) (claims := claims) ht out.challenges (nonEmptyDescs descs) fun p hp => by
      rw [o1]; exact hD p hp
    rw [List.map_map] at o2
    rw [o2, ofExcept_bind, show (nonEmptyDescs descs).map _ = _ from rfl]
    have hv' : verifyTransparentEvals ts out.challenges (nonEmptyDescs descs) ((nonEmptyDescs descs).map
        ((fun p : SumcheckProver F × Instance F => p.2.tables.map fun t =>
          mle t (arrange .highToLow (out.challenges.take p.2.claim.nVars))) ∘ fun p => (pr p, (groupOf C T p).1))) = _ := hv
    rw [hv']
    simp only
    rw [committed_flatMap h hl hd, ofExcept_bind]
    unfold checkPiecewise
    rw [piecewise_eval h hl hd out.challenges _ o1 (by rw [List.length_map])]
    simp only
    have hzero : mle (concat ((C.zip (C.map fun q => mle q.2 (out.challenges.take q.1).reverse)).map
        (devPiece out.challenges)).reverse) out.challenges = 0 := by
      refine Eq.trans (mle_congr (w := fun _ => 0) fun i _ => ?_) (mle_zero _)
      have : ∀ (D : List (Piece F)) (x : Nat), (∀ p ∈ D, p.2 = fun _ => 0) → concat D x = 0 := by
        intro D
        induction D with
        | nil => intro x _; rfl
        | cons p D ih =>
          intro x hD
          rw [concat, hD p (List.mem_cons_self ..)]
          split
          · rfl
          · exact ih _ fun q hq => hD q (List.mem_cons_of_mem _ hq)
      refine this _ _ fun p hp => ?_
      rw [List.mem_reverse, List.mem_map] at hp
      obtain ⟨x, hx, rfl⟩ := hp
      obtain ⟨i, hi, rfl⟩ := List.getElem_of_mem hx
      unfold devPiece
      simp
    rw [hzero, add_zero, if_neg (by rw [o3]; simp)]
    exact .ret ⟨o1, o3⟩
  · intro q hq
    obtain ⟨p, hp, rfl⟩ := List.mem_map.mp hq
    exact ⟨hpr2 p hp, hpr3 p hp⟩
  · intro q hq
    obtain ⟨p, hp, rfl⟩ := List.mem_map.mp hq
    exact (hD p hp).1.wf
  · intro q hq
    obtain ⟨p, hp, rfl⟩ := List.mem_map.mp hq
    exact (hD p hp).1.holds.mpr fun c hcm _ => hc c hcm
  · intro q hq h0
    obtain ⟨p, hp, rfl⟩ := List.mem_map.mp hq
    show p.2.sums.map _ = []
    rw [(claimOf_degree p).2 h0, List.map_nil]
  · rw [List.pairwise_map]
    exact (nonEmpty_lt descs).imp fun h => Nat.le_of_lt h
  · intro q hq
    obtain ⟨p, hp, rfl⟩ := List.mem_map.mp hq
    exact (hD p hp).2.1

end

end Verif.Piop
