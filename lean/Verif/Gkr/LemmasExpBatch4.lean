import Verif.Gkr.LemmasExpBatch3
import Verif.Gkr.LemmasGpa4

/-! Completeness of the batched exponentiation. -/

set_option linter.dupNamespace false
set_option linter.unusedSectionVars false

namespace Verif.Gkr

open Verif.Mle Verif.Protocol Verif.Sumcheck Finset

variable {F : Type} [Field F] [DecidableEq F]

/-- A prover and the item it proves. -/
def Backs (q : ExpProver F × ExpItem F) : Prop := q.1.claim = q.2.claim ∧ q.1.witness.Fits q.2

/-- A column holds a table. -/
def SameTable (n : Nat) (m : Column F) (t : Nat → F) : Prop := m.nVars = n ∧ ∀ v < 2 ^ n, m.val v = t v

theorem multilinears_ok {k : Nat} {q : ExpProver F × ExpItem F} (h : Backs q) (hw : q.2.WellFormed)
    (hk : k < q.2.cols.length) :
    ∃ ms, q.1.multilinears k = some ms ∧ List.Forall₂ (SameTable q.2.claim.nVars) ms (q.2.layerTables k) := by
  obtain ⟨p, it⟩ := q
  obtain ⟨hc, hf⟩ := h
  simp only at hc hf hw hk ⊢
  obtain ⟨bit, hbit⟩ := exists_bit it k hk
  have hbv := bit_of hbit
  have hmem : bit ∈ it.cols := List.mem_of_getElem? hbit
  have hbs : SameTable it.claim.nVars bit (it.bit k) := ⟨(hw.bits bit hmem).1, fun v _ => by rw [hbv]⟩
  have hdata : k + 1 ≠ it.cols.length → ∃ d, p.layerData k = some d ∧
      SameTable it.claim.nVars d (it.power (k + 1)) := by
    intro hne
    have hi : it.cols.length - k - 2 < p.witness.layers.length := by rw [hf.length]; omega
    obtain ⟨l1, l2⟩ := hf.layers _ _ (List.getElem?_eq_getElem hi)
    refine ⟨_, ?_, l1, fun v hv => (l2 v hv).trans ?_⟩
    · unfold ExpProver.layerData
      rw [if_pos (by rw [hf.length]; omega), hf.length, List.getElem?_eq_getElem hi]
    · unfold ExpItem.power
      cases it.claim.staticBase with
      | some g => simp only; rw [show it.cols.length - k - 2 + 1 = it.cols.length - (k + 1) by omega]
      | none => simp only; rw [show it.cols.length - 1 - (it.cols.length - k - 2) = k + 1 by omega]
  unfold ExpProver.multilinears isLastLayer ExpItem.layerTables
  rw [hf.exponent, if_pos (by omega), Option.bind_some]
  cases hs : it.claim.staticBase with
  | some g =>
    rw [hs] at hbit
    obtain ⟨e1, e2⟩ := hf.static g hs
    rw [e1]
    simp only
    by_cases hl : k + 1 = it.cols.length
    · rw [if_pos (by simp only [decide_eq_true_eq]; omega), if_pos hl]
      exact ⟨[], rfl, .nil⟩
    · obtain ⟨d, d1, d2⟩ := hdata hl
      have hb' : it.cols[it.cols.length - 1 - k]? = some bit := hbit
      rw [if_neg (by simp only [decide_eq_true_eq]; omega), if_neg hl, d1, Option.bind_some, hb']
      exact ⟨[d, bit], rfl, .cons d2 (.cons hbs .nil)⟩
  | none =>
    rw [hs] at hbit
    obtain ⟨b, e1, e2, e3⟩ := hf.dynamic hs
    have hb' : it.cols[k]? = some bit := hbit
    rw [e1]
    simp only
    rw [hb', Option.bind_some]
    by_cases hl : k + 1 = it.cols.length
    · rw [if_pos (by simp only [decide_eq_true_eq]; omega), if_pos hl]
      exact ⟨[b, bit], rfl, .cons ⟨e2, e3⟩ (.cons hbs .nil)⟩
    · obtain ⟨d, d1, d2⟩ := hdata hl
      rw [if_neg (by simp only [decide_eq_true_eq]; omega), if_neg hl, d1]
      exact ⟨[d, bit, b], rfl, .cons d2 (.cons hbs (.cons ⟨e2, e3⟩ .nil))⟩

/-- The multilinears of a group of provers. -/
def gCols (k : Nat) (g : List (ExpProver F × ExpItem F)) : List (Column F) :=
  g.flatMap fun q => (q.1.multilinears k).getD []

/-- The items of a group. -/
abbrev its (g : List (ExpProver F × ExpItem F)) : List (ExpItem F) := g.map Prod.snd

theorem its_cons (q : ExpProver F × ExpItem F) (g : List (ExpProver F × ExpItem F)) : its (q :: g) = q.2 :: its g := rfl

theorem filt_pos {k : Nat} {g : List (ExpProver F × ExpItem F)} (h : live k (its g) = true)
    (l : List (List (ExpProver F × ExpItem F))) :
    (g :: l).filter (fun g => live k (its g)) = g :: l.filter fun g => live k (its g) :=
  List.filter_cons_of_pos (p := fun g => live k (its g)) h

theorem filt_neg {k : Nat} {g : List (ExpProver F × ExpItem F)} (h : ¬ live k (its g) = true)
    (l : List (List (ExpProver F × ExpItem F))) :
    (g :: l).filter (fun g => live k (its g)) = l.filter fun g => live k (its g) :=
  List.filter_cons_of_neg (p := fun g => live k (its g)) h

theorem gCols_tables {k n : Nat} : ∀ {g : List (ExpProver F × ExpItem F)}, (∀ q ∈ g, Backs q) → AtLayer k (its g) →
    (∀ q ∈ g, q.2.claim.nVars = n) → List.Forall₂ (SameTable n) (gCols k g) (gTables k (its g))
  | [], _, _, _ => .nil
  | q :: g, hb, hl, hn => by
    obtain ⟨hw, hk⟩ := hl q.2 (by simp)
    obtain ⟨ms, e1, e2⟩ := multilinears_ok (hb q (by simp)) hw hk
    have ih := gCols_tables (k := k) (n := n) (g := g) (fun x hx => hb x (by simp [hx])) hl.tail
      fun x hx => hn x (by simp [hx])
    unfold gCols gTables at ih ⊢
    rw [List.flatMap_cons, its_cons, List.flatMap_cons, e1]
    rw [hn q (by simp)] at e2
    exact List.rel_append e2 ih

theorem gCols_length {k : Nat} : ∀ {g : List (ExpProver F × ExpItem F)}, (∀ q ∈ g, Backs q) → AtLayer k (its g) →
    (gCols k g).length = (gTables k (its g)).length
  | [], _, _ => rfl
  | q :: g, hb, hl => by
    obtain ⟨hw, hk⟩ := hl q.2 (by simp)
    obtain ⟨ms, e1, e2⟩ := multilinears_ok (hb q (by simp)) hw hk
    have ih := gCols_length (k := k) (g := g) (fun x hx => hb x (by simp [hx])) hl.tail
    unfold gCols gTables at ih ⊢
    rw [List.flatMap_cons, its_cons, List.flatMap_cons, e1, List.length_append, List.length_append, ih,
      ← e2.length_eq]
    rfl

theorem map_claims {g : List (ExpProver F × ExpItem F)} (hb : ∀ q ∈ g, Backs q) :
    (g.map Prod.fst).map ExpProver.claim = (its g).map fun it => it.claim := by
  rw [List.map_map, List.map_map]
  exact List.map_congr_left fun q hq => (hb q hq).1

theorem proverGroup_ok (checks : Bool) {k : Nat} (n : Nat) : ∀ {g : List (ExpProver F × ExpItem F)} (off : Nat),
    (∀ q ∈ g, Backs q) → AtLayer k (its g) → off + (gTables k (its g)).length ≤ n →
    proverGroup checks k n (g.map Prod.fst) off = .ok (gSums k n (its g) off, gCols k g)
  | [], _, _, _, _ => rfl
  | q :: g, off, hb, hl, hn => by
    obtain ⟨hw, hk⟩ := hl q.2 (by simp)
    obtain ⟨ms, e1, e2⟩ := multilinears_ok (hb q (by simp)) hw hk
    have hlen : (gTables k (its (q :: g))).length = (q.2.layerTables k).length + (gTables k (its g)).length := by
      simp [gTables]
    rw [List.map_cons, proverGroup, (hb q (by simp)).1, layerCompositeSum_ok checks hw hk n off (by omega)]
    dsimp only
    rw [e1]
    dsimp only
    rw [proverGroup_ok checks n (off + ms.length) (fun x hx => hb x (by simp [hx])) hl.tail (by
      rw [e2.length_eq]; omega)]
    dsimp only
    rw [e2.length_eq]
    unfold gCols
    rw [List.flatMap_cons, e1]
    rfl

theorem gSums_nil {k n : Nat} : ∀ (g : List (ExpItem F)) (off : Nat), gTables k g = [] → gSums k n g off = []
  | [], _, _ => rfl
  | it :: g, off, h => by
    unfold gTables at h
    rw [List.flatMap_cons, List.append_eq_nil_iff] at h
    rw [gSums, layerTables_nil.mp h.1, gSums_nil g _ h.2]
    rfl

theorem proverBuildGroup_ok (checks : Bool) {k : Nat} {g : List (ExpProver F × ExpItem F)} (hb : ∀ q ∈ g, Backs q)
    (hl : AtLayer k (its g)) :
    proverBuildGroup checks k (g.map Prod.fst) = .ok (gSums k (gTables k (its g)).length (its g) 0, gCols k g) ∧
      (gSums k (gTables k (its g)).length (its g) 0).isEmpty = !live k (its g) := by
  constructor
  · unfold proverBuildGroup
    rw [map_claims hb, groupNMultilinears_ok hl]
    exact proverGroup_ok checks _ 0 hb hl (by omega)
  · unfold live
    rw [Bool.not_not]
    by_cases h : gTables k (its g) = []
    · rw [gSums_nil _ _ h, h]
      rfl
    · have := gSums_ne k (gTables k (its g)).length (its g) 0 h
      rw [List.isEmpty_eq_false_iff.mpr this, List.isEmpty_eq_false_iff.mpr h]

/-- The groups of provers, as in `splitGroups`. -/
def splitPairs : (active : List (ExpProver F × ExpItem F)) → List (ExpProver F × ExpItem F) →
    List (List (ExpProver F × ExpItem F))
  | active, [] => [active]
  | active, q :: rest =>
    if q.2.claim.evalPoint ≠ gPoint (its active) then active :: splitPairs [q] rest else splitPairs (active ++ [q]) rest

theorem splitPairs_its : ∀ (rest active : List (ExpProver F × ExpItem F)),
    (splitPairs active rest).map its = splitGroups (its active) (its rest)
  | [], active => rfl
  | q :: rest, active => by
    rw [its_cons, splitPairs, splitGroups]
    split
    · rw [List.map_cons, splitPairs_its rest [q]]
      rfl
    · rw [splitPairs_its rest (active ++ [q])]
      simp [its]

theorem splitPairs_flatten : ∀ (rest active : List (ExpProver F × ExpItem F)),
    (splitPairs active rest).flatten = active ++ rest
  | [], active => by simp [splitPairs]
  | v :: rest, active => by
    rw [splitPairs]
    split
    · rw [List.flatten_cons, splitPairs_flatten rest [v]]; simp
    · rw [splitPairs_flatten rest (active ++ [v])]; simp

/-- What the prover makes of a group. -/
def gMade (k : Nat) (g : List (ExpProver F × ExpItem F)) : List (CompositeSum F) × List (Column F) :=
  (gSums k (gTables k (its g)).length (its g) 0, gCols k g)

theorem proverGroupLoop_ok (checks : Bool) {k : Nat} : ∀ (rest active : List (ExpProver F × ExpItem F))
    (xs : List (List (CompositeSum F) × List (Column F))) (ys : List (List F)), rest ≠ [] → IsGroup (its active) →
    (∀ q ∈ active ++ rest, Backs q) → AtLayer k (its active ++ its rest) →
    ∃ tail, proverGroupLoop checks k (rest.map Prod.fst) (active.map Prod.fst) xs (ys ++ [gPoint (its active)]) =
      .ok (xs ++ ((splitPairs active rest).filter fun g => live k (its g)).map (gMade k),
        ys ++ ((splitPairs active rest).filter fun g => live k (its g)).map (fun g => gPoint (its g)) ++ tail)
  | [], _, _, _, h, _, _, _ => absurd rfl h
  | v :: rest, active, xs, ys, _, hg, hb, hl => by
    have hla : AtLayer k (its active) := fun it hit => hl it (List.mem_append_left _ hit)
    have hlv : AtLayer k (its [v]) := fun it hit => hl it (List.mem_append_right _ (by
      simp only [List.map_cons, List.map_nil, List.mem_singleton] at hit; rw [hit]; simp))
    have hlr : AtLayer k (its [v] ++ its rest) := fun it hit => hl it (List.mem_append_right _ (by simpa using hit))
    have hl' : AtLayer k (its (active ++ [v]) ++ its rest) := fun it hit => hl it (by simpa using hit)
    have hba : ∀ q ∈ active, Backs q := fun q hq => hb q (by simp [hq])
    have hbv : ∀ q ∈ [v], Backs q := fun q hq => hb q (by
      rw [List.mem_singleton] at hq; rw [hq]; simp)
    have hbr : ∀ q ∈ [v] ++ rest, Backs q := fun q hq => hb q (List.mem_append_right _ (by simpa using hq))
    have hb' : ∀ q ∈ (active ++ [v]) ++ rest, Backs q := fun q hq => hb q (by simpa using hq)
    have hpt : v.1.evalPoint = v.2.claim.evalPoint := by rw [← (hb v (by simp)).1]; rfl
    have hgv : gPoint (its [v]) = v.1.evalPoint := hpt.symm
    have hsnoc : ∀ q : ExpProver F × ExpItem F, its (active ++ [q]) = its active ++ [q.2] := fun q => by simp [its]
    rw [List.map_cons, proverGroupLoop, splitPairs]
    have hlast : (ys ++ [gPoint (its active)]).getLast? = some (gPoint (its active)) := by simp
    rw [← hpt]
    by_cases hv : v.1.evalPoint = gPoint (its active)
    · rw [if_neg (by rw [hlast, hv]; simp), if_neg (by simpa using hv)]
      dsimp only
      cases rest with
      | nil =>
        obtain ⟨hm, he⟩ := proverBuildGroup_ok checks (k := k) (g := active ++ [v]) (fun q hq => hb' q (by simpa using hq))
          (fun it hit => hl' it (by simpa using hit))
        rw [List.map_append, List.map_singleton] at hm
        rw [List.map_nil]
        dsimp only
        rw [hm, splitPairs]
        dsimp only
        rw [he]
        by_cases hlive : live k (its (active ++ [v])) = true
        · refine ⟨[], ?_⟩
          rw [if_neg (by rw [hlive]; simp), filt_pos hlive, List.filter_nil, List.map_singleton,
            List.map_singleton, show gPoint (its (active ++ [v])) = gPoint (its active) by
              rw [hsnoc, gPoint_append hg.1], List.append_nil]
          rfl
        · refine ⟨[gPoint (its active)], ?_⟩
          rw [if_pos (by simpa using hlive), filt_neg hlive]
          simp
      | cons u rest =>
        have hg' : IsGroup (its (active ++ [v])) := by
          rw [hsnoc]
          exact hg.snoc (by rw [← hpt]; exact hv)
        have ih := proverGroupLoop_ok checks (u :: rest) (active ++ [v]) xs ys (by simp) hg' hb' hl'
        rw [List.map_append, List.map_singleton] at ih
        rw [show gPoint (its (active ++ [v])) = gPoint (its active) by rw [hsnoc, gPoint_append hg.1]] at ih
        exact ih
    · obtain ⟨hm, he⟩ := proverBuildGroup_ok checks hba hla
      rw [if_pos (by rw [hlast]; simpa using hv), if_pos hv, hm]
      dsimp only
      rw [he]
      by_cases hlive : live k (its active) = true
      · rw [if_neg (by rw [hlive]; simp)]
        dsimp only
        rw [filt_pos hlive]
        cases rest with
        | nil =>
          obtain ⟨hm', he'⟩ := proverBuildGroup_ok checks hbv hlv
          rw [List.map_singleton] at hm'
          rw [List.map_nil]
          dsimp only
          rw [List.nil_append, hm', splitPairs]
          dsimp only
          rw [he']
          by_cases hlv' : live k (its [v]) = true
          · refine ⟨[], ?_⟩
            rw [if_neg (by rw [hlv']; simp), filt_pos hlv', List.filter_nil]
            simp [gMade, hpt, gPoint]
          · refine ⟨[v.1.evalPoint], ?_⟩
            rw [if_pos (by simpa using hlv'), filt_neg hlv']
            simp [gMade]
        | cons u rest =>
          obtain ⟨tail, ih⟩ := proverGroupLoop_ok checks (u :: rest) [v] (xs ++ [gMade k active])
            (ys ++ [gPoint (its active)]) (by simp) (.single v.2) hbr hlr
          refine ⟨tail, ?_⟩
          rw [hgv, List.map_singleton] at ih
          refine ih.trans ?_
          simp
      · rw [if_pos (by simpa using hlive)]
        dsimp only
        rw [filt_neg hlive, List.dropLast_concat]
        cases rest with
        | nil =>
          obtain ⟨hm', he'⟩ := proverBuildGroup_ok checks hbv hlv
          rw [List.map_singleton] at hm'
          rw [List.map_nil]
          dsimp only
          rw [List.nil_append, hm', splitPairs]
          dsimp only
          rw [he']
          by_cases hlv' : live k (its [v]) = true
          · refine ⟨[], ?_⟩
            rw [if_neg (by rw [hlv']; simp), filt_pos hlv', List.filter_nil]
            simp [gMade, hpt, gPoint]
          · refine ⟨[v.1.evalPoint], ?_⟩
            rw [if_pos (by simpa using hlv'), filt_neg hlv']
            simp
        | cons u rest =>
          obtain ⟨tail, ih⟩ := proverGroupLoop_ok checks (u :: rest) [v] xs ys (by simp) (.single v.2) hbr hlr
          refine ⟨tail, ?_⟩
          rw [hgv, List.map_singleton] at ih
          exact ih

/-- The groups of provers with something to prove. -/
def livePairs (k : Nat) : List (ExpProver F × ExpItem F) → List (List (ExpProver F × ExpItem F))
  | [] => []
  | q :: rest => (splitPairs [q] rest).filter fun g => live k (its g)

theorem livePairs_its (k : Nat) (prs : List (ExpProver F × ExpItem F)) :
    (livePairs k prs).map its = liveGroups k (its prs) := by
  cases prs with
  | nil => rfl
  | cons q rest =>
    unfold livePairs
    rw [its_cons, liveGroups]
    have := splitPairs_its rest [q]
    rw [show its [q] = [q.2] from rfl] at this
    rw [← this, List.filter_map]
    rfl

theorem livePairs_mem {k : Nat} {prs : List (ExpProver F × ExpItem F)} {g : List (ExpProver F × ExpItem F)}
    (hg : g ∈ livePairs k prs) : ∀ q ∈ g, q ∈ prs := by
  intro q hq
  cases prs with
  | nil => simp [livePairs] at hg
  | cons a rest =>
    have h1 := (List.mem_filter.mp hg).1
    have := splitPairs_flatten rest [a]
    rw [List.singleton_append] at this
    rw [← this]
    exact List.mem_flatten.mpr ⟨g, h1, hq⟩

theorem livePairs_sorted {k : Nat} {prs : List (ExpProver F × ExpItem F)} {R : ExpProver F × ExpItem F →
    ExpProver F × ExpItem F → Prop} (h : prs.Pairwise R) :
    (livePairs k prs).Pairwise fun g g' => ∀ a ∈ g, ∀ b ∈ g', R a b := by
  cases prs with
  | nil => exact .nil
  | cons a rest =>
    have := splitPairs_flatten rest [a]
    rw [List.singleton_append] at this
    rw [← this, List.pairwise_flatten] at h
    exact h.2.filter _

theorem proverLoop_ok (checks : Bool) {k : Nat} {prs : List (ExpProver F × ExpItem F)} (hne : prs ≠ [])
    (hb : ∀ q ∈ prs, Backs q) (hl : AtLayer k (its prs)) (build : ExpProverBuilder F) :
    buildLayerProvers checks build k (prs.map Prod.fst) =
      collect ((livePairs k prs).map fun g => build (gMade k g).2 (gPoint (its g)) (gMade k g).1) := by
  obtain ⟨v, rest, rfl⟩ := List.exists_cons_of_ne_nil hne
  have hpt : v.1.evalPoint = v.2.claim.evalPoint := by rw [← (hb v (by simp)).1]; rfl
  have key : ∃ tail, proverGroupLoop checks k ((v :: rest).map Prod.fst) [] [] [v.1.evalPoint] =
      .ok ((livePairs k (v :: rest)).map (gMade k), (livePairs k (v :: rest)).map (fun g => gPoint (its g)) ++ tail) := by
    unfold livePairs
    rw [List.map_cons, proverGroupLoop, if_neg (by simp)]
    dsimp only
    cases rest with
    | nil =>
      obtain ⟨hm, he⟩ := proverBuildGroup_ok checks hb hl
      rw [List.map_singleton] at hm
      rw [List.map_nil]
      dsimp only
      rw [List.nil_append, hm, splitPairs]
      dsimp only
      rw [he]
      by_cases hlv : live k (its [v]) = true
      · refine ⟨[], ?_⟩
        rw [if_neg (by rw [hlv]; simp), filt_pos hlv, List.filter_nil]
        simp [gMade, hpt, gPoint]
      · refine ⟨[v.1.evalPoint], ?_⟩
        rw [if_pos (by simpa using hlv), filt_neg hlv]
        simp
    | cons u rest =>
      obtain ⟨tail, ih⟩ := proverGroupLoop_ok checks (u :: rest) [v] [] [] (by simp) (.single v.2) (by simpa using hb)
        (by simpa [its] using hl)
      refine ⟨tail, ?_⟩
      rw [show gPoint (its [v]) = v.1.evalPoint from hpt.symm] at ih
      simpa using ih
  obtain ⟨tail, he⟩ := key
  unfold buildLayerProvers
  rw [List.map_cons] at he ⊢
  dsimp only
  rw [he]
  dsimp only
  congr 1
  generalize livePairs k (v :: rest) = gs
  clear he hl hb hne hpt
  induction gs with
  | nil => simp
  | cons g gs ih =>
    rw [List.map_cons, List.map_cons, List.cons_append, List.zip_cons_cons, List.map_cons, List.map_cons, ih]

/-- The sumcheck that the prover of a group runs. -/
noncomputable def jInst (k : Nat) (g : List (ExpProver F × ExpItem F)) : Instance F :=
  { gReg k (its g) with tables := ((gCols k g).map fun m => m.val) ++ [eqWeight (gPoint (its g))] }

/-- Tables that are the same on the hypercube. -/
def OnCube (n : Nat) (t t' : Nat → F) : Prop := ∀ v < 2 ^ n, t v = t' v

theorem map_onCube {n : Nat} {l l' : List (Nat → F)} (h : List.Forall₂ (OnCube n) l l') {v : Nat} (hv : v < 2 ^ n) :
    l.map (fun t => t v) = l'.map fun t => t v := by
  induction h with
  | nil => rfl
  | cons h _ ih => rw [List.map_cons, List.map_cons, h v hv, ih]

theorem mle_onCube {n : Nat} {l l' : List (Nat → F)} (h : List.Forall₂ (OnCube n) l l') {r : List F} (hr : r.length = n) :
    l.map (fun t => mle t r) = l'.map fun t => mle t r := by
  induction h with
  | nil => rfl
  | cons h _ ih => rw [List.map_cons, List.map_cons, mle_congr fun v hv => h v (by rw [← hr]; exact hv), ih]

theorem jInst_tables {k : Nat} {g : List (ExpProver F × ExpItem F)} (hb : ∀ q ∈ g, Backs q) (hl : AtLayer k (its g))
    (hg : IsGroup (its g)) :
    List.Forall₂ (OnCube (gPoint (its g)).length) (jInst k g).tables (gReg k (its g)).tables := by
  show List.Forall₂ _ (((gCols k g).map fun m => m.val) ++ [eqWeight (gPoint (its g))])
    (gTables k (its g) ++ [eqWeight (suffix (gPoint (its g)).length (gPoint (its g)))])
  rw [suffix_full _ _ (Nat.le_refl _)]
  refine List.rel_append ?_ (.cons (fun _ _ => rfl) .nil)
  rw [List.forall₂_map_left_iff]
  refine (gCols_tables (n := (gPoint (its g)).length) hb hl fun q hq => ?_).imp fun m t h => h.2
  have hm : q.2 ∈ its g := List.mem_map.mpr ⟨q, hq, rfl⟩
  rw [← hg.2 _ hm, (hl _ hm).1.point]

theorem jInst_holds {k : Nat} {g : List (ExpProver F × ExpItem F)} (hb : ∀ q ∈ g, Backs q) (hl : AtLayer k (its g))
    (hg : IsGroup (its g)) (ht : ∀ q ∈ g, q.2.TrueAt k) : (jInst k g).Holds := by
  have h1 : (gReg k (its g)).Holds := by
    refine (regular_holds (gPoint (its g)) (gInst_wf k (its g)) (Nat.le_refl _)).mpr ?_
    rw [gHolds k (its g) hl hg.2]
    intro it hit _
    obtain ⟨q, hq, rfl⟩ := List.mem_map.mp hit
    exact ht q hq
  unfold Instance.Holds at h1 ⊢
  refine h1.imp fun s p hs => hs.trans ?_
  unfold cubeSum
  refine Finset.sum_congr rfl fun b hbm => ?_
  rw [map_onCube (jInst_tables hb hl hg) (Finset.mem_range.mp hbm)]

theorem jInst_wf {k : Nat} {g : List (ExpProver F × ExpItem F)} (hb : ∀ q ∈ g, Backs q) (hl : AtLayer k (its g)) :
    (jInst k g).WellFormed where
  nMultilinears := by
    show (_ ++ [_]).length = (gTables k (its g)).length + 1
    rw [List.length_append, List.length_map, gCols_length hb hl]
    rfl
  compositions := (regular_wf (gPoint (its g)) (gInst_wf k (its g))).compositions

theorem correct_transfer (order : EvaluationOrder) {k : Nat} {out : Output F} : ∀ {gs : List (List (ExpProver F × ExpItem F))}
    {evals : List (List F)},
    (∀ g ∈ gs, (∀ q ∈ g, Backs q) ∧ AtLayer k (its g) ∧ IsGroup (its g) ∧ (gPoint (its g)).length ≤ out.challenges.length) →
    List.Forall₂ (fun (I : Instance F) evals =>
      evals = I.tables.map fun t => mle t (claimPoint order out.challenges I.claim.nVars)) (gs.map (jInst k)) evals →
    List.Forall₂ (fun (I : Instance F) evals =>
      evals = I.tables.map fun t => mle t (claimPoint order out.challenges I.claim.nVars)) ((gs.map its).map (gReg k)) evals
  | [], [], _, _ => .nil
  | g :: gs, e :: evals, h, hc => by
    rw [List.map_cons, List.forall₂_cons] at hc
    obtain ⟨hb, hl, hg, hn⟩ := h g (by simp)
    refine .cons ?_ (correct_transfer order (fun g hg => h g (by simp [hg])) hc.2)
    rw [hc.1]
    exact mle_onCube (jInst_tables hb hl hg) (claimPoint_length order _ _ hn)

theorem collect_honest (order : EvaluationOrder) {build : ExpProverBuilder F} (hh : ExpBuildsHonest order build) {k : Nat} :
    ∀ (gs : List (List (ExpProver F × ExpItem F))), (∀ g ∈ gs, (∀ q ∈ g, Backs q) ∧ AtLayer k (its g) ∧ IsGroup (its g)) →
    ∃ all : List (SumcheckProver F × Instance F),
      collect (gs.map fun g => build (gMade k g).2 (gPoint (its g)) (gMade k g).1) = .ok (all.map Prod.fst) ∧
      all.map Prod.snd = gs.map (jInst k) ∧ ∀ p ∈ all, Honest p.1 p.2 ∧ p.1.evaluationOrder = order
  | [], _ => ⟨[], rfl, rfl, by simp⟩
  | g :: gs, h => by
    obtain ⟨hb, hl, hg⟩ := h g (by simp)
    obtain ⟨all, e1, e2, e3⟩ := collect_honest order hh gs fun g hg => h g (by simp [hg])
    have hlen := gCols_length hb hl
    have hcols := gCols_tables (n := (gPoint (its g)).length) hb hl fun q hq => by
      have hm : q.2 ∈ its g := List.mem_map.mpr ⟨q, hq, rfl⟩
      rw [← hg.2 _ hm, (hl _ hm).1.point]
    obtain ⟨pr, p1, p2, p3⟩ := hh (gCols k g) (gPoint (its g)) (gSums k (gTables k (its g)).length (its g) 0)
      (gPolys k (its g) 0) (by
        intro m hm
        obtain ⟨i, hi, rfl⟩ := List.getElem_of_mem hm
        exact ((List.forall₂_iff_get.mp hcols).2 i hi (by rw [← hlen]; exact hi)).1) (by
        rw [hlen]
        exact (gInst_wf k (its g)).compositions)
    refine ⟨(pr, jInst k g) :: all, ?_, by rw [List.map_cons, List.map_cons, e2], ?_⟩
    · have hp : build (gMade k g).2 (gPoint (its g)) (gMade k g).1 = .ok pr := p1
      rw [List.map_cons, hp, collect, e1]
      rfl
    · intro p hp
      rcases List.mem_cons.mp hp with rfl | hp
      · refine ⟨p3 _ rfl ?_ ?_ ?_ rfl, p2⟩
        · rw [hlen]; rfl
        · show List.Forall₂ _ (List.map _ (gSums k (gTables k (its g)).length (its g) 0)) _
          rw [List.forall₂_map_left_iff]
          exact List.forall₂_same.mpr fun s _ => ⟨rfl, rfl⟩
        · rw [hlen]; rfl
      · exact e3 p hp

/-- The sumcheck of a layer. -/
theorem layer_agree_exp (order : EvaluationOrder) {build : ExpProverBuilder F} (hh : ExpBuildsHonest order build) {k : Nat}
    {prs : List (ExpProver F × ExpItem F)} (hb : ∀ q ∈ prs, Backs q) (hl : AtLayer k (its prs))
    (hs : prs.Pairwise fun a b => b.2.claim.nVars ≤ a.2.claim.nVars) (ht : ∀ q ∈ prs, q.2.TrueAt k) :
    ∃ sps, collect ((livePairs k prs).map fun g => build (gMade k g).2 (gPoint (its g)) (gMade k g).1) = .ok sps ∧
      Agree (fun o o' => o = o' ∧ LayerOut k (its prs) o ∧ CorrectEvals order ((liveGroups k (its prs)).map (gReg k)) o)
        (batchProve sps) (batchVerify order (((liveGroups k (its prs)).map (gReg k)).map fun I => I.claim)) := by
  obtain ⟨hgs, -, -, -, -⟩ := liveGroups_spec hl
  rw [← livePairs_its] at hgs
  have hg : ∀ g ∈ livePairs k prs, (∀ q ∈ g, Backs q) ∧ AtLayer k (its g) ∧ IsGroup (its g) := fun g hg =>
    ⟨fun q hq => hb q (livePairs_mem hg q hq), (hgs _ (List.mem_map.mpr ⟨g, hg, rfl⟩)).2.1,
      (hgs _ (List.mem_map.mpr ⟨g, hg, rfl⟩)).1⟩
  obtain ⟨all, e1, e2, e3⟩ := collect_honest order hh (livePairs k prs) hg
  refine ⟨_, e1, ?_⟩
  have hmem : ∀ p ∈ all, ∃ g ∈ livePairs k prs, p.2 = jInst k g := by
    intro p hp
    have : p.2 ∈ all.map Prod.snd := List.mem_map.mpr ⟨p, hp, rfl⟩
    rw [e2] at this
    obtain ⟨g, hg, h⟩ := List.mem_map.mp this
    exact ⟨g, hg, h.symm⟩
  have hnv : ∀ g ∈ livePairs k prs, ∀ q ∈ g, (jInst k g).claim.nVars = q.2.claim.nVars := by
    intro g hg' q hq
    exact gReg_nVars k (hg g hg').2.2 (hg g hg').2.1 (List.mem_map.mpr ⟨q, hq, rfl⟩)
  have hclaims : (all.map fun p => p.2.claim) = ((liveGroups k (its prs)).map (gReg k)).map fun I => I.claim := by
    rw [← livePairs_its]
    have := congrArg (List.map fun I : Instance F => I.claim) e2
    rw [List.map_map, List.map_map] at this
    rw [List.map_map, List.map_map]
    exact this
  have hag := batch_agree order all e3 (by
      intro p hp
      obtain ⟨g, hg', h⟩ := hmem p hp
      rw [h]
      exact jInst_wf (hg g hg').1 (hg g hg').2.1) (by
      intro p hp
      obtain ⟨g, hg', h⟩ := hmem p hp
      rw [h]
      exact jInst_holds (hg g hg').1 (hg g hg').2.1 (hg g hg').2.2 fun q hq => ht q (livePairs_mem hg' q hq)) (by
      have := livePairs_sorted (k := k) hs
      have h2 : ((livePairs k prs).map (jInst k)).Pairwise fun I J => J.claim.nVars ≤ I.claim.nVars := by
        rw [List.pairwise_map]
        refine this.imp_of_mem fun {g g'} hg1 hg2 h => ?_
        obtain ⟨x, hx⟩ := List.exists_mem_of_ne_nil g (fun e => (hg g hg1).2.2.1 (by rw [e]; rfl))
        obtain ⟨y, hy⟩ := List.exists_mem_of_ne_nil g' (fun e => (hg g' hg2).2.2.1 (by rw [e]; rfl))
        rw [hnv g hg1 x hx, hnv g' hg2 y hy]
        exact h x hx y hy
      rw [← e2, List.pairwise_map] at h2
      exact h2) (by
      intro p hp
      have hpm := List.mem_of_mem_head? hp
      obtain ⟨g, hg', h⟩ := hmem p hpm
      refine Or.inr ⟨p, hpm, rfl, ?_⟩
      rw [h]
      exact regular_degree_pos (gPoint (its g)) _ (gSums_ne k _ (its g) 0 (hgs _ (List.mem_map.mpr ⟨g, hg', rfl⟩)).2.2.1))
  rw [hclaims, e2] at hag
  refine agree_mono (agree_postL hag (batchVerify_postL order _)) ?_
  rintro o o' ⟨⟨rfl, hc⟩, ho⟩
  have ho' : LayerOut k (its prs) o := ho
  refine ⟨rfl, ho', ?_⟩
  unfold CorrectEvals at hc ⊢
  rw [← livePairs_its]
  refine correct_transfer order (fun g hg' => ⟨(hg g hg').1, (hg g hg').2.1, (hg g hg').2.2, ?_⟩) hc
  rw [ho'.1]
  refine le_max?_getD (List.mem_map.mpr ⟨(gReg k (its g)).claim, List.mem_map.mpr ⟨gReg k (its g), List.mem_map.mpr
    ⟨its g, ?_, rfl⟩, rfl⟩, rfl⟩)
  rw [← livePairs_its]
  exact List.mem_map.mpr ⟨g, hg', rfl⟩

/-- The provers after a layer. -/
def nextPairs (prs : List (ExpProver F × ExpItem F)) (cur' : List (ExpItem F)) : List (ExpProver F × ExpItem F) :=
  List.zipWith (fun q it => (q.1.withClaim it.claim, it)) prs cur'

theorem nextPairs_spec : ∀ {prs : List (ExpProver F × ExpItem F)} {cur' : List (ExpItem F)},
    List.Forall₂ SameItem (its prs) cur' → (∀ q ∈ prs, Backs q) → (∀ q ∈ prs, q.2.WellFormed) → (∀ it ∈ cur', it.WellFormed) →
    its (nextPairs prs cur') = cur' ∧
    (nextPairs prs cur').map Prod.fst = List.zipWith ExpProver.withClaim (prs.map Prod.fst) (cur'.map fun it => it.claim) ∧
    ∀ q ∈ nextPairs prs cur', Backs q
  | [], [], _, _, _, _ => ⟨rfl, rfl, by simp [nextPairs]⟩
  | q :: prs, it :: cur', hs, hb, hw, hw' => by
    rw [its_cons, List.forall₂_cons] at hs
    obtain ⟨e1, e2, e3⟩ := nextPairs_spec hs.2 (fun x hx => hb x (by simp [hx])) (fun x hx => hw x (by simp [hx]))
      (fun x hx => hw' x (by simp [hx]))
    refine ⟨?_, ?_, ?_⟩
    · show it :: its (nextPairs prs cur') = _
      rw [e1]
    · show q.1.withClaim it.claim :: (nextPairs prs cur').map Prod.fst = _
      rw [e2]
      rfl
    · intro x hx
      have hx' : x ∈ (q.1.withClaim it.claim, it) :: nextPairs prs cur' := hx
      rcases List.mem_cons.mp hx' with rfl | hx'
      · obtain ⟨hc, hf⟩ := hb q (by simp)
        have hsame := hs.1
        have h1 : q.1.claim.exponentBitWidth = it.claim.exponentBitWidth := by
          rw [hc, (hw q (by simp)).width, (hw' it (by simp)).width, hsame.cols]
        have h2 : q.1.claim.nVars = it.claim.nVars := by rw [hc, hsame.nVars]
        have h3 : q.1.claim.staticBase = it.claim.staticBase := by rw [hc, hsame.static]
        refine ⟨?_, ?_⟩
        · show (⟨it.claim.evalPoint, it.claim.eval, q.1.claim.exponentBitWidth, q.1.claim.nVars, q.1.claim.staticBase⟩ :
            ExpClaim F) = it.claim
          rw [h1, h2, h3]
        · show q.1.witness.Fits it
          exact ⟨by rw [hf.exponent, hsame.cols], by rw [hsame.static]; exact hf.static,
            by rw [hsame.static, hsame.nVars, hsame.base]; exact hf.dynamic, by rw [hf.length, hsame.cols],
            by rw [hsame.static, hsame.nVars, hsame.base, hsame.cols]; exact hf.layers⟩
      · exact e3 x hx'

theorem retainProvers_ok {k : Nat} : ∀ (prs : List (ExpProver F × ExpItem F)), (∀ q ∈ prs, Backs q) → AtLayer k (its prs) →
    retainProvers k (prs.map Prod.fst) = .ok ((prs.filter fun q => decide (k + 1 < q.2.cols.length)).map Prod.fst)
  | [], _, _ => rfl
  | q :: prs, hb, h => by
    obtain ⟨hw, hk⟩ := h q.2 (by simp)
    rw [List.map_cons, retainProvers, (hb q (by simp)).2.exponent]
    unfold isLastLayer
    rw [if_pos (by omega)]
    dsimp only
    rw [retainProvers_ok prs (fun x hx => hb x (by simp [hx])) h.tail]
    dsimp only
    by_cases hl : k + 1 < q.2.cols.length
    · rw [List.filter_cons_of_pos (by simpa using hl), if_neg (by simp only [decide_eq_true_eq]; omega)]
      rfl
    · rw [List.filter_cons_of_neg (by simpa using hl), if_pos (by simp only [decide_eq_true_eq]; omega)]

theorem layer_prover (order : EvaluationOrder) {k : Nat} {vs : List (ExpClaim F)} {out : Output F} {gs : List (List (ExpItem F))}
    {tail : List (List F)} {cs : List (ExpClaim F)} {outs : List (ExpLayerClaim F)}
    (hlen : out.multilinearEvals.length = gs.length) (hpt : ∀ g ∈ gs, (gPoint g).length ≤ out.challenges.length)
    (h : buildLayerExponentBitClaims order vs out (gs.map gPoint ++ tail) k = .ok (cs, outs)) :
    finishLoop order k out.challenges vs (out.multilinearEvals.map List.dropLast).flatten = .ok (cs, outs) := by
  unfold buildLayerExponentBitClaims at h
  split at h
  · cases h
  · rename_i es he
    have := (checkEqInds_iff order out.challenges tail out.multilinearEvals (gs.map gPoint) (by simpa using hlen) (by
      intro p hp
      obtain ⟨g, hg, rfl⟩ := List.mem_map.mp hp
      exact hpt g hg) es).mp he
    rw [← this.1]
    exact h

theorem pofExcept_bind {E A B : Type} (e : Except E A) (k : A → PProg F E B) :
    (PProg.ofExcept (F := F) e).bind k = match e with | .ok a => k a | .error e => .fail e := by
  cases e <;> rfl

theorem exp_agree (checks : Bool) (order : EvaluationOrder) {build : ExpProverBuilder F} (hh : ExpBuildsHonest order build)
    (items : List (ExpItem F)) : ∀ (left k : Nat) (prs : List (ExpProver F × ExpItem F))
    (done : List (List (ExpLayerClaim F))), (∀ q ∈ prs, Backs q) → AtLayer k (its prs) →
    (left ≠ 0 → ∃ q ∈ prs, q.2.cols.length = k + left) → done.length = k →
    (∀ j, k ≤ j → items.flatMap (ExpItem.outTables j) = (its prs).flatMap (ExpItem.outTables j)) →
    prs.Pairwise (fun a b => b.2.claim.nVars ≤ a.2.claim.nVars) → (∀ q ∈ prs, q.2.TrueAt k) → ExpOutputHolds items done →
    Agree (fun o o' => o = o' ∧ o.length = k + left ∧ ExpOutputHolds items o)
      (expProveLayers checks order build left k (prs.map Prod.fst) done)
      (expLayers checks order left k ((its prs).map fun it => it.claim) done)
  | 0, k, prs, done, _, _, _, hd, _, _, _, ho => .ret ⟨rfl, by omega, ho⟩
  | left + 1, k, prs, done, hb, hl, hmax, hd, hit, hsort, htrue, hdone => by
    obtain ⟨qm, hqm, hqw⟩ := hmax (by omega)
    have hne : prs ≠ [] := List.ne_nil_of_mem hqm
    have hne' : its prs ≠ [] := by simpa using hne
    obtain ⟨tail, he⟩ := layer_eq checks order left hne' hl done
    obtain ⟨sps, s1, s2⟩ := layer_agree_exp order hh hb hl hsort htrue
    rw [he, expProveLayers, pofExcept_bind, proverLoop_ok checks hne hb hl, s1]
    dsimp only
    refine agree_bind s2 ?_
    rintro out out' ⟨rfl, hlo, hcor⟩
    rcases layer_finish order hl hlo tail with ⟨e, h, hn⟩ | ⟨cur', outs, h, hs, hw, -, hiff⟩
    · exact absurd hcor hn
    · have hlen : out.multilinearEvals.length = (liveGroups k (its prs)).length := by
        have := hlo.2.length_eq
        simp only [List.length_map] at this
        exact this.symm
      have hnv : ∀ g ∈ liveGroups k (its prs), (gPoint g).length ≤ out.challenges.length := by
        intro g hg
        rw [hlo.1]
        exact le_max?_getD (List.mem_map.mpr ⟨(gReg k g).claim, List.mem_map.mpr
          ⟨gReg k g, List.mem_map.mpr ⟨g, hg, rfl⟩, rfl⟩, rfl⟩)
      have hfin := layer_prover order hlen hnv h
      obtain ⟨n1, n2, n3⟩ := nextPairs_spec hs hb (fun q hq => (hl q.2 (List.mem_map.mpr ⟨q, hq, rfl⟩)).1) hw
      have hatp : AtLayer k (its (nextPairs prs cur')) := by
        rw [n1]
        exact same_at hs hl hw
      rw [layerRest_ok checks order left done (same_at hs hl hw) h, pofExcept_bind]
      unfold proverLayerClaims
      rw [map_claims hb, hfin]
      dsimp only
      rw [pofExcept_bind, ← n2, retainProvers_ok _ n3 hatp]
      dsimp only
      obtain ⟨o1, o2⟩ := hiff.mpr ⟨hcor, fun it hi _ => by
        obtain ⟨q, hq, rfl⟩ := List.mem_map.mp hi
        exact htrue q hq⟩
      obtain ⟨g1, g2, g3, g4⟩ := next_spec (k := k) hs hw
      have hits : its ((nextPairs prs cur').filter fun q => decide (k + 1 < q.2.cols.length)) = nextItems k cur' := by
        unfold nextItems
        conv_rhs => rw [← n1]
        rw [List.filter_map]
        rfl
      rw [← hits]
      have hrec := exp_agree checks order hh items left (k + 1)
        ((nextPairs prs cur').filter fun q => decide (k + 1 < q.2.cols.length)) (done ++ [outs])
        (fun q hq => n3 q (List.mem_filter.mp hq).1) (by rw [hits]; exact g1) (fun hleft => by
          have : ∃ it ∈ cur', it.cols.length = k + 1 + left := by
            clear h hfin n1 n2 n3 hatp o1 o2 g1 g2 g3 g4 hits hiff hw
            have hqm' : qm.2 ∈ its prs := List.mem_map.mpr ⟨qm, hqm, rfl⟩
            generalize its prs = l at hs hqm'
            induction hs with
            | nil => simp at hqm'
            | @cons a b l l' hab _ ih =>
              rcases List.mem_cons.mp hqm' with hq | hq
              · exact ⟨b, by simp, by rw [hab.cols, ← hq, hqw]; omega⟩
              · obtain ⟨x, hx, hx'⟩ := ih hq
                exact ⟨x, by simp [hx], hx'⟩
          obtain ⟨it, hi, hw'⟩ := this
          rw [← n1] at hi
          obtain ⟨q, hq, rfl⟩ := List.mem_map.mp hi
          exact ⟨q, List.mem_filter.mpr ⟨hq, by simp only [decide_eq_true_eq]; omega⟩, hw'⟩)
        (by simp [hd]) (fun j hj => by rw [hits, g4 j hj, hit j (by omega)])
        (by
          refine List.Pairwise.filter _ ?_
          have : (its (nextPairs prs cur')).Pairwise fun a b => b.claim.nVars ≤ a.claim.nVars := by
            rw [n1]
            have h0 : (its prs).Pairwise fun a b => b.claim.nVars ≤ a.claim.nVars := by
              rw [List.pairwise_map]; exact hsort
            have hmap : cur'.map (fun it => it.claim.nVars) = (its prs).map fun it => it.claim.nVars := by
              clear h hfin n1 n2 n3 hatp o1 o2 g1 g2 g3 g4 hits hiff hw h0
              generalize its prs = l at hs
              induction hs with
              | nil => rfl
              | cons hab _ ih => rw [List.map_cons, List.map_cons, hab.nVars, ih]
            have h1 := (List.pairwise_map (f := fun it : ExpItem F => it.claim.nVars) (R := fun a b => b ≤ a)).mpr h0
            rw [← hmap] at h1
            exact List.pairwise_map.mp h1
          rw [List.pairwise_map] at this
          exact this)
        (by
          intro q hq
          have hq' := List.mem_filter.mp hq
          refine o2 q.2 ?_ (by simpa using hq'.2)
          rw [← n1]
          exact List.mem_map.mpr ⟨q, hq'.1, rfl⟩)
        (by
          intro j layer hj
          by_cases hjd : j < done.length
          · rw [List.getElem?_append_left hjd] at hj
            exact hdone j layer hj
          · rw [List.getElem?_append_right (by omega)] at hj
            have : j - done.length = 0 := by
              by_contra hc
              rw [List.getElem?_eq_none (by simp; omega)] at hj
              cases hj
            rw [this] at hj
            simp only [List.getElem?_cons_zero, Option.some.injEq] at hj
            rw [← hj, hit j (by omega), show j = k by omega]
            exact o1)
      refine agree_mono hrec ?_
      rintro o o' ⟨r1, r2, r3⟩
      exact ⟨r1, by omega, r3⟩

open Classical in
theorem exp_builder_exists (order : EvaluationOrder) : ∃ build : ExpProverBuilder F, ExpBuildsHonest order build := by
  let Fits (n : Nat) (sums : List (CompositeSum F)) (polys : List (MvPolynomial ℕ F)) : Prop :=
    List.Forall₂ (fun (s : CompositeSum F) p => Represents s.composition p ∧
      p.vars ⊆ range n ∧ s.composition.nVars = n) sums polys
  have key := fun (ms : List (Column F)) (r : List F) (sums : List (CompositeSum F)) =>
    eq_honest_exists order r.length (ms.map fun m => m.val) r sums
  simp only [List.length_map] at key
  refine ⟨fun ms r sums => if h : ∃ polys, Fits ms.length sums polys then .ok (key ms r sums h).choose
    else .error .panic, ?_⟩
  intro ms r sums polys _ hf
  have h : ∃ polys, Fits ms.length sums polys := ⟨polys, hf⟩
  refine ⟨_, dif_pos h, (key ms r sums h).choose_spec.1, ?_⟩
  exact (key ms r sums h).choose_spec.2 trivial polys hf

end Verif.Gkr
