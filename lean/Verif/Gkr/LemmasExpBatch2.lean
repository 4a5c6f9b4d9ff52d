import Verif.Gkr.LemmasExpBatch
import Verif.Protocol.LemmasPostL
import Verif.Transparent.PropsTransparent

/-! A layer of the batched exponentiation. -/

set_option linter.dupNamespace false
set_option linter.unusedSectionVars false

namespace Verif.Gkr

open Verif.Mle Verif.Protocol Verif.Sumcheck Finset

variable {F : Type} [Field F] [DecidableEq F]

/-! ## Grouping -/

/-- The groups, the first of them begun with `active`. -/
def splitGroups : (active : List (ExpItem F)) → List (ExpItem F) → List (List (ExpItem F))
  | active, [] => [active]
  | active, v :: rest =>
    if v.claim.evalPoint ≠ gPoint active then active :: splitGroups [v] rest else splitGroups (active ++ [v]) rest

theorem splitGroups_flatten : ∀ (rest active : List (ExpItem F)), (splitGroups active rest).flatten = active ++ rest
  | [], active => by simp [splitGroups]
  | v :: rest, active => by
    rw [splitGroups]
    split
    · rw [List.flatten_cons, splitGroups_flatten rest [v]]; simp
    · rw [splitGroups_flatten rest (active ++ [v])]; simp

theorem IsGroup.single (v : ExpItem F) : IsGroup [v] :=
  ⟨by simp, fun it h => by rw [List.mem_singleton] at h; rw [h]; rfl⟩

theorem gPoint_append {active : List (ExpItem F)} (h : active ≠ []) (l : List (ExpItem F)) :
    gPoint (active ++ l) = gPoint active := by
  cases active with
  | nil => exact absurd rfl h
  | cons a l => rfl

theorem IsGroup.snoc {active : List (ExpItem F)} {v : ExpItem F} (h : IsGroup active)
    (hv : v.claim.evalPoint = gPoint active) : IsGroup (active ++ [v]) := by
  refine ⟨by simp, fun it hit => ?_⟩
  rw [gPoint_append h.1]
  rcases List.mem_append.mp hit with hit | hit
  · exact h.2 it hit
  · rw [List.mem_singleton] at hit
    rw [hit, hv]

theorem splitGroups_groups : ∀ (rest active : List (ExpItem F)), IsGroup active →
    ∀ g ∈ splitGroups active rest, IsGroup g
  | [], active, h, g, hg => by
    rw [splitGroups, List.mem_singleton] at hg
    rw [hg]; exact h
  | v :: rest, active, h, g, hg => by
    rw [splitGroups] at hg
    split at hg
    · rcases List.mem_cons.mp hg with rfl | hg
      · exact h
      · exact splitGroups_groups rest [v] (.single v) g hg
    · rename_i hv
      exact splitGroups_groups rest (active ++ [v]) (h.snoc (not_not.mp hv)) g hg

/-- A group with something to prove. -/
def live (k : Nat) (g : List (ExpItem F)) : Bool := !(gTables k g).isEmpty

theorem live_iff {k : Nat} {g : List (ExpItem F)} : live k g = true ↔ gTables k g ≠ [] := by
  unfold live
  simp

/-- The groups with something to prove. -/
def liveGroups (k : Nat) : List (ExpItem F) → List (List (ExpItem F))
  | [] => []
  | v :: rest => (splitGroups [v] rest).filter (live k)

theorem build_live (checks : Bool) {k : Nat} {g : List (ExpItem F)} (h : AtLayer k g) (hne : g ≠ []) :
    buildEvalPointClaims checks k (g.map fun it => it.claim) =
      .ok (if live k g then some (gInst k g).claim else none) := by
  rw [buildEvalPointClaims_ok checks h hne]
  by_cases ht : gTables k g = []
  · rw [if_pos ht, if_neg (by rw [live_iff]; simpa using ht)]
  · rw [if_neg ht, if_pos (live_iff.mpr ht)]

theorem groupLoop_ok (checks : Bool) {k : Nat} : ∀ (rest : List (ExpItem F)) (active : List (ExpItem F))
    (xs : List (EqIndClaim F)) (ys : List (List F)), rest ≠ [] → IsGroup active → AtLayer k (active ++ rest) →
    ∃ tail, groupLoop checks k (rest.map fun it => it.claim) (active.map fun it => it.claim) xs (ys ++ [gPoint active]) =
      .ok (xs ++ ((splitGroups active rest).filter (live k)).map (fun g => (gInst k g).claim),
        ys ++ ((splitGroups active rest).filter (live k)).map gPoint ++ tail)
  | [], _, _, _, h, _, _ => absurd rfl h
  | v :: rest, active, xs, ys, _, hg, hl => by
    have hla : AtLayer k active := fun it hit => hl it (List.mem_append_left _ hit)
    have hlv : AtLayer k [v] := fun it hit => hl it (List.mem_append_right _ (by
      rw [List.mem_singleton] at hit; rw [hit]; simp))
    have hlr : AtLayer k ([v] ++ rest) := fun it hit => hl it (List.mem_append_right _ (by simpa using hit))
    have hl' : AtLayer k ((active ++ [v]) ++ rest) := fun it hit => hl it (by simpa using hit)
    have hgv : gPoint [v] = v.claim.evalPoint := rfl
    rw [List.map_cons, groupLoop, splitGroups]
    have hlast : (ys ++ [gPoint active]).getLast? = some (gPoint active) := by simp
    by_cases hv : v.claim.evalPoint = gPoint active
    · rw [if_neg (by rw [hlast, hv]; simp), if_neg (by simpa using hv)]
      dsimp only
      cases rest with
      | nil =>
        have hb := build_live checks (k := k) (g := active ++ [v]) (by simpa using hl') (by simp)
        rw [List.map_append, List.map_singleton] at hb
        rw [List.map_nil]
        dsimp only
        rw [hb, splitGroups]
        by_cases hlive : live k (active ++ [v]) = true
        · refine ⟨[], ?_⟩
          rw [if_pos hlive]
          simp [hlive, gPoint_append hg.1]
        · refine ⟨[gPoint active], ?_⟩
          rw [if_neg hlive]
          simp [hlive]
      | cons u rest =>
        have ih := groupLoop_ok checks (u :: rest) (active ++ [v]) xs ys (by simp) (hg.snoc hv) hl'
        rw [gPoint_append hg.1, List.map_append, List.map_singleton] at ih
        exact ih
    · rw [if_pos (by rw [hlast]; simpa using hv), if_pos hv, build_live checks hla hg.1]
      by_cases hlive : live k active = true
      · rw [if_pos hlive]
        dsimp only
        rw [List.filter_cons_of_pos hlive]
        cases rest with
        | nil =>
          have hb := build_live checks (k := k) (g := [v]) hlv (by simp)
          rw [List.map_singleton] at hb
          rw [List.map_nil]
          dsimp only
          rw [List.nil_append, hb, splitGroups]
          by_cases hlv' : live k [v] = true
          · refine ⟨[], ?_⟩
            rw [if_pos hlv']
            simp [hlv', hgv]
          · refine ⟨[v.claim.evalPoint], ?_⟩
            rw [if_neg hlv']
            simp [hlv']
        | cons u rest =>
          obtain ⟨tail, ih⟩ := groupLoop_ok checks (u :: rest) [v] (xs ++ [(gInst k active).claim])
            (ys ++ [gPoint active]) (by simp) (.single v) hlr
          refine ⟨tail, ?_⟩
          rw [hgv, List.map_singleton] at ih
          refine ih.trans ?_
          simp
      · rw [if_neg hlive]
        dsimp only
        rw [List.filter_cons_of_neg hlive, List.dropLast_concat]
        cases rest with
        | nil =>
          have hb := build_live checks (k := k) (g := [v]) hlv (by simp)
          rw [List.map_singleton] at hb
          rw [List.map_nil]
          dsimp only
          rw [List.nil_append, hb, splitGroups]
          by_cases hlv' : live k [v] = true
          · refine ⟨[], ?_⟩
            rw [if_pos hlv']
            simp [hlv', hgv]
          · refine ⟨[v.claim.evalPoint], ?_⟩
            rw [if_neg hlv']
            simp [hlv']
        | cons u rest =>
          obtain ⟨tail, ih⟩ := groupLoop_ok checks (u :: rest) [v] xs ys (by simp) (.single v) hlr
          refine ⟨tail, ?_⟩
          rw [hgv, List.map_singleton] at ih
          exact ih

theorem buildLayerClaims_ok (checks : Bool) {k : Nat} {cur : List (ExpItem F)} (hne : cur ≠ []) (hl : AtLayer k cur) :
    ∃ tail, buildLayerClaims checks k (cur.map fun it => it.claim) =
      .ok ((liveGroups k cur).map (fun g => (gInst k g).claim), (liveGroups k cur).map gPoint ++ tail) := by
  obtain ⟨v, rest, rfl⟩ := List.exists_cons_of_ne_nil hne
  unfold buildLayerClaims liveGroups
  rw [List.map_cons]
  dsimp only
  rw [groupLoop, if_neg (by simp)]
  dsimp only
  cases rest with
  | nil =>
    have hb := build_live checks (k := k) (g := [v]) hl (by simp)
    rw [List.map_singleton] at hb
    rw [List.map_nil]
    dsimp only
    rw [List.nil_append, hb, splitGroups]
    by_cases hlv' : live k [v] = true
    · refine ⟨[], ?_⟩
      rw [if_pos hlv']
      simp [hlv']
      rfl
    · refine ⟨[v.claim.evalPoint], ?_⟩
      rw [if_neg hlv']
      simp [hlv']
  | cons u rest =>
    obtain ⟨tail, ih⟩ := groupLoop_ok checks (u :: rest) [v] [] [] (by simp) (.single v) (by simpa using hl)
    refine ⟨tail, ?_⟩
    simpa [gPoint] using ih

/-- What is known of the groups with something to prove. -/
theorem liveGroups_spec {k : Nat} {cur : List (ExpItem F)} (hl : AtLayer k cur) :
    (∀ g ∈ liveGroups k cur, IsGroup g ∧ AtLayer k g ∧ gTables k g ≠ [] ∧ ∀ it ∈ g, it ∈ cur) ∧
    (∀ it ∈ cur, it.layerTables k ≠ [] → ∃ g ∈ liveGroups k cur, it ∈ g) ∧
    (∀ {B : Type} (f : ExpItem F → List B), (∀ it, it.layerTables k = [] → f it = []) →
      (liveGroups k cur).flatMap (fun g => g.flatMap f) = cur.flatMap f) ∧
    (liveGroups k cur).Sublist (match cur with | [] => [] | v :: rest => splitGroups [v] rest) ∧
    ((liveGroups k cur).map List.length).sum ≤ cur.length := by
  cases cur with
  | nil => exact ⟨by simp [liveGroups], by simp, by simp [liveGroups], by simp [liveGroups], by simp [liveGroups]⟩
  | cons v rest =>
    have hfl := splitGroups_flatten rest [v]
    have hgr := splitGroups_groups rest [v] (.single v)
    rw [List.singleton_append] at hfl
    have hsub : ∀ g ∈ splitGroups [v] rest, ∀ it ∈ g, it ∈ v :: rest := fun g hg it hit => by
      rw [← hfl]; exact List.mem_flatten.mpr ⟨g, hg, hit⟩
    refine ⟨fun g hg => ?_, fun it hit hne => ?_, fun {B} f hf => ?_, List.filter_sublist, ?_⟩
    · have hg' := List.mem_filter.mp hg
      exact ⟨hgr g hg'.1, fun it hit => hl it (hsub g hg'.1 it hit), live_iff.mp hg'.2, hsub g hg'.1⟩
    · rw [← hfl] at hit
      obtain ⟨g, hg, hig⟩ := List.mem_flatten.mp hit
      refine ⟨g, List.mem_filter.mpr ⟨hg, live_iff.mpr fun e => hne ?_⟩, hig⟩
      unfold gTables at e
      rw [List.flatMap_eq_nil_iff] at e
      exact e it hig
    · show ((splitGroups [v] rest).filter (live k)).flatMap _ = _
      have : ∀ gs : List (List (ExpItem F)), (gs.filter (live k)).flatMap (fun g => g.flatMap f) = gs.flatten.flatMap f := by
        intro gs
        induction gs with
        | nil => rfl
        | cons g gs ih =>
          rw [List.flatten_cons, List.flatMap_append, ← ih]
          by_cases hlive : live k g = true
          · rw [List.filter_cons_of_pos hlive, List.flatMap_cons]
          · rw [List.filter_cons_of_neg hlive]
            have hz : g.flatMap f = [] := by
              rw [List.flatMap_eq_nil_iff]
              intro it hit
              apply hf
              rw [live_iff, not_not] at hlive
              unfold gTables at hlive
              rw [List.flatMap_eq_nil_iff] at hlive
              exact hlive it hit
            rw [hz, List.nil_append]
      rw [this, hfl]
    · refine Nat.le_trans ?_ (Nat.le_of_eq (congrArg List.length hfl))
      rw [List.length_flatten]
      exact List.Sublist.sum_le_sum (List.filter_sublist.map _) (fun _ _ => Nat.zero_le _)

/-! ## The equality indicators -/

theorem slice_claimPoint (order : EvaluationOrder) (n : Nat) (ch : List F) (h : n ≤ ch.length) :
    sliceChallenges (decide (order = .lowToHigh)) n ch = some (claimPoint order ch n) := by
  unfold sliceChallenges claimPoint
  rw [if_neg (by omega)]
  cases order <;> simp

theorem claimPoint_length (order : EvaluationOrder) (n : Nat) (ch : List F) (h : n ≤ ch.length) :
    (claimPoint order ch n).length = n := by
  unfold claimPoint
  cases order
  · simp only [List.length_drop]; omega
  · simp only [List.length_take]; omega

theorem checkEqInds_iff (order : EvaluationOrder) (ch : List F) (tail : List (List F)) :
    ∀ (evals pts : List (List F)), evals.length = pts.length → (∀ p ∈ pts, p.length ≤ ch.length) →
    ∀ es, checkEqInds order ch evals (pts ++ tail) = .ok es ↔ es = evals.map List.dropLast ∧
      List.Forall₂ (fun e p => e.getLast? = some (mle (eqWeight p) (claimPoint order ch p.length))) evals pts
  | [], [], _, _, es => by
    cases tail <;> simp [checkEqInds, eq_comm]
  | e :: evals, p :: pts, hl, hp, es => by
    rw [List.cons_append, checkEqInds]
    have hpl := hp p (by simp)
    rw [slice_claimPoint order _ ch hpl]
    dsimp only
    rw [(Transparent.C30_eq_ind 0 p).1.2.1 _ (claimPoint_length order _ ch hpl)]
    dsimp only
    have ih := checkEqInds_iff order ch tail evals pts (by simpa using hl) fun q hq => hp q (by simp [hq])
    rw [List.forall₂_cons]
    cases hg : e.getLast? with
    | none => simp
    | some x =>
      dsimp only
      by_cases hx : mle (eqWeight p) (claimPoint order ch p.length) = x
      · rw [if_neg (by simpa using hx), hx]
        cases hc : checkEqInds order ch evals (pts ++ tail) with
        | error err =>
          simp only [reduceCtorEq, true_and, false_iff, not_and]
          intro _ hf
          have := (ih (evals.map List.dropLast)).mpr ⟨rfl, hf⟩
          rw [hc] at this
          cases this
        | ok l =>
          obtain ⟨h1, h2⟩ := (ih l).mp hc
          simp only [Except.ok.injEq, true_and, List.map_cons]
          rw [← h1]
          exact ⟨fun h => ⟨h.symm, h2⟩, fun h => h.1.symm⟩
      · rw [if_pos hx]
        simp only [reduceCtorEq, Option.some.injEq, false_iff, not_and]
        exact fun _ h => absurd h.symm hx
  | [], _ :: _, hl, _, _ => by simp at hl
  | _ :: _, [], hl, _, _ => by simp at hl

/-- The evaluations that the multilinears of a layer should have. -/
def layerTarget (order : EvaluationOrder) (ch : List F) (k : Nat) (it : ExpItem F) : List F :=
  (it.layerTables k).map fun t => mle t (claimPoint order ch it.claim.nVars)

/-- The regular claim of a group. -/
noncomputable def gReg (k : Nat) (g : List (ExpItem F)) : Instance F := (gInst k g).regular (gPoint g)

theorem correct_iff (order : EvaluationOrder) (ch : List F) (k : Nat) :
    ∀ (gs : List (List (ExpItem F))) (evals : List (List F)),
    (∀ g ∈ gs, IsGroup g ∧ AtLayer k g) →
    List.Forall₂ (fun g (e : List F) => e.length = (gTables k g).length + 1) gs evals →
    List.Forall₂ (fun (e p : List F) => e.getLast? = some (mle (eqWeight p) (claimPoint order ch p.length))) evals
      (gs.map gPoint) →
    (CorrectEvals order (gs.map (gReg k)) ⟨ch, evals⟩ ↔
      (evals.map List.dropLast).flatten = gs.flatMap fun g => g.flatMap (layerTarget order ch k))
  | [], [], _, _, _ => by simp [CorrectEvals]
  | g :: gs, e :: evals, hg, hlen, hlast => by
    obtain ⟨hl1, hl2⟩ := List.forall₂_cons.mp hlen
    rw [List.map_cons] at hlast
    obtain ⟨ha1, ha2⟩ := List.forall₂_cons.mp hlast
    have ih := correct_iff order ch k gs evals (fun g hg' => hg g (by simp [hg'])) hl2 ha2
    unfold CorrectEvals at ih ⊢
    rw [List.map_cons, List.forall₂_cons, ih, List.map_cons, List.flatten_cons, List.flatMap_cons]
    have htab : (gReg k g).tables.map (fun t => mle t (claimPoint order ch (gReg k g).claim.nVars)) =
        g.flatMap (layerTarget order ch k) ++ [mle (eqWeight (gPoint g)) (claimPoint order ch (gPoint g).length)] := by
      show (gTables k g ++ [eqWeight (suffix (gPoint g).length (gPoint g))]).map
        (fun t => mle t (claimPoint order ch (gPoint g).length)) = _
      rw [suffix_full _ _ (Nat.le_refl _), List.map_append, List.map_singleton]
      congr 1
      unfold gTables layerTarget
      rw [List.map_flatMap]
      refine List.flatMap_congr fun it hit => ?_
      rw [← (hg g (by simp)).1.2 it hit, ((hg g (by simp)).2 it hit).1.point]
    have hsplit : e = e.dropLast ++ [mle (eqWeight (gPoint g)) (claimPoint order ch (gPoint g).length)] := by
      rw [List.getLast?_eq_some_iff] at ha1
      obtain ⟨l, hl⟩ := ha1
      rw [hl, List.dropLast_concat]
    have hdl : e.dropLast.length = (g.flatMap (layerTarget order ch k)).length := by
      rw [List.length_dropLast, hl1]
      have := congrArg List.length htab
      simp only [List.length_map, List.length_append, List.length_singleton] at this
      have h2 : (gReg k g).tables.length = (gTables k g).length + 1 := by
        show (gTables k g ++ [_]).length = _
        simp
      omega
    rw [htab]
    constructor
    · rintro ⟨h1, h2⟩
      rw [h2, h1, List.dropLast_concat]
    · intro h
      obtain ⟨h1, h2⟩ := List.append_inj h hdl
      exact ⟨by rw [hsplit, h1], h2⟩

/-! ## Finishing a layer -/

/-- The same exponentiation with another claim. -/
structure SameItem (it it' : ExpItem F) : Prop where
  cols : it'.cols = it.cols
  base : it'.base = it.base
  static : it'.claim.staticBase = it.claim.staticBase
  nVars : it'.claim.nVars = it.claim.nVars

theorem SameItem.bit {it it' : ExpItem F} (h : SameItem it it') (k : Nat) : it'.bit k = it.bit k := by
  unfold ExpItem.bit
  rw [h.cols, h.static]

theorem SameItem.outTables {it it' : ExpItem F} (h : SameItem it it') (k : Nat) :
    it'.outTables k = it.outTables k := by
  unfold ExpItem.outTables
  rw [h.cols, h.static, h.bit, h.base]

theorem bit_of {it : ExpItem F} {k : Nat} {c : Column F}
    (h : it.cols[bitIndex it.claim.staticBase.isNone it.cols.length k]? = some c) : it.bit k = c.val := by
  unfold ExpItem.bit
  rw [h]

theorem exists_bit (it : ExpItem F) (k : Nat) (h : k < it.cols.length) :
    ∃ c, it.cols[bitIndex it.claim.staticBase.isNone it.cols.length k]? = some c := by
  refine ⟨_, List.getElem?_eq_getElem ?_⟩
  unfold bitIndex
  split <;> omega

theorem finish_item (order : EvaluationOrder) {k : Nat} {it : ExpItem F} (hw : it.WellFormed) (hk : k < it.cols.length)
    (chunk ch : List F) (hc : chunk.length = (it.layerTables k).length)
    (hn : it.layerTables k ≠ [] → it.claim.nVars ≤ ch.length) :
    ∃ it' outs, finishLayer order it.claim k chunk ch = some (it'.claim, outs) ∧ SameItem it it' ∧ it'.WellFormed ∧
      ((List.Forall₂ TableTrue (it.outTables k) outs ∧ (k + 1 < it.cols.length → it'.TrueAt (k + 1))) ↔
        (chunk = layerTarget order ch k it ∧ (it.layerTables k = [] → it.TrueAt k))) := by
  obtain ⟨bit, hbit⟩ := exists_bit it k hk
  have hbv := bit_of hbit
  unfold layerTarget finishLayer ExpItem.outTables
  rw [if_pos hk]
  have hlt : it.layerTables k = _ := rfl
  conv at hlt => rhs; unfold ExpItem.layerTables
  cases hs : it.claim.staticBase with
  | some g =>
    rw [hs] at hbit hlt
    simp only [Option.isNone_some] at hbit hlt
    obtain ⟨hbase, hg1, h64⟩ := hw.static g hs
    by_cases hl : k + 1 = it.cols.length
    · rw [if_pos hl] at hlt
      obtain ⟨bit', bc, e1, e2, e3⟩ := C37_static_last (decide (order = .lowToHigh)) it.claim.nVars it.cols hw.bits g hg1
        it.claim hs hw.width hw.point k hl chunk ch
      rw [hbit] at e1
      injection e1 with e1
      subst e1
      refine ⟨it, [bc], by simp only; rw [e2]; rfl, ⟨rfl, rfl, rfl, rfl⟩, hw, ?_⟩
      rw [hlt] at hc ⊢
      have hc0 : chunk = [] := List.eq_nil_of_length_eq_zero hc
      simp only [List.forall₂_cons, List.forall₂_nil_right_iff, and_true, List.map_nil, hc0, true_and,
        forall_true_left, hbv, e3]
      rw [and_iff_left (fun h => by omega)]
      unfold StaticTrue ExpItem.TrueAt ExpItem.power
      rw [hs]
      simp only [hbase]
    · rw [if_neg hl] at hlt
      have hn' := hn (by rw [hlt]; simp)
      rw [hlt] at hc
      match chunk, hc with
      | [a, b], _ =>
        have hsl := slice_claimPoint order it.claim.evalPoint.length ch (by rw [hw.point]; exact hn')
        refine ⟨{ it with claim := { it.claim with eval := a, evalPoint := claimPoint order ch it.claim.evalPoint.length } },
          [⟨claimPoint order ch it.claim.evalPoint.length, b⟩], ?_, ⟨rfl, rfl, rfl, rfl⟩, ?_, ?_⟩
        · simp only
          unfold finishStatic isLastLayer
          rw [hw.width, if_pos (by omega), Option.bind_some, if_neg (by simp only [decide_eq_true_eq]; omega), hsl]
          rfl
        · exact ⟨hw.width, hw.nonempty, hw.bits, by
            show (claimPoint order ch it.claim.evalPoint.length).length = it.claim.nVars
            rw [claimPoint_length order _ ch (by rw [hw.point]; exact hn'), hw.point], fun g hg => hw.static g hg⟩
        · have hne : it.layerTables k ≠ [] := by rw [hlt]; simp
          rw [hlt, hw.point]
          simp only [List.forall₂_cons, List.forall₂_nil_right_iff, and_true, List.map_cons, List.map_nil,
            List.cons.injEq, reduceCtorEq, false_imp_iff]
          rw [forall_prop_of_true (show k + 1 < it.cols.length by omega)]
          unfold TableTrue ExpItem.TrueAt
          exact ⟨fun h => ⟨h.2, h.1⟩, fun h => ⟨h.2, h.1⟩⟩
  | none =>
    rw [hs] at hbit hlt
    simp only [Option.isNone_none] at hbit hlt
    have hne : it.layerTables k ≠ [] := by
      rw [hlt]
      split <;> simp
    have hn' := hn hne
    have hsl := slice_claimPoint order it.claim.evalPoint.length ch (by rw [hw.point]; exact hn')
    by_cases hl : k + 1 = it.cols.length
    · rw [if_pos hl] at hlt
      rw [hlt] at hc
      match chunk, hc with
      | [a, b], _ =>
        refine ⟨it, [⟨claimPoint order ch it.claim.evalPoint.length, b⟩, ⟨claimPoint order ch it.claim.evalPoint.length, a⟩],
          ?_, ⟨rfl, rfl, rfl, rfl⟩, hw, ?_⟩
        · simp only
          unfold finishDynamic isLastLayer
          rw [hsl, hw.width, if_pos (by omega), show it.cols.length - 1 - k = 0 by omega]
          rfl
        · rw [hlt, hw.point]
          simp only [List.forall₂_cons, List.forall₂_nil_right_iff, and_true, List.map_cons, List.map_nil,
            List.cons.injEq, reduceCtorEq, false_imp_iff]
          rw [and_iff_left (fun h => by omega)]
          unfold TableTrue
          exact ⟨fun h => ⟨h.2, h.1⟩, fun h => ⟨h.2, h.1⟩⟩
    · rw [if_neg hl] at hlt
      rw [hlt] at hc
      match chunk, hc with
      | [a, b, d], _ =>
        refine ⟨{ it with claim := { it.claim with eval := a, evalPoint := claimPoint order ch it.claim.evalPoint.length } },
          [⟨claimPoint order ch it.claim.evalPoint.length, b⟩, ⟨claimPoint order ch it.claim.evalPoint.length, d⟩],
          ?_, ⟨rfl, rfl, rfl, rfl⟩, ?_, ?_⟩
        · simp only
          unfold finishDynamic isLastLayer
          rw [hsl, hw.width, if_pos (by omega), Option.bind_some,
            decide_eq_false (show ¬ it.cols.length - 1 - k = 0 by omega)]
          rfl
        · exact ⟨hw.width, hw.nonempty, hw.bits, by
            show (claimPoint order ch it.claim.evalPoint.length).length = it.claim.nVars
            rw [claimPoint_length order _ ch (by rw [hw.point]; exact hn'), hw.point], fun g hg => hw.static g hg⟩
        · rw [hlt, hw.point]
          simp only [List.forall₂_cons, List.forall₂_nil_right_iff, and_true, List.map_cons, List.map_nil,
            List.cons.injEq, reduceCtorEq, false_imp_iff]
          rw [forall_prop_of_true (show k + 1 < it.cols.length by omega)]
          unfold TableTrue ExpItem.TrueAt
          exact ⟨fun h => ⟨h.2, h.1.1, h.1.2⟩, fun h => ⟨⟨h.2.1, h.2.2⟩, h.1⟩⟩

/-- The numbers of variables of the claims that a layer leads to. -/
def outShape (k : Nat) (it : ExpItem F) : List Nat := (it.outTables k).map fun _ => it.claim.nVars

theorem slice_length {b : Bool} {n : Nat} {r p : List F} (h : sliceChallenges b n r = some p) : p.length = n := by
  unfold sliceChallenges at h
  split at h
  · cases h
  · injection h with h
    rw [← h]
    split
    · rw [List.length_drop]; omega
    · rw [List.length_take]; omega

theorem finish_shape {order : EvaluationOrder} {k : Nat} {it : ExpItem F} (hw : it.WellFormed)
    (hk : k < it.cols.length) {chunk ch : List F} {c : ExpClaim F} {outs : List (ExpLayerClaim F)}
    (h : finishLayer order it.claim k chunk ch = some (c, outs)) :
    (outs.map fun c => c.evalPoint.length) = outShape k it := by
  unfold finishLayer at h
  unfold outShape ExpItem.outTables
  rw [if_pos hk]
  cases hs : it.claim.staticBase with
  | some g =>
    rw [hs] at h
    simp only [Option.map_eq_some_iff] at h
    obtain ⟨p, hf, hp⟩ := h
    injection hp with _ hp
    rw [← hp]
    simp only [List.map_cons, List.map_nil, List.cons.injEq, and_true]
    unfold finishStatic at hf
    simp only [Option.bind_eq_some_iff] at hf
    obtain ⟨last, -, hf⟩ := hf
    split at hf
    · simp only [Option.map_eq_some_iff] at hf
      obtain ⟨b, -, hf⟩ := hf
      rw [← hf]
      exact hw.point
    · simp only [Option.bind_eq_some_iff, Option.map_eq_some_iff] at hf
      obtain ⟨a, -, b, -, pt, hpt, hf⟩ := hf
      rw [← hf, ← hw.point]
      exact slice_length hpt
  | none =>
    rw [hs] at h
    simp only [Option.map_eq_some_iff] at h
    obtain ⟨p, hf, hp⟩ := h
    injection hp with _ hp
    rw [← hp]
    simp only [List.map_cons, List.map_nil, List.cons.injEq, and_true]
    unfold finishDynamic at hf
    simp only [Option.bind_eq_some_iff] at hf
    obtain ⟨pt, hpt, bit, -, last, -, hf⟩ := hf
    have hl := (slice_length hpt).trans hw.point
    split at hf
    · simp only [Option.map_eq_some_iff] at hf
      obtain ⟨b, -, hf⟩ := hf
      rw [← hf]
      exact ⟨hl, hl⟩
    · simp only [Option.bind_eq_some_iff, Option.map_eq_some_iff] at hf
      obtain ⟨a, -, b, -, hf⟩ := hf
      rw [← hf]
      exact ⟨hl, hl⟩

theorem finishLoop_ok (order : EvaluationOrder) {k : Nat} (ch : List F) : ∀ (cur : List (ExpItem F)) (flat : List F),
    AtLayer k cur → flat.length = (cur.flatMap (ExpItem.layerTables k)).length →
    (∀ it ∈ cur, it.layerTables k ≠ [] → it.claim.nVars ≤ ch.length) →
    ∃ cur' outs, finishLoop order k ch (cur.map fun it => it.claim) flat = .ok (cur'.map fun it => it.claim, outs) ∧
      List.Forall₂ SameItem cur cur' ∧ (∀ it ∈ cur', it.WellFormed) ∧
      (outs.map fun c => c.evalPoint.length) = cur.flatMap (outShape k) ∧
      ((List.Forall₂ TableTrue (cur.flatMap (ExpItem.outTables k)) outs ∧
          ∀ it ∈ cur', k + 1 < it.cols.length → it.TrueAt (k + 1)) ↔
        (flat = cur.flatMap (layerTarget order ch k) ∧ ∀ it ∈ cur, it.layerTables k = [] → it.TrueAt k))
  | [], flat, _, hf, _ => by
    refine ⟨[], [], rfl, .nil, by simp, rfl, ?_⟩
    simpa using hf
  | it :: cur, flat, hl, hf, hn => by
    obtain ⟨hw, hk⟩ := hl it (by simp)
    rw [List.flatMap_cons, List.length_append] at hf
    have htl : (flat.take (it.layerTables k).length).length = (it.layerTables k).length := by
      rw [List.length_take]; omega
    obtain ⟨it', outs, e1, e2, e3, e4⟩ := finish_item order hw hk (flat.take (it.layerTables k).length) ch htl
      (hn it (by simp))
    obtain ⟨cur', outs', f1, f2, f3, f5, f4⟩ := finishLoop_ok order ch cur (flat.drop (it.layerTables k).length) hl.tail
      (by rw [List.length_drop]; omega) fun x hx => hn x (by simp [hx])
    have hsh := finish_shape hw hk e1
    have ho : outs.length = (it.outTables k).length := by
      have := congrArg List.length hsh
      simpa [outShape] using this
    refine ⟨it' :: cur', outs ++ outs', ?_, .cons e2 f2, ?_, by rw [List.map_append, hsh, f5, List.flatMap_cons], ?_⟩
    · rw [List.map_cons, finishLoop, nMultilinears_ok hw hk]
      dsimp only
      rw [e1]
      dsimp only
      rw [f1]
      rfl
    · intro x hx
      rcases List.mem_cons.mp hx with rfl | hx
      · exact e3
      · exact f3 x hx
    · rw [List.flatMap_cons, List.flatMap_cons, List.forall_mem_cons, List.forall_mem_cons]
      have h1 : List.Forall₂ TableTrue (it.outTables k ++ cur.flatMap (ExpItem.outTables k)) (outs ++ outs') ↔
          List.Forall₂ TableTrue (it.outTables k) outs ∧ List.Forall₂ TableTrue (cur.flatMap (ExpItem.outTables k)) outs' := by
        constructor
        · intro h
          have a := List.forall₂_take (it.outTables k).length h
          have b := List.forall₂_drop (it.outTables k).length h
          rw [List.take_left] at a
          rw [List.drop_left] at b
          rw [← ho, List.take_left] at a
          rw [← ho, List.drop_left] at b
          exact ⟨a, b⟩
        · exact fun h => List.rel_append h.1 h.2
      have h2 : flat = layerTarget order ch k it ++ cur.flatMap (layerTarget order ch k) ↔
          flat.take (it.layerTables k).length = layerTarget order ch k it ∧
            flat.drop (it.layerTables k).length = cur.flatMap (layerTarget order ch k) := by
        have hlt : (layerTarget order ch k it).length = (it.layerTables k).length := by simp [layerTarget]
        constructor
        · intro h
          rw [h, ← hlt, List.take_left, List.drop_left]
          exact ⟨rfl, rfl⟩
        · rintro ⟨a, b⟩
          rw [← a, ← b, List.take_append_drop]
      rw [h1, h2, e2.cols]
      constructor
      · rintro ⟨⟨a, b⟩, c, d⟩
        obtain ⟨p, q⟩ := e4.mp ⟨a, c⟩
        obtain ⟨p', q'⟩ := f4.mp ⟨b, d⟩
        exact ⟨⟨p, p'⟩, q, q'⟩
      · rintro ⟨⟨p, p'⟩, q, q'⟩
        obtain ⟨a, c⟩ := e4.mpr ⟨p, q⟩
        obtain ⟨b, d⟩ := f4.mpr ⟨p', q'⟩
        exact ⟨⟨a, b⟩, c, d⟩

/-- The items that have bits left after layer `k`. -/
def nextItems (k : Nat) (cur : List (ExpItem F)) : List (ExpItem F) := cur.filter fun it => decide (k + 1 < it.cols.length)

theorem retainLayer_ok {k : Nat} : ∀ (cur : List (ExpItem F)), AtLayer k cur →
    retainLayer k (cur.map fun it => it.claim) = .ok ((nextItems k cur).map fun it => it.claim)
  | [], _ => rfl
  | it :: cur, h => by
    obtain ⟨hw, hk⟩ := h it (by simp)
    rw [List.map_cons, retainLayer, hw.width]
    unfold isLastLayer
    rw [if_pos (by omega)]
    dsimp only
    rw [retainLayer_ok cur h.tail]
    dsimp only
    unfold nextItems
    by_cases hl : k + 1 < it.cols.length
    · rw [List.filter_cons_of_pos (by simpa using hl), if_neg (by simp only [decide_eq_true_eq]; omega)]
      rfl
    · rw [List.filter_cons_of_neg (by simpa using hl), if_pos (by simp only [decide_eq_true_eq]; omega)]

theorem nextItems_at {k : Nat} {cur : List (ExpItem F)} (h : ∀ it ∈ cur, it.WellFormed) : AtLayer (k + 1) (nextItems k cur) :=
  fun it hit => by
    have := List.mem_filter.mp hit
    exact ⟨h it this.1, by simpa using this.2⟩

/-! ## The sumcheck's output -/

theorem readEvals_post : ∀ (cs : List (Claim F)),
    PostL (fun es => List.Forall₂ (fun (c : Claim F) (e : List F) => e.length = c.nMultilinears) cs es) (readEvals cs)
  | [] => .nil
  | c :: cs => by
    rw [readEvals]
    intro m hm
    exact (readEvals_post cs).bind fun es h => .cons hm h

theorem activate_post (n : Nat) : ∀ (cs : List (Claim F)) (s : St F),
    Post (fun q => q.2.challenges = s.challenges) (activate n cs s)
  | [], s => rfl
  | c :: cs, s => by
    rw [activate]
    split
    · exact rfl
    · exact fun a => (activate_post n cs _).mono fun q h => h

theorem rounds_post : ∀ (n : Nat) (cs : List (Claim F)) (s : St F),
    Post (fun q => q.2.challenges.length = s.challenges.length + n) (rounds n cs s)
  | 0, cs, s => rfl
  | n + 1, cs, s => by
    rw [rounds]
    refine (activate_post (n + 1) cs s).bind fun q hq m x => ?_
    refine (rounds_post n _ _).mono fun q' h => ?_
    rw [h, hq]
    simp
    omega

theorem activateRest_post : ∀ (cs : List (Claim F)) (s : St F),
    Post (fun q => q.challenges = s.challenges) (activateRest cs s)
  | [], s => rfl
  | c :: cs, s => by
    rw [activateRest]
    split
    · trivial
    · exact fun a => (activateRest_post cs _).mono fun q h => h

theorem batchVerify_postL (order : EvaluationOrder) (claims : List (Claim F)) :
    PostL (fun out => out.challenges.length = ((claims.map fun c => c.nVars).max?).getD 0 ∧
      List.Forall₂ (fun (c : Claim F) (e : List F) => e.length = c.nMultilinears) claims out.multilinearEvals)
      (batchVerify order claims) := by
  unfold batchVerify
  split
  · trivial
  · refine (PostL.of (rounds_post _ claims ⟨[], [], 0, 0⟩)).bind fun q hq => ?_
    unfold finish
    refine (PostL.of (activateRest_post q.1 q.2)).bind fun s hs => ?_
    refine (readEvals_post claims).bind fun es hes => ?_
    rw [ofExcept_bind]
    split
    · split
      · trivial
      · refine ⟨?_, hes⟩
        have : (orderChallenges order s.challenges).length = s.challenges.length := by
          cases order <;> simp [orderChallenges]
        show (orderChallenges order s.challenges).length = _
        rw [this, hs, hq]
        simp
    · trivial

end Verif.Gkr
