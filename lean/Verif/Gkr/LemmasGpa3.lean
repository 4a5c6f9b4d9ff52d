import Verif.Gkr.LemmasGpa2

/-! The prover of the grand product argument. -/

set_option linter.dupNamespace false
set_option linter.unusedSectionVars false

namespace Verif.Gkr

open Verif.Mle Verif.Protocol Verif.Sumcheck Finset

variable {F : Type} [Field F] [DecidableEq F]

theorem copy_loop (p : Packed F) (f : Nat → Nat) : ∀ (m : Nat) (acc : Packed F) (b : Nat),
    ((List.range m).foldl (fun acc i => Packed.set acc i (p (f i))) acc) b = if b < m then p (f b) else acc b := by
  intro m
  induction m with
  | zero => intro acc b; simp
  | succ m ih =>
    intro acc b
    rw [List.range_succ, List.foldl_append]
    simp only [List.foldl_cons, List.foldl_nil, Packed.set]
    by_cases hb : b = m
    · rw [if_pos hb, if_pos (by omega), hb]
    · rw [if_neg hb, ih]
      by_cases hb' : b < m
      · rw [if_pos hb', if_pos (by omega)]
      · rw [if_neg hb', if_neg (by omega)]

theorem value_small {w : Nat} {b : Nat} (hb : b < 2 ^ w) (layer : List (Packed F)) :
    value w layer b = (match layer with | [] => fun _ => 1 | p :: _ => p : Packed F) b := by
  unfold value
  rw [Nat.div_eq_of_lt hb, Nat.mod_eq_of_lt hb]
  cases layer <;> rfl

theorem halves_value (w k : Nat) (layer : List (Packed F)) (b : Nat) (hb : b < 2 ^ k) :
    value w (halves w k layer).1 b = value w layer b ∧
      value w (halves w k layer).2 b = value w layer (b + 2 ^ k) := by
  unfold halves
  by_cases hk : k ≥ w
  · have hn : 2 ^ k = 2 ^ w * 2 ^ (k - w) := by rw [← pow_add]; congr 1; omega
    have hpos := Nat.two_pow_pos w
    have hj : b / 2 ^ w < 2 ^ (k - w) := Nat.div_lt_of_lt_mul (by rw [← hn]; exact hb)
    have e1 : (b + 2 ^ k) / 2 ^ w = b / 2 ^ w + 2 ^ (k - w) := by rw [hn, Nat.add_mul_div_left _ _ hpos]
    have e2 : (b + 2 ^ k) % 2 ^ w = b % 2 ^ w := by rw [hn, Nat.add_mul_mod_self_left]
    by_cases hl : layer.length < 2 ^ (k - w)
    · rw [if_pos ⟨hk, hl⟩]
      refine ⟨rfl, ?_⟩
      unfold value
      rw [e1, List.getElem?_eq_none (l := layer) (Nat.le_trans (Nat.le_of_lt hl) (Nat.le_add_left _ _))]
      rfl
    · rw [if_neg (by tauto), if_pos hk]
      unfold value
      rw [e1, e2, List.getElem?_take_of_lt hj, List.getElem?_drop, Nat.add_comm (2 ^ (k - w))]
      exact ⟨rfl, rfl⟩
  · rw [if_neg (by tauto), if_neg hk]
    have hlt : 2 ^ k + 2 ^ k ≤ 2 ^ w := by
      rw [← two_mul, ← pow_succ']; exact Nat.pow_le_pow_right (by omega) (by omega)
    have hor : b ||| 2 ^ k = b + 2 ^ k := by
      have := Nat.two_pow_add_eq_or_of_lt (i := k) (b := b) (by omega) 1
      rw [mul_one] at this
      rw [Nat.or_comm, ← this, Nat.add_comm]
    rw [value_small (b := b) (by omega), value_small (b := b) (by omega), value_small (b := b) (by omega),
      value_small (b := b + 2 ^ k) (by omega)]
    simp only
    rw [copy_loop, copy_loop, if_pos hb, if_pos hb, hor, Nat.or_zero]
    exact ⟨rfl, rfl⟩

/-- The layers of a witness are those of the circuit. -/
structure GoodLayers (w : Nat) (p : GrandProductClaim F × (Nat → F)) (layers : List (List (Packed F))) : Prop where
  length : layers.length = p.1.nVars + 1
  value : ∀ (j : Nat) (l : List (Packed F)), layers[j]? = some l →
    ∀ b < 2 ^ (p.1.nVars - j), Gkr.value w l b = layerTable p.1.nVars p.2 j b

theorem goodLayers_of_new {w n : Nat} {input : List (Packed F)} {layers : List (List (Packed F))} (prod : F)
    (h : witnessNew w n input = some (some layers)) : GoodLayers w (⟨n, prod⟩, value w input) layers := by
  have hle : input.length ≤ 2 ^ (n - w) := by
    unfold witnessNew at h
    split at h
    · simp at h
    · omega
  have : ∃ l', layersFrom w n input = some l' ∧ layers = input :: l' := by
    unfold witnessNew at h
    rw [if_neg (by omega)] at h
    cases hl : layersFrom w n input with
    | none => simp [hl] at h
    | some l' =>
      rw [hl] at h
      simp only [Option.map_some, Option.some.injEq] at h
      exact ⟨l', rfl, h.symm⟩
  obtain ⟨l', h1, rfl⟩ := this
  obtain ⟨l'', d1, d2, d3, _⟩ := layersFrom_ok w n input hle
  rw [h1] at d1
  injection d1 with d1
  subst d1
  refine ⟨by simp [d2], fun j => ?_⟩
  induction j with
  | zero =>
    intro l hl b _
    rw [List.getElem?_cons_zero] at hl
    injection hl with hl
    rw [← hl]
    rfl
  | succ j ih =>
    intro l hl b hb
    have hj : j + 1 < (input :: l').length := (List.getElem?_eq_some_iff.mp hl).1
    have hj' : j < (input :: l').length := by omega
    have hlen : (input :: l').length = n + 1 := by simp [d2]
    have hprev := List.getElem?_eq_getElem hj'
    have hb' : b < 2 ^ (n - (j + 1)) := hb
    rw [d3 j _ l hprev hl b hb']
    have hsum : 2 ^ (n - (j + 1)) + 2 ^ (n - (j + 1)) ≤ 2 ^ (n - j) := by
      rw [← two_mul, ← pow_succ']
      exact Nat.pow_le_pow_right (by omega) (by omega)
    have e1 := ih _ hprev b (show b < 2 ^ (n - j) by omega)
    have e2 := ih _ hprev (b + 2 ^ (n - (j + 1))) (show b + 2 ^ (n - (j + 1)) < 2 ^ (n - j) by omega)
    rw [e1, e2]
    rfl

/-- A claim, its table, and the layers of the witness. -/
abbrev Running (F : Type) := (GrandProductClaim F × (Nat → F)) × List (List (Packed F))

/-- The state of the prover at the layer with `k` variables. -/
noncomputable def stateAt (k : Nat) (pt : List F) (q : Running F) : ProverState F :=
  ⟨q.2.take (q.1.1.nVars - k), mle (tab k q.1) pt⟩

/-- The layer with `k + 1` variables. -/
def layerOf (k : Nat) (q : Running F) : List (Packed F) := (q.2[q.1.1.nVars - (k + 1)]?).getD []

theorem popLayers_ok (w k : Nat) (pt : List F) : ∀ b : List (Running F), (∀ q ∈ b, GoodLayers w q.1 q.2) →
    (∀ q ∈ b, k + 1 ≤ q.1.1.nVars) →
    popLayers (b.map (stateAt k pt)) = .ok (b.map fun q =>
      (layerOf k q, ⟨q.2.take (q.1.1.nVars - (k + 1)), mle (tab k q.1) pt⟩))
  | [], _, _ => rfl
  | q :: b, hg, hk => by
    have ih := popLayers_ok w k pt b (fun p hp => hg p (by simp [hp])) fun p hp => hk p (by simp [hp])
    have hq := hk q (by simp)
    have hl := (hg q (by simp)).length
    have hi : q.1.1.nVars - (k + 1) < q.2.length := by omega
    have hlast : (q.2.take (q.1.1.nVars - k)).getLast? = some (layerOf k q) := by
      rw [List.getLast?_eq_getElem?, List.length_take, min_eq_left (by omega), List.getElem?_take_of_lt (by omega)]
      unfold layerOf
      rw [show q.1.1.nVars - k - 1 = q.1.1.nVars - (k + 1) by omega, List.getElem?_eq_getElem hi]
      rfl
    have hdrop : (q.2.take (q.1.1.nVars - k)).dropLast = q.2.take (q.1.1.nVars - (k + 1)) := by
      rw [List.dropLast_take (by omega)]
      congr 1
    rw [List.map_cons, popLayers]
    show (match (q.2.take (q.1.1.nVars - k)).getLast? with
      | none => _
      | some layer => _) = _
    rw [hlast]
    simp only
    rw [ih]
    show Except.ok ((_, (⟨(q.2.take (q.1.1.nVars - k)).dropLast, _⟩ : ProverState F)) :: _) = _
    rw [hdrop]
    rfl

/-- The two halves of the next layer. -/
theorem layerOf_value {w k : Nat} {q : Running F} (hg : GoodLayers w q.1 q.2) (hk : k + 1 ≤ q.1.1.nVars) (b : Nat)
    (hb : b < 2 ^ k) :
    value w (halves w k (layerOf k q)).1 b = tab (k + 1) q.1 b ∧
      value w (halves w k (layerOf k q)).2 b = tab (k + 1) q.1 (b + 2 ^ k) := by
  obtain ⟨h1, h2⟩ := halves_value w k (layerOf k q) b hb
  have hl := hg.length
  have hi : q.1.1.nVars - (k + 1) < q.2.length := by omega
  have hv := hg.value (q.1.1.nVars - (k + 1)) (layerOf k q) (by
    unfold layerOf
    rw [List.getElem?_eq_getElem hi]
    rfl)
  have e : q.1.1.nVars - (q.1.1.nVars - (k + 1)) = k + 1 := by omega
  rw [e, pow_succ, mul_two] at hv
  rw [h1, h2, hv b (by omega), hv (b + 2 ^ k) (by omega)]
  exact ⟨rfl, rfl⟩

/-- The items of a layer, in the tables the prover holds. -/
noncomputable def layerItems (w k : Nat) (pt : List F) (b : List (Running F)) : List (F × (Nat → F) × (Nat → F)) :=
  b.map fun q => (mle (tab k q.1) pt, value w (halves w k (layerOf k q)).1, value w (halves w k (layerOf k q)).2)

theorem layerItems_holds {w k : Nat} {pt : List F} {b : List (Running F)} (hpt : pt.length = k)
    (hg : ∀ q ∈ b, GoodLayers w q.1 q.2) (hk : ∀ q ∈ b, k + 1 ≤ q.1.1.nVars) :
    (layerInstance k (layerItems w k pt b)).Holds pt := by
  rw [layerInstance_holds _ _ _ hpt]
  intro p hp
  obtain ⟨q, hq, rfl⟩ := List.mem_map.mp hp
  show mle _ _ = mle _ _
  refine mle_congr fun b hb => ?_
  rw [hpt] at hb
  obtain ⟨e1, e2⟩ := layerOf_value (hg q hq) (hk q hq) b hb
  rw [tab_step (hk q hq)]
  show _ = value w _ b * value w _ b
  rw [e1, e2]

theorem next_eval {w k : Nat} {q : Running F} (hg : GoodLayers w q.1 q.2) (hk : k + 1 ≤ q.1.1.nVars) (c : List F)
    (hc : c.length = k) (x : F) :
    extrapolateLineScalar (mle (value w (halves w k (layerOf k q)).1) c)
      (mle (value w (halves w k (layerOf k q)).2) c) x = mle (tab (k + 1) q.1) (c ++ [x]) := by
  rw [mle_snoc, hc]
  have e1 : mle (value w (halves w k (layerOf k q)).1) c = mle (tab (k + 1) q.1) c :=
    mle_congr fun b hb => (layerOf_value hg hk b (by rw [← hc]; exact hb)).1
  have e2 : mle (value w (halves w k (layerOf k q)).2) c = mle (fun i => tab (k + 1) q.1 (i + 2 ^ k)) c :=
    mle_congr fun b hb => (layerOf_value hg hk b (by rw [← hc]; exact hb)).2
  rw [e1, e2]
  unfold extrapolateLineScalar
  ring

theorem chunks2_snoc {A B : Type} (f g : A → B) (l : List A) (x : B) :
    chunks2 ((l.flatMap fun p => [f p, g p]) ++ [x]) = l.map fun p => (f p, g p) := by
  induction l with
  | nil => rfl
  | cons a l ih =>
    show (f a, g a) :: chunks2 _ = _
    rw [List.map_cons, ← ih]
    rfl

/-- The prover of a layer is built, and it is honest. -/
theorem stage_ok {w : Nat} {order : EvaluationOrder} {build : ProverBuilder F} (hb : BuildsHonest w order build)
    (k : Nat) (pt : List F) (hpt : pt.length = k) (b : List (Running F)) (hg : ∀ q ∈ b, GoodLayers w q.1 q.2)
    (hk : ∀ q ∈ b, k + 1 ≤ q.1.1.nVars) :
    ∃ pr, stage w build (b.map (stateAt k pt)) pt = .ok (pr, b.map fun q =>
        ⟨q.2.take (q.1.1.nVars - (k + 1)), mle (tab k q.1) pt⟩) ∧ pr.evaluationOrder = order ∧
      Honest pr ((layerInstance k (layerItems w k pt b)).regular pt) := by
  set ms : List (List (Packed F) × Nat) := b.flatMap fun q =>
    [((halves w k (layerOf k q)).1, suffixLen w k (halves w k (layerOf k q)).1),
      ((halves w k (layerOf k q)).2, suffixLen w k (halves w k (layerOf k q)).2)] with hms
  have hmlen : ms.length = 2 * b.length := flatMap_pair_length _ _ _
  set items := layerItems w k pt b with hitems
  have hilen : items.length = b.length := by simp [hitems, layerItems]
  have hwf := layerInstance_wf k items
  obtain ⟨pr, h1, h2, h3⟩ := hb k ms pt (layerInstance k items).claim.sums (layerInstance k items).polys hpt
    (by
      intro m hm
      obtain ⟨q, _, hq⟩ := List.mem_flatMap.mp hm
      simp only [List.mem_cons, List.not_mem_nil, or_false] at hq
      rcases hq with rfl | rfl <;> rfl)
    (hwf.compositions.imp fun s p hs => by
      have e : (layerInstance k items).claim.nMultilinears = ms.length := by
        show 2 * items.length = _
        omega
      rw [e] at hs
      exact hs)
  refine ⟨pr, ?_, h2, h3 _ rfl ?_ ?_ ?_ ?_⟩
  · unfold stage
    rw [List.length_map, List.map_map, popLayers_ok w k pt b hg hk, layerSums_ok _ _ (by simp)]
    simp only
    have e1 : (b.map fun q => (layerOf k q, (⟨q.2.take (q.1.1.nVars - (k + 1)), mle (tab k q.1) pt⟩ : ProverState F))).flatMap
        (fun p => [((halves w pt.length p.1).1, suffixLen w pt.length (halves w pt.length p.1).1),
          ((halves w pt.length p.1).2, suffixLen w pt.length (halves w pt.length p.1).2)]) = ms := by
      rw [List.flatMap_map, hpt]
    have e2 : ((b.map ((fun s : ProverState F => s.layerEval) ∘ stateAt k pt)).zipIdx.map fun p =>
        (⟨pairComposition (2 * b.length) p.2, p.1⟩ : CompositeSum F)) = (layerInstance k items).claim.sums := by
      show _ = (items.map Prod.fst).zipIdx.map fun p =>
        (⟨pairComposition (2 * items.length) p.2, p.1⟩ : CompositeSum F)
      rw [hilen, hitems, layerItems, List.map_map]
      rfl
    rw [e1, e2, hpt, h1]
    simp only [List.map_map]
    rfl
  · show 2 * items.length + 1 = _
    omega
  · show List.Forall₂ _ (List.map _ _) _
    rw [List.forall₂_map_left_iff, List.forall₂_same]
    exact fun s _ => ⟨rfl, rfl⟩
  · show List.map _ _ = _
    have e : (layerInstance k items).claim.nMultilinears = ms.length := by
      show 2 * items.length = _
      omega
    rw [e]
  · show items.flatMap _ ++ [_] = _
    have e : suffix (layerInstance k items).claim.nVars pt = pt := by
      show suffix k pt = pt
      rw [← hpt]
      simp [suffix]
    rw [e, hms, List.map_flatMap, hitems, layerItems, List.flatMap_map]
    rfl

/-- The results of one layer on both sides. -/
theorem layer_agree {w : Nat} {order : EvaluationOrder} (k : Nat) (pt : List F) (hpt : pt.length = k)
    (b : List (Running F)) (hne : b ≠ []) (hg : ∀ q ∈ b, GoodLayers w q.1 q.2) (hk : ∀ q ∈ b, k + 1 ≤ q.1.1.nVars)
    (pr : SumcheckProver F) (ho : pr.evaluationOrder = order)
    (hh : Honest pr ((layerInstance k (layerItems w k pt b)).regular pt)) :
    Agree (fun o o' => o'.challenges = o.challenges ∧ o.challenges.length = k ∧
        (∃ x, o.multilinearEvals = [((layerItems w k pt b).flatMap fun p =>
          [mle p.2.1 o.challenges, mle p.2.2 o.challenges]) ++ [x]]) ∧
        o'.multilinearEvals = [(layerItems w k pt b).flatMap fun p =>
          [mle p.2.1 o.challenges, mle p.2.2 o.challenges]])
      (eqIndProve order [pr])
      (eqIndVerify order .descendingVars [(layerInstance k (layerItems w k pt b)).claim] pt) := by
  have hlen : (layerItems w k pt b).length = b.length := by simp [layerItems]
  have h := eqInd_agree order .descendingVars [(pr, layerInstance k (layerItems w k pt b))] pt
    (by simp [ho, hh]) (by simp [layerInstance_wf]) (by
      simp only [List.mem_singleton, forall_eq]
      exact layerItems_holds hpt hg hk) (by simp) (by simp [OrderOk]) _ (List.mem_singleton_self _)
    hpt.symm (by simp [layerInstance, hpt]) (Or.inr (by simp [layerInstance, hpt])) (Or.inr (by
      show (layerInstance k (layerItems w k pt b)).claim.sums ≠ []
      rw [ne_eq, ← List.length_eq_zero_iff, layerInstance_nSums, hlen, List.length_eq_zero_iff]
      exact hne))
  refine agree_mono h ?_
  rintro o o' ⟨h1, h2, h3, h4⟩
  have hsuf : suffix (layerInstance k (layerItems w k pt b)).claim.nVars o.challenges = o.challenges := by
    show suffix k _ = _
    rw [← hpt, ← h2]
    simp [suffix]
  simp only [List.map_cons, List.map_nil] at h3 h4
  rw [hsuf] at h3 h4
  have ht : (layerInstance k (layerItems w k pt b)).tables.map (fun t => mle t o.challenges) =
      (layerItems w k pt b).flatMap fun p => [mle p.2.1 o.challenges, mle p.2.2 o.challenges] := by
    show ((layerItems w k pt b).flatMap fun p => [p.2.1, p.2.2]).map _ = _
    rw [List.map_flatMap]
    rfl
  rw [ht] at h3 h4
  exact ⟨h1, by omega, ⟨_, h3⟩, h4⟩

/-- The finished claims on the prover's side. -/
theorem processFinishedProvers_ok (k : Nat) (pt : List F) (a b : List (Running F)) (done : List (LayerClaim F))
    (w : Nat) (hg : ∀ q ∈ b ++ a, GoodLayers w q.1 q.2)
    (ha : ∀ q ∈ a, q.1.1.nVars = k) (hb : ∀ q ∈ b, k + 1 ≤ q.1.1.nVars) :
    processFinishedProvers ((b ++ a).map (stateAt k pt)) pt done =
      .ok (b.map (stateAt k pt), (a.map fun q => ⟨pt, mle (tab k q.1) pt⟩) ++ done) := by
  unfold processFinishedProvers
  have hlive : ((b ++ a).map (stateAt k pt)).takeWhile (fun s => !s.remaining.isEmpty) = b.map (stateAt k pt) := by
    rw [List.map_append, List.takeWhile_append_of_pos]
    · cases a with
      | nil => simp
      | cons q a =>
        have hq := ha q (by simp)
        rw [List.map_cons, List.takeWhile_cons_of_neg, List.append_nil]
        simp [stateAt, hq]
    · intro s hs
      obtain ⟨q, hq, rfl⟩ := List.mem_map.mp hs
      have h1 := hb q hq
      have h2 := (hg q (by simp [hq])).length
      have : (q.2.take (q.1.1.nVars - k)).length ≠ 0 := by rw [List.length_take]; omega
      simp only [stateAt, Bool.not_eq_true', List.isEmpty_eq_false_iff]
      intro hc
      rw [hc] at this
      simp at this
  simp only [hlive]
  rw [List.map_append, List.drop_left, List.map_map,
    collect_map_ok a _ (fun q => (⟨pt, mle (tab k q.1) pt⟩ : LayerClaim F))]
  intro q hq
  simp [stateAt, ProverState.finalize, ha q hq]

theorem tab_eq_self {k : Nat} {p : GrandProductClaim F × (Nat → F)} (h : p.1.nVars = k) : tab k p = p.2 := by
  rw [← h, tab_self]

/-- Both loops run in step. -/
theorem layers_agree {w : Nat} {order : EvaluationOrder} {build : ProverBuilder F} (hbuild : BuildsHonest w order build) :
    ∀ (left k : Nat) (ss : List (Running F)) (pt : List F) (done : List (LayerClaim F))
      (dn : List (GrandProductClaim F × (Nat → F))), pt.length = k →
      (ss.Pairwise fun p q => q.1.1.nVars ≤ p.1.1.nVars) → (∀ q ∈ ss, GoodLayers w q.1 q.2) →
      (∀ q ∈ ss, k ≤ q.1.1.nVars) → (∀ q ∈ ss, q.1.1.nVars ≤ k + left) →
      (left = 0 ∨ ∃ q ∈ ss, q.1.1.nVars = k + left) → FinalClaimsHold dn done →
      Agree (fun a b => a = b ∧ FinalClaimsHold ((ss.map fun q => q.1) ++ dn) b)
        (proveLayers w order build (left + 1) (ss.map (stateAt k pt)) pt done)
        (verifyLayers order left k (ss.reverse.map fun q => q.1.1)
          (ss.reverse.map fun q => ⟨pt, mle (tab k q.1) pt⟩) done)
  | left, k, ss, pt, done, dn, hpt, hdesc, hg, hge, hle, hmax, hdone => by
    have hasc : (ss.reverse.map fun q => ((q.1, mle (tab k q.1) pt) : Pending F)).Pairwise
        fun p q => p.1.1.nVars ≤ q.1.1.nVars := by
      rw [List.pairwise_map, List.pairwise_reverse]
      exact hdesc
    have hge' : ∀ q ∈ ss.reverse.map fun q => ((q.1, mle (tab k q.1) pt) : Pending F), k ≤ q.1.1.nVars := by
      intro p hp
      obtain ⟨q, hq, rfl⟩ := List.mem_map.mp hp
      exact hge q (List.mem_reverse.mp hq)
    obtain ⟨a', b', h1, h2, h3, h4⟩ := processFinished_ok k pt
      (ss.reverse.map fun q => ((q.1, mle (tab k q.1) pt) : Pending F)) done
    have hgt := (left_gt h1 hasc hge' h3).2
    obtain ⟨ra, rb, hr, rfl, rfl⟩ := List.map_eq_append_iff.mp h1
    have hss : ss = rb.reverse ++ ra.reverse := by
      rw [← List.reverse_append, ← hr, List.reverse_reverse]
    set b := rb.reverse with hbdef
    set a := ra.reverse with hadef
    have hra : ra = a.reverse := by rw [hadef, List.reverse_reverse]
    have hrb : rb = b.reverse := by rw [hbdef, List.reverse_reverse]
    have ha : ∀ q ∈ a, q.1.1.nVars = k := fun q hq =>
      h2 (q.1, mle (tab k q.1) pt) (List.mem_map.mpr ⟨q, by rw [hra]; exact List.mem_reverse.mpr hq, rfl⟩)
    have hb : ∀ q ∈ b, k + 1 ≤ q.1.1.nVars := fun q hq =>
      hgt (q.1, mle (tab k q.1) pt) (List.mem_map.mpr ⟨q, by rw [hrb]; exact List.mem_reverse.mpr hq, rfl⟩)
    rw [List.map_map, List.map_map] at h4
    have hpp := processFinishedProvers_ok k pt a b done w (by rw [← hss]; exact hg) ha hb
    have hdone' : FinalClaimsHold ((a.map fun q => q.1) ++ dn)
        ((a.map fun q => ⟨pt, mle (tab k q.1) pt⟩) ++ done) := by
      refine List.rel_append ?_ hdone
      rw [List.forall₂_map_left_iff, List.forall₂_map_right_iff, List.forall₂_same]
      intro q hq
      refine ⟨?_, ?_⟩
      · show pt.length = _
        rw [hpt, ha q hq]
      · show mle (tab k q.1) pt = _
        rw [tab_eq_self (ha q hq)]
    have hrev : ((ra.map fun q => ((q.1, mle (tab k q.1) pt) : Pending F)).map fun q =>
        (⟨pt, q.2⟩ : LayerClaim F)).reverse = a.map fun q => ⟨pt, mle (tab k q.1) pt⟩ := by
      rw [hra, List.map_map, ← List.map_reverse, List.reverse_reverse]
      rfl
    rw [hrev] at h4
    have h4' : processFinishedClaims k (ss.reverse.map fun q => q.1.1)
        (ss.reverse.map fun q => (⟨pt, mle (tab k q.1) pt⟩ : LayerClaim F)) done = _ := h4
    rw [proveLayers, hss, hpp, ← hss]
    show Agree _ (if (b.map (stateAt k pt)).isEmpty then _ else _) _
    match left, hle, hmax with
    | 0, hle, hmax =>
      have hbnil : b = [] := by
        cases hbb : b with
        | nil => rfl
        | cons q l =>
          have := hb q (by simp [hbb])
          have := hle q (by rw [hss, hbb]; simp)
          omega
      rw [hbnil, if_pos (by rfl), verifyLayers, h4', ofExcept_bind]
      refine .ret ⟨rfl, ?_⟩
      rw [hss, hbnil]
      exact hdone'
    | left + 1, hle, hmax =>
      have hbne : b ≠ [] := by
        rcases hmax with h | ⟨q, hq, h⟩
        · omega
        · rw [hss, List.mem_append] at hq
          rcases hq with hq | hq
          · rintro hb0
            rw [hb0] at hq
            simp at hq
          · have := ha q hq
            omega
      have hgb : ∀ q ∈ b, GoodLayers w q.1 q.2 := fun q hq => hg q (by rw [hss]; simp [hq])
      rw [if_neg (by simpa using hbne), verifyLayers, h4', ofExcept_bind]
      simp only
      obtain ⟨pr, s1, s2, s3⟩ := stage_ok hbuild k pt hpt b hgb hb
      rw [s1]
      show Agree _ ((eqIndProve order [pr]).bind _) _
      have hv : ((rb.map fun q => ((q.1, mle (tab k q.1) pt) : Pending F)).map fun q =>
          (⟨pt, q.2⟩ : LayerClaim F)).reverse = (layerItems w k pt b).map fun p => ⟨pt, p.1⟩ := by
        rw [hrb, List.map_map, ← List.map_reverse, List.reverse_reverse, layerItems, List.map_map]
        rfl
      have hilen : (layerItems w k pt b).length = b.length := by simp [layerItems]
      rw [hv, reduce_eq order pt (layerItems w k pt b) (by
        rw [ne_eq, ← List.length_eq_zero_iff, hilen, List.length_eq_zero_iff]; exact hbne), Verif.Protocol.bind_assoc, hpt]
      refine agree_bind (layer_agree k pt hpt b hbne hgb hb pr s2 s3) ?_
      rintro o o' ⟨c1, c2, ⟨y, c3⟩, c4⟩
      refine .sample fun x => ?_
      simp only [Prog.bind]
      rw [c2, if_neg (by simp), c3, c4]
      simp only [Prog.bind]
      rw [chunks2_snoc, chunks2_flatMap, c1]
      have e1 : (layerItems w k pt b).map (fun p => (mle p.2.1 o.challenges, mle p.2.2 o.challenges)) =
          b.map fun q => (mle (value w (halves w k (layerOf k q)).1) o.challenges,
            mle (value w (halves w k (layerOf k q)).2) o.challenges) := by
        rw [layerItems, List.map_map]
        rfl
      rw [e1, List.length_map, List.drop_eq_nil_of_le (by simp), List.append_nil]
      have e2 : List.zipWith (fun (s : ProverState F) (e : F × F) =>
          ({ s with layerEval := extrapolateLineScalar e.1 e.2 x } : ProverState F))
          (b.map fun q => ⟨q.2.take (q.1.1.nVars - (k + 1)), mle (tab k q.1) pt⟩)
          (b.map fun q => (mle (value w (halves w k (layerOf k q)).1) o.challenges,
            mle (value w (halves w k (layerOf k q)).2) o.challenges)) =
          b.map (stateAt (k + 1) (o.challenges ++ [x])) := by
        rw [List.zipWith_map, List.zipWith_self]
        refine List.map_congr_left fun q hq => ?_
        show (⟨_, _⟩ : ProverState F) = ⟨_, _⟩
        rw [next_eval (hgb q hq) (hb q hq) _ c2]
      have e3 : ((b.map fun q => (mle (value w (halves w k (layerOf k q)).1) o.challenges,
            mle (value w (halves w k (layerOf k q)).2) o.challenges)).map fun p =>
              (⟨o.challenges ++ [x], extrapolateLineScalar p.1 p.2 x⟩ : LayerClaim F)).reverse =
          b.reverse.map fun q => ⟨o.challenges ++ [x], mle (tab (k + 1) q.1) (o.challenges ++ [x])⟩ := by
        rw [List.map_map, ← List.map_reverse]
        refine List.map_congr_left fun q hq => ?_
        have hq := List.mem_reverse.mp hq
        show (⟨_, _⟩ : LayerClaim F) = ⟨_, _⟩
        rw [next_eval (hgb q hq) (hb q hq) _ c2]
      rw [e2, e3]
      have e4 : (rb.map fun q => ((q.1, mle (tab k q.1) pt) : Pending F)).map (fun q => q.1.1) =
          b.reverse.map fun q => q.1.1 := by
        rw [hrb, List.map_map]
        rfl
      rw [e4]
      have hgood : (ss.map fun q => q.1) ++ dn = (b.map fun q => q.1) ++ ((a.map fun q => q.1) ++ dn) := by
        rw [hss]
        simp
      rw [hgood]
      refine layers_agree hbuild left (k + 1) b (o.challenges ++ [x]) _ _ (by simp [c2]) ?_ hgb hb ?_ ?_ hdone'
      · rw [hss] at hdesc
        exact (List.pairwise_append.mp hdesc).1
      · intro q hq
        have := hle q (by rw [hss]; simp [hq])
        omega
      · refine Or.inr ?_
        rcases hmax with h | ⟨q, hq, h⟩
        · omega
        · rw [hss, List.mem_append] at hq
          rcases hq with hq | hq
          · exact ⟨q, hq, by omega⟩
          · have := ha q hq
            omega
  termination_by left => left

end Verif.Gkr
