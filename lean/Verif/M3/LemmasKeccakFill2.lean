import Verif.M3.LemmasKeccakFill

/-! `populate` of the whole Keccak gadget. -/

set_option linter.dupNamespace false
set_option linter.unusedSectionVars false

namespace Verif.M3.Keccak

open Finset Verif.Arith

variable {F : Type} [Field F] [DecidableEq F]

/-! ### The columns that link the tracks -/

theorem fillNext_ok (basis : Nat → F) {next sin sout : Col} (h1 : sin.idx ≠ next.idx) (h2 : sout.idx ≠ next.idx) :
    ∀ (n k : Nat) (w : Row F), (∀ p, k ≤ p → p < k + n → getLane w sin (p + 1) = getLane w sout p) →
      fillNext basis next sin sout k n w = some fun i p =>
        if i = next.idx ∧ k ≤ p ∧ p < k + n then packLane basis (getLane w sin (p + 1)) else w i p
  | 0, k, w, _ => by
    rw [fillNext]
    congr 1
    funext i p
    rw [if_neg (by omega)]
  | n + 1, k, w, h => by
    rw [fillNext]
    rw [if_pos (h k le_rfl (by omega))]
    have hs : ∀ (c : Col) (q : Nat), c.idx ≠ next.idx → getLane (setEntry w next k (packLane basis (getLane w sin (k + 1)))) c q =
        getLane w c q := fun c q hc => getLane_congr (fun p => if_neg fun h' => hc h'.1) q
    rw [fillNext_ok basis h1 h2 n (k + 1) _ fun p hp hp' => by
      rw [hs _ _ h1, hs _ _ h2]; exact h p (by omega) (by omega)]
    congr 1
    funext i p
    by_cases hi : i = next.idx
    · by_cases hp : k + 1 ≤ p ∧ p < k + 1 + n
      · rw [if_pos ⟨hi, hp⟩, if_pos ⟨hi, by omega, by omega⟩, hs _ _ h1]
      · rw [if_neg fun h' => hp h'.2]
        by_cases hk : p = k
        · subst hk
          rw [if_pos ⟨hi, le_rfl, by omega⟩, setEntry, if_pos ⟨hi, rfl⟩]
        · rw [if_neg (by omega), setEntry, if_neg fun h' => hk h'.2]
    · rw [if_neg fun h' => hi h'.1, if_neg fun h' => hi h'.1, setEntry, if_neg fun h' => hi h'.1]

/-- What is written for the entry `j` of the matrices. -/
structure Linked (basis : Nat → F) (g : Keccakf) (trace : Fin 24 → RoundTrace) (w w' : Row F) (j : Fin 25) : Prop where
  next : ∀ p < 7, w' (g.nextStateIn j).idx p = packLane basis (getLane w ((g.batches 0).stateIn j) (p + 1))
  input : w' (g.input j).idx 0 = packLane basis ((trace 0).stateIn j)
  output : w' (g.output j).idx 0 = packLane basis ((trace 23).stateOut j)

theorem fillLinks_ok (basis : Nat → F) {L : Nat} {g : Keccakf} (hc : TopCols L g) (trace : Fin 24 → RoundTrace) :
    ∀ (ps : List (Nat × Nat)) (w : Row F),
      (∀ j, ∀ p < 7, getLane w ((g.batches 0).stateIn j) (p + 1) = getLane w ((g.batches 2).stateOut j) p) →
      ∃ w', g.fillLinks basis trace ps w = some w' ∧
        (∀ i, i < L + 345 ∨ i = L + 395 → ∀ p, w' i p = w i p) ∧
        (∀ j, w' (g.nextStateIn j).idx 7 = w (g.nextStateIn j).idx 7) ∧
        (∀ j, (∃ q ∈ ps, pos q.1 q.2 = j) → Linked basis g trace w w' j) ∧
        ∀ j, (∀ q ∈ ps, pos q.1 q.2 ≠ j) → (∀ p, w' (g.nextStateIn j).idx p = w (g.nextStateIn j).idx p) ∧
          w' (g.input j).idx 0 = w (g.input j).idx 0 ∧ w' (g.output j).idx 0 = w (g.output j).idx 0 := by
  intro ps
  induction ps with
  | nil => exact fun w _ => ⟨w, rfl, fun _ _ _ => rfl, fun _ => rfl, by simp, fun _ _ => ⟨fun _ => rfl, rfl, rfl⟩⟩
  | cons q0 ps ih =>
    obtain ⟨x, y⟩ := q0
    intro w h
    have hsin := fun j => hc.stateIn j
    have hsout := fun j => (hc.batch 2).out j
    have hn := hc.nextStateIn
    have hi := hc.input
    have ho := hc.output
    have e1 := fillNext_ok basis (next := g.nextStateIn.at x y) (sin := (g.batches 0).stateIn.at x y)
      (sout := (g.batches 2).stateOut.at x y)
      (by have := hsin (pos x y); have := hn (pos x y); have := (pos x y).isLt; unfold Mat.at; omega)
      (by
        have := hsout (pos x y); have := hn (pos x y); have := (pos x y).isLt
        have : (2 : Fin 3).val = 2 := rfl
        unfold Mat.at; omega) 7 0 w
      (fun p _ hp => h (pos x y) p (by omega))
    set w1 : Row F := fun i p =>
      if i = (g.nextStateIn.at x y).idx ∧ 0 ≤ p ∧ p < 0 + 7 then
        packLane basis (getLane w ((g.batches 0).stateIn.at x y) (p + 1)) else w i p with hw1
    set w2 : Row F := setEntry (setEntry w1 (g.input.at x y) 0 (packLane basis ((trace 0).stateIn.at x y)))
      (g.output.at x y) 0 (packLane basis ((trace 23).stateOut.at x y)) with hw2
    have hx := (pos x y).isLt
    have hnx : (g.nextStateIn.at x y).idx = L + 396 + (pos x y).val := hn _
    have hix : (g.input.at x y).idx = L + 345 + (pos x y).val := hi _
    have hox : (g.output.at x y).idx = L + 370 + (pos x y).val := ho _
    have keep : ∀ i, i ≠ (g.nextStateIn.at x y).idx → i ≠ (g.input.at x y).idx → i ≠ (g.output.at x y).idx →
        ∀ p, w2 i p = w i p := fun i a b c p => by
      rw [hw2, setEntry, if_neg fun h' => c h'.1, setEntry, if_neg fun h' => b h'.1, hw1]
      exact if_neg fun h' => a h'.1
    have keepn : ∀ j p, (j ≠ pos x y ∨ 7 ≤ p) → w2 (g.nextStateIn j).idx p = w (g.nextStateIn j).idx p := fun j p hjp => by
      have hj := j.isLt
      have := hn j
      rw [hw2, setEntry, if_neg (by omega), setEntry, if_neg (by omega), hw1]
      dsimp only
      refine if_neg ?_
      rintro ⟨h1, -, h2⟩
      rcases hjp with hjp | hjp
      · exact hjp (Fin.ext (by omega))
      · omega
    have hl : ∀ j q, getLane w2 ((g.batches 0).stateIn j) q = getLane w ((g.batches 0).stateIn j) q := fun j q =>
      getLane_congr (keep _ (by have := hsin j; have := j.isLt; omega) (by have := hsin j; have := j.isLt; omega)
        (by have := hsin j; have := j.isLt; omega)) q
    have hl2 : ∀ j q, getLane w2 ((g.batches 2).stateOut j) q = getLane w ((g.batches 2).stateOut j) q := fun j q => by
      have := hsout j
      have := j.isLt
      have : (2 : Fin 3).val = 2 := rfl
      exact getLane_congr (keep _ (by omega) (by omega) (by omega)) q
    obtain ⟨w', r1, r2, r3, r4, r5⟩ := ih w2 fun j p hp => by
      rw [hl, hl2]; exact h j p hp
    refine ⟨w', ?_, fun i hi' p => ?_, fun j => ?_, fun j hj => ?_, fun j hj => ?_⟩
    · rw [Keccakf.fillLinks, e1, Option.bind_some]
      exact r1
    · rw [r2 i hi' p, keep i (by omega) (by omega) (by omega)]
    · rw [r3 j, keepn j 7 (Or.inr le_rfl)]
    · by_cases hj' : ∃ q ∈ ps, pos q.1 q.2 = j
      · obtain ⟨s1, s2, s3⟩ := r4 j hj'
        exact ⟨fun p hp => by rw [s1 p hp, hl], s2, s3⟩
      · obtain ⟨q, hq, rfl⟩ := hj
        rcases List.mem_cons.1 hq with rfl | hq
        · obtain ⟨s1, s2, s3⟩ := r5 _ (fun q hq h' => hj' ⟨q, hq, h'⟩)
          refine ⟨fun p hp => ?_, ?_, ?_⟩
          · rw [s1 p, hw2]
            dsimp only
            have := hn (pos x y)
            rw [setEntry, if_neg (by omega), setEntry, if_neg (by omega), hw1]
            exact if_pos ⟨rfl, Nat.zero_le _, by omega⟩
          · rw [s2, hw2]
            dsimp only
            have := hi (pos x y)
            rw [setEntry, if_neg (by omega)]
            exact if_pos ⟨rfl, rfl⟩
          · rw [s3, hw2]
            exact if_pos ⟨rfl, rfl⟩
        · exact absurd ⟨q, hq, rfl⟩ hj'
    · obtain ⟨s1, s2, s3⟩ := r5 j fun q hq => hj q (List.mem_cons_of_mem _ hq)
      have hne : j ≠ pos x y := fun h' => hj (x, y) List.mem_cons_self h'.symm
      have hv : j.val ≠ (pos x y).val := fun h' => hne (Fin.ext h')
      have := j.isLt
      have := hi j
      have := ho j
      exact ⟨fun p => by rw [s1 p, keepn j p (Or.inl hne)], by rw [s2, keep _ (by omega) (by omega) (by omega)],
        by rw [s3, keep _ (by omega) (by omega) (by omega)]⟩

theorem pairs_all (j : Fin 25) : ∃ q ∈ pairs, pos q.1 q.2 = j :=
  ⟨(j.val % 5, j.val / 5), by
    simp only [pairs, List.mem_flatMap, List.mem_map, List.mem_range, Prod.mk.injEq]
    exact ⟨j.val % 5, Nat.mod_lt _ (by norm_num), j.val / 5, by omega, rfl, rfl⟩, pos_surj j⟩

/-! ### The packed columns -/

theorem find_none {m : Mat Col} {i : Nat} (h : ∀ j, (m j).idx ≠ i) : (List.finRange 25).find? (fun j => (m j).idx = i) = none :=
  List.find?_eq_none.2 fun j _ => by simpa using h j

theorem find_some {m : Mat Col} {B : Nat} (hm : ∀ j, (m j).idx = B + j.val) (j : Fin 25) :
    (List.finRange 25).find? (fun j' => (m j').idx = (m j).idx) = some j := by
  rcases h : (List.finRange 25).find? fun j' => (m j').idx = (m j).idx with _ | j'
  · have := List.find?_eq_none.1 h j (List.mem_finRange j)
    simp at this
  · have := List.find?_some h
    have e : (m j').idx = (m j).idx := by simpa using this
    rw [hm, hm] at e
    exact congrArg some (Fin.ext (by omega))

theorem fillPacked_ok (basis : Nat → F) {L : Nat} {g : Keccakf} (hc : TopCols L g) (w : Row F) :
    (∀ i, ¬ (L + 25 ≤ i ∧ i < L + 50) → ¬ (L + 320 ≤ i ∧ i < L + 345) → ∀ p, g.fillPacked basis w i p = w i p) ∧
    (∀ j p, g.fillPacked basis w (g.stateInPacked j).idx p = packLane basis (getLane w ((g.batches 0).stateIn j) p)) ∧
    ∀ j p, g.fillPacked basis w (g.stateOutPacked j).idx p = packLane basis (getLane w ((g.batches 2).stateOut j) p) := by
  refine ⟨fun i h1 h2 p => ?_, fun j p => ?_, fun j p => ?_⟩
  · unfold Keccakf.fillPacked
    rw [find_none fun j => by have := hc.stateInPacked j; have := j.isLt; omega]
    dsimp only
    rw [find_none fun j => by have := hc.stateOutPacked j; have := j.isLt; omega]
  · unfold Keccakf.fillPacked
    rw [find_some hc.stateInPacked j]
  · unfold Keccakf.fillPacked
    rw [find_none fun j' => by have := hc.stateInPacked j'; have := hc.stateOutPacked j; have := j'.isLt; omega]
    dsimp only
    rw [find_some hc.stateOutPacked j]

/-! ### The whole -/

variable [CharP F 2]

theorem populateRow_ok (Tw : Tower F) {L : Nat} {g : Keccakf} (hc : TopCols L g) (w : Row F) :
    ∃ w', g.populateRow Tw.basis w = some w' ∧ (∀ i < L, ∀ p, w' i p = w i p) ∧
      (∀ j, w' (g.nextStateIn j).idx 7 = w (g.nextStateIn j).idx 7) ∧
      inState w' (g.batches 0) 0 = (fun i => getLane w ((g.batches 0).stateIn i) 0) ∧
      ((∀ j, w (g.nextStateIn j).idx 7 = 0) → TopRow Tw w' g) := by
  set s : Mat (BitVec 64) := fun i => getLane w ((g.batches 0).stateIn i) 0 with hs
  have n0 : (0 : Fin 3).val = 0 := rfl
  have n1 : (1 : Fin 3).val = 1 := rfl
  have n2 : (2 : Fin 3).val = 2 := rfl
  have B0 := hc.batch 0
  have B1 := hc.batch 1
  have B2 := hc.batch 2
  rw [n0] at B0
  rw [n1] at B1
  rw [n2] at B2
  have in1 : ∀ i, ((g.batches 1).stateIn i).idx = L + 50 + i.val := fun i => by rw [hc.next1, B0.out]
  have in2 : ∀ i, ((g.batches 2).stateIn i).idx = L + 140 + i.val := fun i => by rw [hc.next2, B1.out]
  obtain ⟨d0, k0, -⟩ := batch_populate (M := L) (by omega) hc.stateIn B0 (keccakfTrace s) w
  set w1 := (g.batches 0).populate (keccakfTrace s) w with hw1
  obtain ⟨d1, k1, l1⟩ := batch_populate (M := L + 50) (by omega) in1 B1 (keccakfTrace s) w1
  set w2 := (g.batches 1).populate (keccakfTrace s) w1 with hw2
  obtain ⟨d2, k2, l2⟩ := batch_populate (M := L + 140) (by omega) in2 B2 (keccakfTrace s) w2
  set w3 := (g.batches 2).populate (keccakfTrace s) w2 with hw3
  have next : ∀ (n : Nat) (h : n + 1 < 24), (keccakfTrace s ⟨n + 1, h⟩).stateIn = (keccakfTrace s ⟨n, by omega⟩).stateOut := by
    intro n h
    rw [trace_apply, trace_apply]
    exact before_succ s ⟨n, by omega⟩
  have link01 : ∀ k j, (keccakfTrace s (nthRound (g.batches 1).batchNo k)).stateIn j =
      (keccakfTrace s (nthRound (g.batches 0).batchNo k)).stateOut j := fun k j => by
    rw [hc.no, hc.no]
    exact congrFun (next (k.val * 3) (by have := k.isLt; omega)) j
  have link12 : ∀ k j, (keccakfTrace s (nthRound (g.batches 2).batchNo k)).stateIn j =
      (keccakfTrace s (nthRound (g.batches 1).batchNo k)).stateOut j := fun k j => by
    rw [hc.no, hc.no]
    exact congrFun (next (k.val * 3 + 1) (by have := k.isLt; omega)) j
  have s1 : ∀ j p, w2 ((g.batches 1).stateIn j).idx p = w1 ((g.batches 1).stateIn j).idx p := fun j => l1 j (by
    simp only [link01]
    rw [hc.next1]
    exact d0.out j)
  have s2 : ∀ j p, w3 ((g.batches 2).stateIn j).idx p = w2 ((g.batches 2).stateIn j).idx p := fun j => l2 j (by
    simp only [link12]
    rw [hc.next2]
    exact d1.out j)
  have p1 : ∀ i, i < L + 140 ∨ L + 230 ≤ i → ∀ p, w2 i p = w1 i p := fun i hi p => by
    by_cases h : ∃ j, i = ((g.batches 1).stateIn j).idx
    · obtain ⟨j, rfl⟩ := h
      exact s1 j p
    · exact k1 i (by omega) (fun j h' => h ⟨j, h'⟩) p
  have p2 : ∀ i, i < L + 230 ∨ L + 320 ≤ i → ∀ p, w3 i p = w2 i p := fun i hi p => by
    by_cases h : ∃ j, i = ((g.batches 2).stateIn j).idx
    · obtain ⟨j, rfl⟩ := h
      exact s2 j p
    · exact k2 i (by omega) (fun j h' => h ⟨j, h'⟩) p
  have e0 : Done w3 (g.batches 0) fun k => keccakfTrace s (nthRound (g.batches 0).batchNo k) :=
    d0.congr_row (M := L) (L := L + 50 + 90 * 0) (by omega) hc.stateIn B0 fun i hi p => by
      rw [p2 i (by omega), p1 i (by omega)]
  have e1 : Done w3 (g.batches 1) fun k => keccakfTrace s (nthRound (g.batches 1).batchNo k) :=
    d1.congr_row (M := L + 50) (L := L + 50 + 90 * 1) (by omega) in1 B1 fun i hi p => p2 i (by omega) p
  obtain ⟨f1, f2, f3⟩ := fillPacked_ok Tw.basis hc w3
  set w4 := g.fillPacked Tw.basis w3 with hw4
  have sin4 : ∀ j q, getLane w4 ((g.batches 0).stateIn j) q = getLane w3 ((g.batches 0).stateIn j) q := fun j q =>
    getLane_congr (f1 _ (by have := hc.stateIn j; have := j.isLt; omega) (by have := hc.stateIn j; have := j.isLt; omega)) q
  have sout4 : ∀ j q, getLane w4 ((g.batches 2).stateOut j) q = getLane w3 ((g.batches 2).stateOut j) q := fun j q =>
    getLane_congr (f1 _ (by have := B2.out j; have := j.isLt; omega) (by have := B2.out j; have := j.isLt; omega)) q
  have vin : ∀ j (k : Fin 8), getLane w3 ((g.batches 0).stateIn j) k.val = (keccakfTrace s (nthRound 0 k)).stateIn j :=
    fun j k => by
      have := (e0.stateIn j).lane k
      rw [hc.no] at this
      exact this
  have vout : ∀ j (k : Fin 8), getLane w3 ((g.batches 2).stateOut j) k.val = (keccakfTrace s (nthRound 2 k)).stateOut j :=
    fun j k => by
      have := (d2.out j).lane k
      rw [hc.no] at this
      exact this
  have vlink : ∀ j, ∀ p < 7, getLane w3 ((g.batches 0).stateIn j) (p + 1) = getLane w3 ((g.batches 2).stateOut j) p := by
    intro j p hp
    refine (vin j ⟨p + 1, by omega⟩).trans (Eq.trans ?_ (vout j ⟨p, by omega⟩).symm)
    have := congrFun (next (p * 3 + 2) (by omega)) j
    refine Eq.trans (congrArg (fun r => (keccakfTrace s r).stateIn j) (Fin.ext ?_)) this
    show (p + 1) * 3 + 0 = p * 3 + 2 + 1
    omega
  obtain ⟨w5, r1, r2, r3, r4, -⟩ := fillLinks_ok Tw.basis hc (keccakfTrace s) pairs w4 fun j p hp => by
    rw [sin4, sout4]; exact vlink j p hp
  have keep5 : ∀ i, i ≠ L + 395 → ∀ p, setLinkSel w5 g.linkSel i p = w5 i p := fun i hi p =>
    if_neg fun h' => hi (h'.1.trans hc.linkSel)
  set w6 := setLinkSel w5 g.linkSel with hw6
  have k63 : ∀ i, i < L + 320 → ¬ (L + 25 ≤ i ∧ i < L + 50) → ∀ p, w6 i p = w3 i p := fun i hi hi' p => by
    rw [keep5 i (by omega), r2 i (by omega), f1 i hi' (by omega)]
  have lin : ∀ j, lanes w6 ((g.batches 0).stateIn j) = lanes w3 ((g.batches 0).stateIn j) := fun j => funext fun k =>
    getLane_congr (k63 _ (by have := hc.stateIn j; have := j.isLt; omega) (by have := hc.stateIn j; have := j.isLt; omega)) k
  have lout : ∀ j, lanes w6 ((g.batches 2).stateOut j) = lanes w3 ((g.batches 2).stateOut j) := fun j => funext fun k =>
    getLane_congr (k63 _ (by have := B2.out j; have := j.isLt; omega) (by have := B2.out j; have := j.isLt; omega)) k
  have g0 : Done w6 (g.batches 0) fun k => keccakfTrace s (nthRound (g.batches 0).batchNo k) :=
    e0.congr_row (M := L) (L := L + 50 + 90 * 0) (by omega) hc.stateIn B0 fun i hi p => k63 i (by omega) (by omega) p
  have g1 : Done w6 (g.batches 1) fun k => keccakfTrace s (nthRound (g.batches 1).batchNo k) :=
    e1.congr_row (M := L + 50) (L := L + 50 + 90 * 1) (by omega) in1 B1 fun i hi p => k63 i (by omega) (by omega) p
  have g2 : Done w6 (g.batches 2) fun k => keccakfTrace s (nthRound (g.batches 2).batchNo k) :=
    d2.congr_row (M := L + 140) (L := L + 50 + 90 * 2) (by omega) in2 B2 fun i hi p => k63 i (by omega) (by omega) p
  have last : ∀ j, w6 (g.nextStateIn j).idx 7 = w (g.nextStateIn j).idx 7 := fun j => by
    have hn := hc.nextStateIn j
    have hj := j.isLt
    rw [keep5 _ (by omega), r3 j, f1 _ (by omega) (by omega), p2 _ (by omega), p1 _ (by omega),
      k0 _ (by omega) (fun j' => by have := hc.stateIn j'; have := j'.isLt; omega)]
  refine ⟨w6, ?_, fun i hi p => ?_, last, ?_, fun hz => ⟨fun i => ?_, fun n => ?_, fun i k => ?_, fun i k => ?_, fun i => ?_,
    fun i => ?_, fun k => ?_, fun i k => ?_, fun i => ?_, fun i k => ?_⟩⟩
  · rw [Keccakf.populateRow]
    rw [← hs, ← hw1, ← hw2, ← hw3, ← hw4, r1, Option.bind_some]
  · rw [k63 i (by omega) (by omega), p2 i (by omega), p1 i (by omega),
      k0 i (by omega) (fun j => by have := hc.stateIn j; omega)]
  · funext i
    show lanes w6 _ 0 = s i
    rw [lin i]
    refine (vin i 0).trans ?_
    rw [trace_apply]
    rfl
  · exact lanes_of_isBit (g0.stateIn i).isBit
  · fin_cases n
    · exact g0.batchRow
    · exact g1.batchRow
    · exact g2.batchRow
  · have := hc.stateInPacked i
    have := i.isLt
    rw [keep5 _ (by omega), r2 _ (by omega), f2, lin]
    rfl
  · have := hc.stateOutPacked i
    have := i.isLt
    rw [keep5 _ (by omega), r2 _ (by omega), f3, lout]
    rfl
  · have := hc.input i
    have := i.isLt
    rw [keep5 _ (by omega), (r4 i (pairs_all i)).input, lin]
    exact congrArg _ (vin i 0).symm
  · have := hc.output i
    have := i.isLt
    rw [keep5 _ (by omega), (r4 i (pairs_all i)).output, lout]
    exact congrArg _ (vout i 7).symm
  · rw [hw6, setLinkSel, if_pos ⟨rfl, k.isLt⟩]
    fin_cases k <;> rfl
  · have := hc.nextStateIn i
    have := i.isLt
    rw [keep5 _ (by omega), (r4 i (pairs_all i)).next k.val k.isLt, lin, sin4]
    rfl
  · rw [last i]; exact hz i
  · rw [lin, lout]
    exact (vlink i k.val k.isLt).symm

/-! ### The input states -/

theorem setStateIn_ok {L : Nat} {g : Keccakf} (hc : TopCols L g) (s : Mat (BitVec 64)) (w : Row F) :
    (∀ i, ¬ (L ≤ i ∧ i < L + 25) → ∀ p, (g.batches 0).setStateIn 0 s w i p = w i p) ∧
      ∀ j, getLane ((g.batches 0).setStateIn 0 s w) ((g.batches 0).stateIn j) 0 = s j := by
  have main : ∀ (ps : List (Nat × Nat)) (w : Row F),
      (∀ i, ¬ (L ≤ i ∧ i < L + 25) → ∀ p, (ps.foldl (fun w p => setLane w ((g.batches 0).stateIn.at p.1 p.2) 0 (s.at p.1 p.2)) w) i p = w i p) ∧
      ∀ j, (∃ q ∈ ps, pos q.1 q.2 = j) ∨ getLane w ((g.batches 0).stateIn j) 0 = s j →
        getLane (ps.foldl (fun w p => setLane w ((g.batches 0).stateIn.at p.1 p.2) 0 (s.at p.1 p.2)) w) ((g.batches 0).stateIn j) 0 = s j := by
    intro ps
    induction ps with
    | nil => exact fun w => ⟨fun _ _ _ => rfl, fun j hj => by simpa using hj⟩
    | cons q ps ih =>
      intro w
      obtain ⟨h1, h2⟩ := ih (setLane w ((g.batches 0).stateIn.at q.1 q.2) 0 (s.at q.1 q.2))
      have hq : ((g.batches 0).stateIn.at q.1 q.2).idx = L + (pos q.1 q.2).val := hc.stateIn _
      have hlt := (pos q.1 q.2).isLt
      refine ⟨fun i hi p => (h1 i hi p).trans (if_neg fun h' => by omega), fun j hj => h2 j ?_⟩
      by_cases hp : pos q.1 q.2 = j
      · refine Or.inr (BitVec.eq_of_getLsbD_eq fun z hz => ?_)
        rw [getLane_bit _ _ _ hz, setLane, if_pos ⟨by rw [hq, hc.stateIn, hp], by omega⟩,
          show (64 * 0 + z) % 64 = z by omega, show s.at q.1 q.2 = s j from congrArg s hp]
        cases (s j).getLsbD z <;> simp
      · rcases hj with ⟨r, hr, hrj⟩ | hj
        · rcases List.mem_cons.1 hr with rfl | hr
          · exact absurd hrj hp
          · exact Or.inl ⟨r, hr, hrj⟩
        · refine Or.inr ((getLane_congr (fun p => if_neg fun h' => hp ?_) 0).trans hj)
          have := h'.1
          rw [hq, hc.stateIn] at this
          exact Fin.ext (by omega)
  obtain ⟨h1, h2⟩ := main pairs w
  exact ⟨h1, fun j => h2 j (Or.inl (pairs_all j))⟩

end Verif.M3.Keccak
