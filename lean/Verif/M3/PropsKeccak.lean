import Verif.M3.LemmasKeccakFill2
import Verif.M3.LemmasKeccakZero
import Verif.M3.LemmasTower

/-! C72: the gadget for the permutation Keccak-f[1600] that stacks the rounds in eight tracks. -/

set_option linter.dupNamespace false
set_option linter.unusedSectionVars false

namespace Verif.M3.Keccak

open Finset Verif.Arith Verif.Field
open Verif.Keccak (State keccakF laneElement stateOf)

variable {F : Type} [Field F] [DecidableEq F] [CharP F 2]

/-- The columns that do not belong to the table hold zero, and the others satisfy its constraints. -/
def Fresh (Tw : Tower F) (t : Table F) (w : Row F) : Prop :=
  RowHolds Tw t w ∧ ∀ i, t.columns.length ≤ i → ∀ p, w i p = 0

theorem stateOf_bits (m : Mat (BitVec 64)) : stateOf m.at = bitsOf m := rfl

theorem laneElement_pack (Tw : Tower F) (m : Mat (BitVec 64)) (x y : Fin 5) :
    laneElement Tw (stateOf m.at x y) = packLane Tw.basis (m.at x y) := laneElement_eq Tw _ fun _ => rfl

/-- A lane is determined by its element. -/
theorem laneElement_inj (Tw : Tower F) (hT : 6 ≤ Tw.height) {a b : Fin 64 → Bool} (h : laneElement Tw a = laneElement Tw b) :
    a = b := by
  have key : ∀ l : Fin 64 → Bool, ∃ v : BitVec 64, ∀ z : Fin 64, l z = v.getLsbD z := fun l =>
    ⟨BitVec.ofFnLE l, fun z => by rw [BitVec.getLsbD_ofFnLE, dif_pos z.isLt]⟩
  obtain ⟨u, hu⟩ := key a
  obtain ⟨v, hv⟩ := key b
  rw [laneElement_eq Tw u hu, laneElement_eq Tw v hv] at h
  funext z
  rw [hu, hv, packLane_inj hT h]

theorem row_sound {Tw : Tower F} {w : Row F} {g : Keccakf} {L : Nat} (hc : TopCols L g) (h : TopRow Tw w g) (x y : Fin 5) :
    w (g.input.at x y).idx 0 = laneElement Tw (stateOf (inState w (g.batches 0) 0).at x y) ∧
      w (g.output.at x y).idx 0 = laneElement Tw (keccakF (stateOf (inState w (g.batches 0) 0).at) x y) := by
  obtain ⟨h1, h2⟩ := h.sound hc (pos x y)
  refine ⟨by rw [laneElement_pack]; exact h1, ?_⟩
  rw [stateOf_bits, ← before_all, ← stateOf_bits, laneElement_pack]
  exact h2

/-- What a populated row is, when the state in its first track was `s`. -/
theorem row_complete {Tw : Tower F} {t t' : Table F} {g : Keccakf} (ht : WellFormed t) (hc : TopCols t.columns.length g)
    (hA : Adds Tw t t' fun w => TopRow Tw w g) {w : Row F} (hw : RowHolds Tw t w)
    (hz : ∀ j, w (g.nextStateIn j).idx 7 = 0) {s : Mat (BitVec 64)}
    (hs : (fun i => getLane w ((g.batches 0).stateIn i) 0) = s) :
    ∃ w', g.populateRow Tw.basis w = some w' ∧ RowHolds Tw t' w' ∧ (∀ i < t.columns.length, ∀ p, w' i p = w i p) ∧
      (∀ x y : Fin 5, w' (g.input.at x y).idx 0 = laneElement Tw (stateOf s.at x y) ∧
        w' (g.output.at x y).idx 0 = laneElement Tw (keccakF (stateOf s.at) x y)) ∧
      stateOf (Mat.fromFn fun x y => getLane w' ((g.batches 2).stateOut ⟨(x % 5) + 5 * (y % 5), by omega⟩) 7).at =
        keccakF (stateOf s.at) := by
  obtain ⟨w', h1, h2, -, h4, h5⟩ := populateRow_ok Tw hc w
  have hr := h5 hz
  rw [hs] at h4
  refine ⟨w', h1, (hA.holds ht w').2 ⟨(frame ht h2).2 hw, hr⟩, h2, fun x y => ?_, ?_⟩
  · have := row_sound hc hr x y
    rwa [h4] at this
  · have h7 := (hr.states hc 7 (by norm_num)).2
    rw [h4] at h7
    have e : (Mat.fromFn fun x y => getLane w' ((g.batches 2).stateOut ⟨(x % 5) + 5 * (y % 5), by omega⟩) 7) =
        before s 24 := by
      refine Eq.trans (funext fun i => ?_) h7
      refine congrArg (fun j => getLane w' ((g.batches 2).stateOut j) 7) (Fin.ext ?_)
      show i.val % 5 % 5 + 5 * (i.val / 5 % 5) = i.val
      omega
    rw [e, stateOf_bits, before_all]
    rfl

/-- The gadget is built in every table.  A row that satisfies the constraints of the new table holds in `input` a state
and in `output` its permutation, by the standard.  For any states, no more than there are rows, `populate_state_in` and
`populate` make such rows, when the new cells were zero before; a row with no state gets the state of zeros.  And
`read_state_outs` returns the permuted states. -/
theorem C72_keccakf (Tw : Tower F) (hT : 6 ≤ Tw.height) {t : Table F} (ht : WellFormed t) :
    ∃ g t', Keccakf.new t = some (g, t') ∧ WellFormed t' ∧
      (∀ x y, t'.Has (g.input.at x y) 6 0 ∧ t'.Has (g.output.at x y) 6 0) ∧
      -- soundness
      (∀ w, RowHolds Tw t' w → RowHolds Tw t w ∧
        (∃ A : State, ∀ x y : Fin 5, w (g.input.at x y).idx 0 = laneElement Tw (A x y)) ∧
        ∀ A : State, (∀ x y : Fin 5, w (g.input.at x y).idx 0 = laneElement Tw (A x y)) →
          ∀ x y : Fin 5, w (g.output.at x y).idx 0 = laneElement Tw (keccakF A x y)) ∧
      -- completeness
      ∀ (rows : List (Row F)) (states : List (Mat (BitVec 64))), states.length ≤ rows.length →
        (∀ w ∈ rows, Fresh Tw t w) →
        ∃ rows1 rows2, g.populateStateIn rows states = some rows1 ∧ g.populate Tw.basis rows1 = some rows2 ∧
          rows2.length = rows.length ∧
          ∀ (n : Nat) (w w' : Row F), rows[n]? = some w → rows2[n]? = some w' →
            RowHolds Tw t' w' ∧ (∀ i < t.columns.length, ∀ p, w' i p = w i p) ∧
            ∀ s : Mat (BitVec 64), (states[n]? = some s ∨ states.length ≤ n ∧ s = fun _ => 0) →
              (∀ x y : Fin 5, w' (g.input.at x y).idx 0 = laneElement Tw (stateOf s.at x y) ∧
                w' (g.output.at x y).idx 0 = laneElement Tw (keccakF (stateOf s.at) x y)) ∧
              ∃ s', (g.readStateOuts rows2)[n]? = some s' ∧ stateOf s'.at = keccakF (stateOf s.at) := by
  obtain ⟨g, t', h1, hc, h3, h4, h5, hA⟩ := Keccakf_new_ok Tw hT ht
  refine ⟨g, t', h1, hA.wf ht, fun x y => ⟨h4 _, h5 _⟩, fun w hw => ?_, fun rows states hl hf => ?_⟩
  · obtain ⟨hw1, hw2⟩ := (hA.holds ht w).1 hw
    refine ⟨hw1, ⟨_, fun x y => (row_sound hc hw2 x y).1⟩, fun A hin x y => ?_⟩
    have : A = stateOf (inState w (g.batches 0) 0).at := by
      funext x y
      exact laneElement_inj Tw hT ((hin x y).symm.trans (row_sound hc hw2 x y).1)
    rw [this]
    exact (row_sound hc hw2 x y).2
  · -- one row, with or without a state
    have one : ∀ w, Fresh Tw t w → ∀ w1 (s : Mat (BitVec 64)),
        (w1 = (g.batches 0).setStateIn 0 s w ∨ w1 = w ∧ s = fun _ => 0) →
        ∃ w', g.populateRow Tw.basis w1 = some w' ∧ RowHolds Tw t' w' ∧ (∀ i < t.columns.length, ∀ p, w' i p = w i p) ∧
          (∀ x y : Fin 5, w' (g.input.at x y).idx 0 = laneElement Tw (stateOf s.at x y) ∧
            w' (g.output.at x y).idx 0 = laneElement Tw (keccakF (stateOf s.at) x y)) ∧
          stateOf (Mat.fromFn fun x y => getLane w' ((g.batches 2).stateOut ⟨(x % 5) + 5 * (y % 5), by omega⟩) 7).at =
            keccakF (stateOf s.at) := by
      rintro w ⟨hw, hz⟩ w1 s (rfl | ⟨rfl, rfl⟩)
      · obtain ⟨k1, k2⟩ := setStateIn_ok hc s w
        obtain ⟨w', r1, r2, r3, r4⟩ := row_complete (w := (g.batches 0).setStateIn 0 s w) ht hc hA
          ((frame ht fun i hi p => k1 i (by omega) p).2 hw)
          (fun j => by
            have hn := hc.nextStateIn j
            rw [k1 _ (by omega)]
            exact hz _ (by omega) _) (funext k2)
        exact ⟨w', r1, r2, fun i hi p => (r3 i hi p).trans (k1 i (by omega) p), r4⟩
      · refine row_complete ht hc hA hw (fun j => hz _ (by have := hc.nextStateIn j; omega) _) (funext fun j => ?_)
        refine BitVec.eq_of_getLsbD_eq fun z hz' => ?_
        rw [getLane_bit _ _ _ hz', hz _ (by have := hc.stateIn j; omega)]
        simp
    suffices H : ∃ rows1 rows2, g.populateStateIn rows states = some rows1 ∧ g.populate Tw.basis rows1 = some rows2 ∧
          rows2.length = rows.length ∧
          ∀ (n : Nat) (w w' : Row F), rows[n]? = some w → rows2[n]? = some w' →
            RowHolds Tw t' w' ∧ (∀ i < t.columns.length, ∀ p, w' i p = w i p) ∧
            ∀ s : Mat (BitVec 64), (states[n]? = some s ∨ states.length ≤ n ∧ s = fun _ => 0) →
              (∀ x y : Fin 5, w' (g.input.at x y).idx 0 = laneElement Tw (stateOf s.at x y) ∧
                w' (g.output.at x y).idx 0 = laneElement Tw (keccakF (stateOf s.at) x y)) ∧
              stateOf (Mat.fromFn fun x y => getLane w' ((g.batches 2).stateOut ⟨(x % 5) + 5 * (y % 5), by omega⟩) 7).at =
                keccakF (stateOf s.at) by
      obtain ⟨rows1, rows2, r1, r2, r3, r4⟩ := H
      refine ⟨rows1, rows2, r1, r2, r3, fun n w w' hn hn' => ?_⟩
      obtain ⟨k1, k2, k3⟩ := r4 n w w' hn hn'
      refine ⟨k1, k2, fun s hs => ⟨(k3 s hs).1, _, ?_, (k3 s hs).2⟩⟩
      rw [Keccakf.readStateOuts, List.getElem?_map, hn', Option.map_some]
    clear h1 h3 h4 h5
    induction rows generalizing states with
    | nil =>
      obtain rfl : states = [] := List.length_eq_zero_iff.1 (by simpa using hl)
      exact ⟨[], [], rfl, rfl, rfl, fun n w w' hn => by simp at hn⟩
    | cons w rows ih =>
      have hw := hf w List.mem_cons_self
      have hf' : ∀ w ∈ rows, Fresh Tw t w := fun w hw => hf w (List.mem_cons_of_mem _ hw)
      cases states with
      | nil =>
        obtain ⟨rows1, rows2, r1, r2, r3, r4⟩ := ih [] (Nat.zero_le _) hf' one
        obtain rfl : rows = rows1 := by cases rows <;> simpa [Keccakf.populateStateIn] using r1
        obtain ⟨w', k1, k2, k3, k4⟩ := one w hw w (fun _ => 0) (Or.inr ⟨rfl, rfl⟩)
        refine ⟨w :: rows, w' :: rows2, rfl, ?_, by simp [r3], fun n v v' hn hn' => ?_⟩
        · rw [Keccakf.populate] at r2 ⊢
          rw [List.mapM_cons, k1, r2]
          rfl
        · cases n with
          | zero =>
            obtain rfl : w = v := by simpa using hn
            obtain rfl : w' = v' := by simpa using hn'
            refine ⟨k2, k3, fun s hs => ?_⟩
            rcases hs with hs | ⟨-, rfl⟩
            · simp at hs
            · exact k4
          | succ n =>
            obtain ⟨q1, q2, q3⟩ := r4 n v v' (by simpa using hn) (by simpa using hn')
            refine ⟨q1, q2, fun s hs => q3 s ?_⟩
            rcases hs with hs | ⟨-, rfl⟩
            · simp at hs
            · exact Or.inr ⟨Nat.zero_le _, rfl⟩
      | cons s0 states =>
        obtain ⟨rows1, rows2, r1, r2, r3, r4⟩ := ih states (by simpa using hl) hf' one
        obtain ⟨w', k1, k2, k3, k4⟩ := one w hw _ s0 (Or.inl rfl)
        refine ⟨(g.batches 0).setStateIn 0 s0 w :: rows1, w' :: rows2, ?_, ?_, by simp [r3], fun n v v' hn hn' => ?_⟩
        · rw [Keccakf.populateStateIn, r1, Option.bind_some]
        · rw [Keccakf.populate] at r2 ⊢
          rw [List.mapM_cons, k1, r2]
          rfl
        · cases n with
          | zero =>
            obtain rfl : w = v := by simpa using hn
            obtain rfl : w' = v' := by simpa using hn'
            refine ⟨k2, k3, fun s hs => ?_⟩
            rcases hs with hs | ⟨hs, -⟩
            · obtain rfl : s0 = s := by simpa using hs
              exact k4
            · simp at hs
          | succ n =>
            obtain ⟨q1, q2, q3⟩ := r4 n v v' (by simpa using hn) (by simpa using hn')
            refine ⟨q1, q2, fun s hs => q3 s ?_⟩
            rcases hs with hs | ⟨hs, rfl⟩
            · exact Or.inl (by simpa using hs)
            · exact Or.inr ⟨by simpa using hs, rfl⟩

/-- `populate` does not write the last entry of the columns that hold the next states, which the constraints make zero:
a row whose memory had something else there does not satisfy them, whatever its state is. -/
theorem C72_stale_row (Tw : Tower F) (hT : 6 ≤ Tw.height) {t t' : Table F} (ht : WellFormed t) {g : Keccakf}
    (hnew : Keccakf.new t = some (g, t')) (w : Row F) (x y : Nat) (hw : w (g.nextStateIn.at x y).idx 7 ≠ 0) :
    ∃ w', g.populate Tw.basis [w] = some [w'] ∧ ¬ RowHolds Tw t' w' := by
  obtain ⟨g', t'', h1, hc, -, -, -, hA⟩ := Keccakf_new_ok Tw hT ht
  rw [hnew] at h1
  obtain ⟨rfl, rfl⟩ : g = g' ∧ t' = t'' := by injection h1 with k1; injection k1 with k1 k1'; exact ⟨k1, k1'⟩
  obtain ⟨w', r1, -, r3, -⟩ := populateRow_ok Tw hc w
  refine ⟨w', by rw [Keccakf.populate, List.mapM_cons, r1]; rfl, fun hr => hw ?_⟩
  exact (r3 (pos x y)).symm.trans (((hA.holds ht w').1 hr).2.nextLast (pos x y))

/-- More states than rows are an index out of range. -/
theorem C72_too_many_states (g : Keccakf) : ∀ (rows : List (Row F)) (states : List (Mat (BitVec 64))),
    rows.length < states.length → g.populateStateIn rows states = none
  | _, [], h => by simp at h
  | [], _ :: _, _ => rfl
  | w :: rows, s :: states, h => by
    rw [Keccakf.populateStateIn, C72_too_many_states g rows states (by simpa using h)]
    rfl

/-! ### Concrete cases -/

/-- The lanes of the permutation of the state of zeros are the published ones. -/
theorem zero_perm : keccakF (fun _ _ _ => false) = stateOf (zeroState 24).at := by
  rw [← zero_before 24 le_rfl, stateOf_bits, before_all]
  congr 1
  funext x y z
  simp [bitsOf, Mat.at]

example : (zeroState 24).at 0 0 = 0xF1258F7940E1DDE7 ∧ (zeroState 24).at 1 0 = 0x84D5CCF933C0478A ∧
    (zeroState 24).at 4 4 = 0xEAF1FF7B5CECA249 := by decide +kernel

/-- The hypotheses of `C72_keccakf` are met: in an empty table, two rows of zeros populated with one state satisfy the
constraints, and the second has the published values for the state of zeros in `output`. -/
example (s : Mat (BitVec 64)) : ∃ g t' rows1 w1 w2, Keccakf.new (Table.new (T 7)) = some (g, t') ∧
    g.populateStateIn [fun _ _ => 0, fun _ _ => 0] [s] = some rows1 ∧
    g.populate tower128.basis rows1 = some [w1, w2] ∧ RowHolds tower128 t' w1 ∧ RowHolds tower128 t' w2 ∧
    (∀ x y : Fin 5, w1 (g.output.at x y).idx 0 = laneElement tower128 (keccakF (stateOf s.at) x y)) ∧
    ∀ x y : Fin 5, w2 (g.output.at x y).idx 0 = laneElement tower128 (stateOf (zeroState 24).at x y) := by
  obtain ⟨g, t', h1, -, -, -, h3⟩ := C72_keccakf tower128 (show 6 ≤ 7 by norm_num) (wellFormed_new (F := T 7))
  obtain ⟨rows1, rows2, k1, k2, k3, k4⟩ := h3 [fun _ _ => 0, fun _ _ => 0] [s] (by simp) fun w hw => by
    have : w = fun _ _ => 0 := by simpa using hw
    rw [this]
    exact ⟨rowHolds_new _ _, fun _ _ _ => rfl⟩
  obtain ⟨w1, w2, rfl⟩ := List.length_eq_two.1 k3
  obtain ⟨a1, -, a3⟩ := k4 0 _ w1 rfl rfl
  obtain ⟨b1, -, b3⟩ := k4 1 _ w2 rfl rfl
  refine ⟨g, t', rows1, w1, w2, h1, k1, k2, a1, b1, fun x y => ((a3 s (Or.inl rfl)).1 x y).2, fun x y => ?_⟩
  have e : stateOf (Mat.at fun _ => (0 : BitVec 64)) = fun _ _ _ => false := by
    funext x y z
    simp [stateOf, Mat.at]
  have := ((b3 _ (Or.inr ⟨le_rfl, rfl⟩)).1 x y).2
  rw [e, zero_perm] at this
  exact this

/-- The hypotheses of the theorem on rows that fail are met as well. -/
example : ∃ g t', Keccakf.new (Table.new (T 7)) = some (g, t') ∧
    ∃ w', g.populate tower128.basis [fun _ _ => 1] = some [w'] ∧ ¬ RowHolds tower128 t' w' := by
  obtain ⟨g, t', h1, -⟩ := C72_keccakf tower128 (show 6 ≤ 7 by norm_num) (wellFormed_new (F := T 7))
  exact ⟨g, t', h1, C72_stale_row tower128 (show 6 ≤ 7 by norm_num) wellFormed_new h1 _ 0 0 one_ne_zero⟩

end Verif.M3.Keccak
