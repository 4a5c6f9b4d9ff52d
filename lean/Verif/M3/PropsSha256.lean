import Verif.M3.LemmasSha256Top
import Verif.M3.LemmasTower

/-! C68: the gadget for the compression function of SHA-256. -/

set_option linter.dupNamespace false
set_option linter.unusedSectionVars false

namespace Verif.M3

open Finset Verif.Arith Verif.Field

variable {F : Type} [Field F] [DecidableEq F] [CharP F 2]

/-- There is one array of round constants and one initial value as in the standard, so that the next theorem says what
the hash is. -/
theorem C68_constants : (∃ K, Sha.RoundConstants K ∧ ∀ K', Sha.RoundConstants K' → ∀ t < 64, K' t = K t) ∧
    ∃ H, Sha.InitialValue H ∧ ∀ H', Sha.InitialValue H' → H' = H :=
  ⟨⟨_, roundConsts_ok, fun _ h _ ht => RoundConstants.eq h ht⟩, initState, initState_ok, fun _ h => InitialValue.eq h⟩

/-- One row. -/
theorem row_populate (Tw : Tower F) {t : Table F} (ht : WellFormed t) {g : Sha256} {t' : Table F}
    (hnew : Sha256.new t = some (g, t')) {w : Row F} (hw : RowHolds Tw t w)
    (hz : ∀ i, t.columns.length ≤ i → ∀ pos, w i pos = 0) (m : Nat → BitVec 32) :
    ∃ w1, g.writeBlock m w = some w1 ∧ RowHolds Tw t' (g.populateRest w1) ∧
      (∀ i < t.columns.length, ∀ pos, g.populateRest w1 i pos = w i pos) ∧
      ∀ (j : Nat) (c : Col), g.stateIn[j]? = some c → wordBV (g.populateRest w1) c 0 = m j := by
  obtain ⟨g', t1, t'', h1, h2, h3, h4, h5, h6, h7, ⟨-, h8, ⟨Z, hZ⟩, -⟩, h9, h10⟩ := sha256_ok Tw ht
  rw [hnew] at h1
  obtain ⟨rfl, rfl⟩ : g = g' ∧ t' = t'' := by injection h1 with k1; injection k1 with k1 k1'; exact ⟨k1, k1'⟩
  obtain ⟨v, hb, hv⟩ := writeBlock_ok g m w
  obtain ⟨r1, r2, r3⟩ := h10 w m v hw hz (fun k hk => by rw [hv k (by omega), Sha.schedule, if_pos hk]) (isSchedule_schedule hv)
  have hrow := h3.complete _ r1
  have hlt : g.w.idx < t1.columns.length := by
    have h26 := h8.lt
    have e1 : g.w.idx = t.columns.length := hZ.w
    have e2 : g.wMinus16.idx = t.columns.length + 26 := hZ.wMinus16
    omega
  refine ⟨_, hb, ?_, fun i hi pos => ?_, fun j c hc => ?_⟩
  · rw [populateRest_eq]; exact hrow
  · rw [populateRest_eq, h3.keeps _ i (hi.trans_le h2.len) pos, r2 i hi pos]
  · have hj := lt_of_get hc
    rw [h4] at hj
    rw [populateRest_eq, (h9 _ hrow).2.2.1 j c hc, wordBV_congr (fun pos => h3.keeps _ _ hlt pos) j, r3 j hj]

/-- The gadget is built in every table.  A row that satisfies the constraints of the new table holds in `stateOut` the
hash of the block in `stateIn`, by the standard; and for any message blocks, as many as there are rows, `populate`
makes such rows, when the new cells were zero before. -/
theorem C68_sha256 (Tw : Tower F) {t : Table F} (ht : WellFormed t) :
    ∃ g t', Sha256.new t = some (g, t') ∧ WellFormed t' ∧ g.stateIn.length = 16 ∧ g.stateOut.length = 8 ∧
      (∀ c ∈ g.stateIn, t'.Has c 0 5) ∧ (∀ c ∈ g.stateOut, t'.Has c 0 5) ∧
      -- soundness
      (∀ w, RowHolds Tw t' w → RowHolds Tw t w ∧ ∀ K H, Sha.RoundConstants K → Sha.InitialValue H → ∀ m,
        (∀ (j : Nat) (c : Col), g.stateIn[j]? = some c → wordBV w c 0 = m j) →
          g.stateOut.map (fun c => wordBV w c 0) = Sha.compress K H m) ∧
      -- completeness
      ∀ (ws : List (Row F)) (ms : List (Nat → BitVec 32)), ws.length = ms.length →
        (∀ w ∈ ws, RowHolds Tw t w ∧ ∀ i, t.columns.length ≤ i → ∀ pos, w i pos = 0) →
        ∃ ws', g.populate ws ms = some ws' ∧ ws'.length = ws.length ∧
          ∀ (n : Nat) (w' : Row F), ws'[n]? = some w' → RowHolds Tw t' w' ∧ ∃ w m, ws[n]? = some w ∧ ms[n]? = some m ∧
            (∀ i < t.columns.length, ∀ pos, w' i pos = w i pos) ∧
            ∀ (j : Nat) (c : Col), g.stateIn[j]? = some c → wordBV w' c 0 = m j := by
  obtain ⟨g, t1, t', h1, h2, h3, h4, h5, h6, h7, -, h9, h10⟩ := sha256_ok Tw ht
  refine ⟨g, t', h1, h3.wf, h4, h5, fun c hc => (h6 c hc).ext h3.ext, fun c hc => (h7 c hc).1, fun w hw => ?_, fun ws => ?_⟩
  · refine ⟨(h9 w hw).1, fun K H hK hH m hm => ?_⟩
    rw [InitialValue.eq hH, (h9 w hw).2.2.2 m hm, Sha.compress, Sha.compress,
      rounds_congr initState (fun i hi => (RoundConstants.eq hK hi).symm) fun _ _ => rfl]
  · induction ws with
    | nil =>
      intro ms hl _
      cases ms with
      | nil => exact ⟨[], rfl, rfl, fun n w' h => by simp at h⟩
      | cons m ms => cases hl
    | cons w ws ih =>
      intro ms hl hws
      cases ms with
      | nil => cases hl
      | cons m ms =>
        obtain ⟨ws', k1, k2, k3⟩ := ih ms (Nat.succ.inj hl) fun w hw => hws w (List.mem_cons_of_mem _ hw)
        obtain ⟨hw, hz⟩ := hws w List.mem_cons_self
        obtain ⟨w1, r1, r2, r3, r4⟩ := row_populate Tw ht h1 hw hz m
        refine ⟨g.populateRest w1 :: ws', by rw [Sha256.populate, r1, Option.bind_some, k1, Option.bind_some],
          by rw [List.length_cons, k2, List.length_cons], fun n w' hn => ?_⟩
        cases n with
        | zero =>
          obtain rfl : g.populateRest w1 = w' := by simpa using hn
          exact ⟨r2, w, m, rfl, rfl, r3, r4⟩
        | succ n => exact k3 n w' (by simpa using hn)

/-- The code has no zeroing: `populate` leaves some cells of shifted columns as they were, so a row whose memory held
ones before does not satisfy the constraints, whatever the block is. -/
theorem C68_stale_row (Tw : Tower F) {t : Table F} (ht : WellFormed t) {g : Sha256} {t' : Table F}
    (hnew : Sha256.new t = some (g, t')) (w : Row F) (hw : ∀ i, t.columns.length ≤ i → ∀ pos, w i pos = 1)
    (m : Nat → BitVec 32) : ∃ w', g.populate [w] [m] = some [w'] ∧ ¬ RowHolds Tw t' w' := by
  obtain ⟨g', t1, t'', h1, h2, h3, -, -, -, -, ⟨-, h8, ⟨Z, hZ⟩, h8'⟩, h9, -⟩ := sha256_ok Tw ht
  rw [hnew] at h1
  obtain ⟨rfl, rfl⟩ : g = g' ∧ t' = t'' := by injection h1 with k1; injection k1 with k1 k1'; exact ⟨k1, k1'⟩
  obtain ⟨v, hb, -⟩ := writeBlock_ok g m w
  refine ⟨g.populateRest (g.front.write m v w), by rw [Sha256.populate, hb]; rfl, fun hrow => ?_⟩
  have e2 : g.wMinus16.idx = t.columns.length + 26 := hZ.wMinus16
  have hval : g.populateRest (g.front.write m v w) g.wMinus16.idx (32 * 63 + 31) = 1 := by
    rw [populateRest_eq, h3.keeps _ _ h8.lt, h8' _ _ (by omega)]
    exact (front_stale hZ m v w (by norm_num)).trans (hw _ (show _ ≤ g.wMinus16.idx by omega) _)
  have hbit := wordBV_bit (g.populateRest (g.front.write m v w)) g.wMinus16 63 (j := 31) (by norm_num)
  rw [(h9 _ hrow).2.1 63 (by norm_num), hval] at hbit
  simp at hbit

/-- A row for which there is no message block stays a row of zeros; it does not satisfy the constraints, even if the
constant columns are filled after. -/
theorem C68_missing_block (Tw : Tower F) {g : Sha256} {t' : Table F} (hnew : Sha256.new (Table.new F) = some (g, t')) :
    ∃ w', g.populate [fun _ _ => 0] [] = some [w'] ∧ ¬ RowHolds Tw t' w' ∧ ¬ RowHolds Tw t' (t'.fillConstants w') := by
  obtain ⟨g', t1, t'', h1, h2, h3, -, h5, -, h7, ⟨h8, -⟩, h9, -⟩ := sha256_ok Tw (wellFormed_new (F := F))
  rw [hnew] at h1
  obtain ⟨rfl, rfl⟩ : g = g' ∧ t' = t'' := by injection h1 with k1; injection k1 with k1 k1'; exact ⟨k1, k1'⟩
  have key : ∀ r : Row F, (∀ c, IsCommitted t' c → ∀ pos, r c.idx pos = 0) → ¬ RowHolds Tw t' r := by
    intro r hr hrow
    have hword : ∀ c, IsCommitted t' c → ∀ k, wordBV r c k = 0 := fun c hc k => by
      rw [wordBV_congr (w' := zeroRow) (fun pos => hr c hc pos) k]
      exact getU32_zero c k
    have hz := (h9 r hrow).2.2.2 (fun _ => 0) fun k c hc => by
      rw [(h9 r hrow).2.2.1 k c hc, hword g.w (h8.ext h3.ext)]
    obtain ⟨c, hc⟩ : ∃ c, g.stateOut[0]? = some c := ⟨_, List.getElem?_eq_getElem (by omega)⟩
    have h0 := congrArg (fun l : List (BitVec 32) => l[0]?) hz
    rw [List.getElem?_map, hc, compress_zero, Option.map_some, hword c (h7 c (List.mem_of_getElem? hc)).2] at h0
    exact absurd h0 (by decide)
  refine ⟨zeroRow, ?_, key _ fun _ _ _ => rfl, key _ fun c hc pos => fillConstants_committed hc _ pos⟩
  show ((g.populate [] []).bind fun ws' => some (g.populateRest zeroRow :: ws')) = _
  rw [populateRest_zero]
  rfl

/-- More message blocks than rows are an index out of range. -/
theorem C68_too_many_blocks (g : Sha256) : ∀ (ws : List (Row F)) (ms : List (Nat → BitVec 32)), ws.length < ms.length →
    g.populate ws ms = none
  | [], [], h => by simp at h
  | [], _ :: _, _ => rfl
  | _ :: _, [], h => by simp at h
  | w :: ws, m :: ms, h => by
    obtain ⟨v, hb, -⟩ := writeBlock_ok g m w
    rw [Sha256.populate, hb, Option.bind_some, C68_too_many_blocks g ws ms (by simpa using h)]
    rfl

/-! ### Concrete cases -/

/-- The block of the message `abc`, FIPS 180-4. -/
def abcBlock : Nat → BitVec 32 := fun j => if j = 0 then 0x61626380 else if j = 15 then 0x18 else 0

/-- The words of the specification for the message `abc` are the published ones. -/
theorem abc_hash (K : Nat → BitVec 32) (H : Sha.State) (hK : Sha.RoundConstants K) (hH : Sha.InitialValue H) :
    Sha.compress K H abcBlock = [0xba7816bf, 0x8f01cfea, 0x414140de, 0x5dae2223, 0xb00361a3, 0x96177a9c, 0xb410ff61,
      0xf20015ad] := by
  obtain ⟨l, h1, h2, h3⟩ := computeMessageSchedule_ok (m := abcBlock) (l := (List.range 64).map abcBlock) (by simp) fun k hk => by
    rw [List.getElem?_map, List.getElem?_range (by omega), Option.map_some]
  rw [InitialValue.eq hH, Sha.compress, rounds_congr initState (k' := fun t => roundConstsK[t]?.getD 0)
    (fun t ht => RoundConstants.eq hK ht)
    (v' := fun k => ((computeMessageSchedule ((List.range 64).map abcBlock)).getD [])[k]?.getD 0) fun k hk => by
      rw [h1, Option.getD_some, h3 k hk]; rfl]
  decide +kernel

/-- The hypotheses of `C68_sha256` are met: in an empty table, a row of zeros populated with the block of `abc` satisfies
the constraints, and has the hash of `abc` in `stateOut`. -/
example : ∃ g t' w', Sha256.new (Table.new (T 7)) = some (g, t') ∧ g.populate [fun _ _ => 0] [abcBlock] = some [w'] ∧
    RowHolds tower128 t' w' ∧ g.stateOut.map (fun c => wordBV w' c 0) =
      [0xba7816bf, 0x8f01cfea, 0x414140de, 0x5dae2223, 0xb00361a3, 0x96177a9c, 0xb410ff61, 0xf20015ad] := by
  obtain ⟨g, t', h1, -, -, -, -, -, h2, h3⟩ := C68_sha256 tower128 (wellFormed_new (F := T 7))
  obtain ⟨ws', k1, k2, k3⟩ := h3 [fun _ _ => 0] [abcBlock] rfl fun w hw => by
    rw [List.mem_singleton] at hw
    rw [hw]
    exact ⟨rowHolds_new _ _, fun _ _ _ => rfl⟩
  obtain ⟨w', rfl⟩ := List.length_eq_one_iff.1 k2
  obtain ⟨r1, w, m, -, hm, -, r2⟩ := k3 0 w' rfl
  obtain rfl : abcBlock = m := by simpa using hm
  exact ⟨g, t', w', h1, k1, r1, ((h2 w' r1).2 _ _ roundConsts_ok initState_ok _ r2).trans
    (abc_hash _ _ roundConsts_ok initState_ok)⟩

/-- The hypotheses of the theorems on rows that fail are met as well. -/
example : ∃ g t', Sha256.new (Table.new (T 7)) = some (g, t') ∧
    (∃ w', g.populate [fun _ _ => 1] [abcBlock] = some [w'] ∧ ¬ RowHolds tower128 t' w') ∧
    ∃ w', g.populate [fun _ _ => 0] [] = some [w'] ∧ ¬ RowHolds tower128 t' w' := by
  obtain ⟨g, t', h1, -⟩ := C68_sha256 tower128 (wellFormed_new (F := T 7))
  refine ⟨g, t', h1, C68_stale_row tower128 wellFormed_new h1 _ (fun _ _ _ => rfl) _, ?_⟩
  obtain ⟨w', k1, k2, -⟩ := C68_missing_block tower128 h1
  exact ⟨w', k1, k2⟩

end Verif.M3
