import Verif.M3.LemmasKeccakTop

/-! `populate` of the Keccak gadget. -/

set_option linter.dupNamespace false
set_option linter.unusedSectionVars false

namespace Verif.M3.Keccak

open Finset Verif.Arith

variable {F : Type} [Field F] [DecidableEq F]

/-! ### Writes -/

theorem applyWrites_ok (val : Nat → Fin 8 → BitVec 64) : ∀ (ws : List (Col × (Fin 8 → BitVec 64))) (w : Row F),
    (∀ q ∈ ws, ∀ k, q.2 k = val q.1.idx k) → ∀ i,
      (∃ q ∈ ws, q.1.idx = i) ∧ Lanes (applyWrites ws w) ⟨i, 0⟩ (val i) ∧ (∀ p, 512 ≤ p → applyWrites ws w i p = w i p) ∨
      (∀ q ∈ ws, q.1.idx ≠ i) ∧ ∀ p, applyWrites ws w i p = w i p
  | [], w, _, i => Or.inr ⟨by simp, fun _ => rfl⟩
  | q :: ws, w, h, i => by
    have hq := h q List.mem_cons_self
    have e : applyWrites (q :: ws) w = applyWrites ws (setLanes w q.1 q.2) := rfl
    rw [e]
    have hge : ∀ p, 512 ≤ p → setLanes w q.1 q.2 i p = w i p := fun p hp => dif_neg fun h' => by omega
    rcases applyWrites_ok val ws (setLanes w q.1 q.2) (fun r hr => h r (List.mem_cons_of_mem _ hr)) i with
      ⟨⟨r, hr, hri⟩, h2, h3⟩ | ⟨h1, h2⟩
    · exact Or.inl ⟨⟨r, List.mem_cons_of_mem _ hr, hri⟩, h2, fun p hp => (h3 p hp).trans (hge p hp)⟩
    · by_cases hi : q.1.idx = i
      · refine Or.inl ⟨⟨q, List.mem_cons_self, hi⟩, fun k z hz => ?_, fun p hp => (h2 p).trans (hge p hp)⟩
        show applyWrites ws (setLanes w q.1 q.2) i _ = _
        have hk := k.isLt
        subst hi
        rw [h2, setLanes, dif_pos ⟨rfl, by omega⟩, ← hq k]
        have : (⟨(64 * k.val + z) / 64, by omega⟩ : Fin 8) = k := Fin.ext (by show (64 * k.val + z) / 64 = k.val; omega)
        rw [this, show (64 * k.val + z) % 64 = z by omega]
      · refine Or.inr ⟨fun r hr => ?_, fun p => (h2 p).trans (dif_neg fun h' => hi h'.1.symm)⟩
        rcases List.mem_cons.1 hr with rfl | hr
        · exact hi
        · exact h1 r hr

/-- The value that the batch writes to the column number `i`, for a batch whose columns start at `L` and whose input
columns start at `M`. -/
def batchVal (M L : Nat) (brt : Fin 8 → RoundTrace) (i : Nat) (k : Fin 8) : BitVec 64 :=
  if i < L then (brt k).stateIn ⟨(i - M) % 25, Nat.mod_lt _ (by norm_num)⟩
  else if i < L + 25 then (brt k).stateOut ⟨(i - L) % 25, Nat.mod_lt _ (by norm_num)⟩
  else if i < L + 30 then (brt k).c ⟨(i - (L + 25)) % 5, Nat.mod_lt _ (by norm_num)⟩
  else if i < L + 35 then ((brt k).c ⟨(i - (L + 30)) % 5, Nat.mod_lt _ (by norm_num)⟩).rotateLeft 1
  else if i < L + 40 then (brt k).d ⟨(i - (L + 35)) % 5, Nat.mod_lt _ (by norm_num)⟩
  else if i < L + 65 then (brt k).aTheta ⟨(i - (L + 40)) % 25, Nat.mod_lt _ (by norm_num)⟩
  else if i < L + 89 then (brt k).b ⟨(i - (L + 65) + 1) % 25, Nat.mod_lt _ (by norm_num)⟩
  else (brt k).rc

section
variable (M L : Nat) (brt : Fin 8 → RoundTrace) (k : Fin 8)

theorem val_in {i : Nat} (j : Fin 25) (h : i = M + j.val) (hM : M + 25 ≤ L) : batchVal M L brt i k = (brt k).stateIn j := by
  have := j.isLt
  rw [batchVal, if_pos (by omega)]
  exact congrArg _ (Fin.ext (by show (i - M) % 25 = j.val; omega))

theorem val_out {i : Nat} (j : Fin 25) (h : i = L + j.val) : batchVal M L brt i k = (brt k).stateOut j := by
  have := j.isLt
  rw [batchVal, if_neg (by omega), if_pos (by omega)]
  exact congrArg _ (Fin.ext (by show (i - L) % 25 = j.val; omega))

theorem val_c {i : Nat} (j : Fin 5) (h : i = L + 25 + j.val) : batchVal M L brt i k = (brt k).c j := by
  have := j.isLt
  rw [batchVal, if_neg (by omega), if_neg (by omega), if_pos (by omega)]
  exact congrArg _ (Fin.ext (by show (i - (L + 25)) % 5 = j.val; omega))

theorem val_cShift {i : Nat} (j : Fin 5) (h : i = L + 30 + j.val) : batchVal M L brt i k = ((brt k).c j).rotateLeft 1 := by
  have := j.isLt
  rw [batchVal, if_neg (by omega), if_neg (by omega), if_neg (by omega), if_pos (by omega)]
  exact congrArg (fun j => ((brt k).c j).rotateLeft 1) (Fin.ext (by show (i - (L + 30)) % 5 = j.val; omega))

theorem val_d {i : Nat} (j : Fin 5) (h : i = L + 35 + j.val) : batchVal M L brt i k = (brt k).d j := by
  have := j.isLt
  rw [batchVal, if_neg (by omega), if_neg (by omega), if_neg (by omega), if_neg (by omega), if_pos (by omega)]
  exact congrArg _ (Fin.ext (by show (i - (L + 35)) % 5 = j.val; omega))

theorem val_aTheta {i : Nat} (j : Fin 25) (h : i = L + 40 + j.val) : batchVal M L brt i k = (brt k).aTheta j := by
  have := j.isLt
  rw [batchVal, if_neg (by omega), if_neg (by omega), if_neg (by omega), if_neg (by omega), if_neg (by omega),
    if_pos (by omega)]
  exact congrArg _ (Fin.ext (by show (i - (L + 40)) % 25 = j.val; omega))

theorem val_b {i : Nat} (j : Fin 25) (hj : j ≠ 0) (h : i = L + 65 + (j.val - 1)) : batchVal M L brt i k = (brt k).b j := by
  have := j.isLt
  have : j.val ≠ 0 := fun h' => hj (Fin.ext h')
  rw [batchVal, if_neg (by omega), if_neg (by omega), if_neg (by omega), if_neg (by omega), if_neg (by omega),
    if_neg (by omega), if_pos (by omega)]
  exact congrArg _ (Fin.ext (by show (i - (L + 65) + 1) % 25 = j.val; omega))

theorem val_rc {i : Nat} (h : i = L + 89) : batchVal M L brt i k = (brt k).rc := by
  rw [batchVal, if_neg (by omega), if_neg (by omega), if_neg (by omega), if_neg (by omega), if_neg (by omega),
    if_neg (by omega), if_neg (by omega)]

end

/-- The columns of the batch hold the trace. -/
structure Done (w : Row F) (g : RoundBatch) (brt : Fin 8 → RoundTrace) : Prop where
  stateIn : ∀ i, Lanes w (g.stateIn i) fun k => (brt k).stateIn i
  c : ∀ x, Lanes w (g.c x) fun k => (brt k).c x
  cShift : ∀ x, Lanes w (g.cShift x) fun k => ((brt k).c x).rotateLeft 1
  d : ∀ x, Lanes w (g.d x) fun k => (brt k).d x
  aTheta : ∀ i, Lanes w (g.aTheta i) fun k => (brt k).aTheta i
  b : ∀ i, i ≠ 0 → Lanes w (g.b i) fun k => (brt k).b i
  rc : Lanes w g.roundConst fun k => (brt k).rc
  out : ∀ i, Lanes w (g.stateOut i) fun k => (brt k).stateOut i

theorem pos_ne_zero {x y : Nat} (hx : x < 5) (hy : y < 5) (h : x ≠ 0 ∨ y ≠ 0) : pos x y ≠ 0 := by
  intro h'
  have : x % 5 + y % 5 * 5 = 0 := congrArg Fin.val h'
  omega

theorem mem_writes {g : RoundBatch} {trace : Fin 24 → RoundTrace} {q : Col × (Fin 8 → BitVec 64)} :
    q ∈ g.writes trace ↔
      q = (g.roundConst, fun k => (trace (nthRound g.batchNo k)).rc) ∨
      (∃ x, q = (g.c x, fun k => (trace (nthRound g.batchNo k)).c x)) ∨
      (∃ x, q = (g.cShift x, fun k => ((trace (nthRound g.batchNo k)).c x).rotateLeft 1)) ∨
      (∃ x, q = (g.d x, fun k => (trace (nthRound g.batchNo k)).d x)) ∨
      (∃ i, q = (g.stateIn i, fun k => (trace (nthRound g.batchNo k)).stateIn i)) ∨
      (∃ i, q = (g.stateOut i, fun k => (trace (nthRound g.batchNo k)).stateOut i)) ∨
      (∃ i, q = (g.aTheta i, fun k => (trace (nthRound g.batchNo k)).aTheta i)) ∨
      ∃ i, i ≠ 0 ∧ q = (g.b i, fun k => (trace (nthRound g.batchNo k)).b i) := by
  unfold RoundBatch.writes
  simp only [List.mem_cons, List.mem_flatMap, List.mem_append, List.mem_range, List.not_mem_nil, or_false]
  constructor
  · rintro (h | ⟨x, hx, (h | h | h) | ⟨y, hy, (h | h | h) | h⟩⟩)
    · exact Or.inl h
    · exact Or.inr (Or.inl ⟨_, h⟩)
    · exact Or.inr (Or.inr (Or.inl ⟨_, h⟩))
    · exact Or.inr (Or.inr (Or.inr (Or.inl ⟨_, h⟩)))
    · exact Or.inr (Or.inr (Or.inr (Or.inr (Or.inl ⟨_, h⟩))))
    · exact Or.inr (Or.inr (Or.inr (Or.inr (Or.inr (Or.inl ⟨_, h⟩)))))
    · exact Or.inr (Or.inr (Or.inr (Or.inr (Or.inr (Or.inr (Or.inl ⟨_, h⟩))))))
    · split at h
      · next hxy =>
        exact Or.inr (Or.inr (Or.inr (Or.inr (Or.inr (Or.inr (Or.inr ⟨_, pos_ne_zero hx hy hxy, List.mem_singleton.1 h⟩))))))
      · simp at h
  · have five : ∀ x : Fin 5, ∃ a, a < 5 ∧ (⟨a % 5, by omega⟩ : Fin 5) = x := fun x => ⟨x.val, x.isLt, Fin.ext (Nat.mod_eq_of_lt x.isLt)⟩
    rintro (h | ⟨x, h⟩ | ⟨x, h⟩ | ⟨x, h⟩ | ⟨i, h⟩ | ⟨i, h⟩ | ⟨i, h⟩ | ⟨i, hi, h⟩)
    · exact Or.inl h
    · refine Or.inr ⟨x.val, x.isLt, Or.inl (Or.inl ?_)⟩
      rw [h]; simp only [Line.at_val]
    · refine Or.inr ⟨x.val, x.isLt, Or.inl (Or.inr (Or.inl ?_))⟩
      rw [h]; simp only [Line.at_val]
    · refine Or.inr ⟨x.val, x.isLt, Or.inl (Or.inr (Or.inr ?_))⟩
      rw [h]; simp only [Line.at_val]
    · refine Or.inr ⟨i.val % 5, Nat.mod_lt _ (by norm_num), Or.inr ⟨i.val / 5, by omega, Or.inl (Or.inl ?_)⟩⟩
      rw [h]; simp only [Mat.at_surj]
    · refine Or.inr ⟨i.val % 5, Nat.mod_lt _ (by norm_num), Or.inr ⟨i.val / 5, by omega, Or.inl (Or.inr (Or.inl ?_))⟩⟩
      rw [h]; simp only [Mat.at_surj]
    · refine Or.inr ⟨i.val % 5, Nat.mod_lt _ (by norm_num), Or.inr ⟨i.val / 5, by omega, Or.inl (Or.inr (Or.inr ?_))⟩⟩
      rw [h]; simp only [Mat.at_surj]
    · refine Or.inr ⟨i.val % 5, Nat.mod_lt _ (by norm_num), Or.inr ⟨i.val / 5, by omega, Or.inr ?_⟩⟩
      have hi' : i.val ≠ 0 := fun h' => hi (Fin.ext h')
      rw [if_pos (by omega), List.mem_singleton, h]; simp only [Mat.at_surj]

/-- After `RoundBatch::populate` the columns hold the trace, and only those of the batch and of its input are changed. -/
theorem batch_populate {M L : Nat} {g : RoundBatch} (hM : M + 25 ≤ L) (hin : ∀ i, (g.stateIn i).idx = M + i.val)
    (hg : BatchCols L g) (trace : Fin 24 → RoundTrace) (w : Row F) :
    Done (g.populate trace w) g (fun k => trace (nthRound g.batchNo k)) ∧
    (∀ i, i < L ∨ L + 90 ≤ i → (∀ j, i ≠ (g.stateIn j).idx) → ∀ p, g.populate trace w i p = w i p) ∧
    ∀ j, Lanes w (g.stateIn j) (fun k => (trace (nthRound g.batchNo k)).stateIn j) →
      ∀ p, g.populate trace w (g.stateIn j).idx p = w (g.stateIn j).idx p := by
  set brt : Fin 8 → RoundTrace := fun k => trace (nthRound g.batchNo k) with hbrt
  have hval : ∀ q ∈ g.writes trace, ∀ k, q.2 k = batchVal M L brt q.1.idx k := by
    intro q hq k
    rcases mem_writes.1 hq with h | ⟨x, h⟩ | ⟨x, h⟩ | ⟨x, h⟩ | ⟨i, h⟩ | ⟨i, h⟩ | ⟨i, h⟩ | ⟨i, hi, h⟩ <;> rw [h]
    · exact (val_rc M L brt k hg.rc).symm
    · exact (val_c M L brt k x (hg.c x)).symm
    · exact (val_cShift M L brt k x (hg.cShift x)).symm
    · exact (val_d M L brt k x (hg.d x)).symm
    · exact (val_in M L brt k i (hin i) hM).symm
    · exact (val_out M L brt k i (hg.out i)).symm
    · exact (val_aTheta M L brt k i (hg.aTheta i)).symm
    · exact (val_b M L brt k i hi (hg.b i hi)).symm
  have main := applyWrites_ok (batchVal M L brt) (g.writes trace) w hval
  have wr : ∀ q ∈ g.writes trace, Lanes (g.populate trace w) q.1 q.2 := by
    intro q hq
    rcases main q.1.idx with ⟨-, h, -⟩ | ⟨h, -⟩
    · intro k z hz
      rw [hval q hq k]
      exact h k z hz
    · exact absurd rfl (h q hq)
  refine ⟨⟨fun i => wr _ (mem_writes.2 (Or.inr (Or.inr (Or.inr (Or.inr (Or.inl ⟨i, rfl⟩)))))),
    fun x => wr _ (mem_writes.2 (Or.inr (Or.inl ⟨x, rfl⟩))),
    fun x => wr _ (mem_writes.2 (Or.inr (Or.inr (Or.inl ⟨x, rfl⟩)))),
    fun x => wr _ (mem_writes.2 (Or.inr (Or.inr (Or.inr (Or.inl ⟨x, rfl⟩))))),
    fun i => wr _ (mem_writes.2 (Or.inr (Or.inr (Or.inr (Or.inr (Or.inr (Or.inr (Or.inl ⟨i, rfl⟩)))))))),
    fun i hi => wr _ (mem_writes.2 (Or.inr (Or.inr (Or.inr (Or.inr (Or.inr (Or.inr (Or.inr ⟨i, hi, rfl⟩)))))))),
    wr _ (mem_writes.2 (Or.inl rfl)),
    fun i => wr _ (mem_writes.2 (Or.inr (Or.inr (Or.inr (Or.inr (Or.inr (Or.inl ⟨i, rfl⟩)))))))⟩, fun i hi hj p => ?_, fun j hj p => ?_⟩
  · rcases main i with ⟨⟨q, hq, hqi⟩, -, -⟩ | ⟨-, h⟩
    · exfalso
      rcases mem_writes.1 hq with h | ⟨x, h⟩ | ⟨x, h⟩ | ⟨x, h⟩ | ⟨j, h⟩ | ⟨j, h⟩ | ⟨j, h⟩ | ⟨j, hj', h⟩ <;> rw [h] at hqi <;> dsimp only at hqi
      · have := hg.rc; omega
      · have := hg.c x; have := x.isLt; omega
      · have := hg.cShift x; have := x.isLt; omega
      · have := hg.d x; have := x.isLt; omega
      · exact hj j hqi.symm
      · have := hg.out j; have := j.isLt; omega
      · have := hg.aTheta j; have := j.isLt; omega
      · have := hg.b j hj'; have := j.isLt; have : j.val ≠ 0 := fun h' => hj' (Fin.ext h'); omega
    · exact h p
  · rcases main (g.stateIn j).idx with ⟨-, h, h'⟩ | ⟨-, h⟩
    · by_cases hp : p < 512
      · have h1 := h ⟨p / 64, by omega⟩ (p % 64) (by omega)
        have h2 := hj ⟨p / 64, by omega⟩ (p % 64) (by omega)
        rw [show 64 * (p / 64) + p % 64 = p by omega] at h1 h2
        rw [val_in M L brt _ j (hin j) hM] at h1
        exact h1.trans h2.symm
      · exact h' p (by omega)
    · exact h p

theorem Done.congr_row {w w' : Row F} {g : RoundBatch} {brt : Fin 8 → RoundTrace} {M L : Nat} (hM : M + 25 ≤ L)
    (hin : ∀ i, (g.stateIn i).idx = M + i.val) (hg : BatchCols L g) (h : Done w g brt)
    (hw : ∀ i, (M ≤ i ∧ i < M + 25) ∨ (L ≤ i ∧ i < L + 90) → ∀ p, w' i p = w i p) : Done w' g brt := by
  have key : ∀ (c : Col) (v : Fin 8 → BitVec 64), (M ≤ c.idx ∧ c.idx < M + 25) ∨ (L ≤ c.idx ∧ c.idx < L + 90) →
      Lanes w c v → Lanes w' c v := fun c v hc hl => (Lanes.congr_row fun p => hw _ hc p).2 hl
  refine ⟨fun i => key _ _ ?_ (h.stateIn i), fun x => key _ _ ?_ (h.c x), fun x => key _ _ ?_ (h.cShift x),
    fun x => key _ _ ?_ (h.d x), fun i => key _ _ ?_ (h.aTheta i), fun i hi => key _ _ ?_ (h.b i hi), key _ _ ?_ h.rc,
    fun i => key _ _ ?_ (h.out i)⟩
  · have := hin i; have := i.isLt; omega
  · have := hg.c x; have := x.isLt; omega
  · have := hg.cShift x; have := x.isLt; omega
  · have := hg.d x; have := x.isLt; omega
  · have := hg.aTheta i; have := i.isLt; omega
  · have := hg.b i hi; have := i.isLt; omega
  · have := hg.rc; omega
  · have := hg.out i; have := i.isLt; omega

theorem Done.batchRow {w : Row F} {g : RoundBatch} {s : Mat (BitVec 64)}
    (h : Done w g fun k => keccakfTrace s (nthRound g.batchNo k)) : BatchRow w g := by
  have e : ∀ k, batchTrace w g k = keccakfTrace s (nthRound g.batchNo k) := fun k => by
    have : inState w g k = (keccakfTrace s (nthRound g.batchNo k)).stateIn := funext fun i => (h.stateIn i).lane k
    rw [batchTrace, this, trace_apply]
    rfl
  have hr : (fun k => (keccakfTrace s (nthRound g.batchNo k)).rc) = fun k => Verif.M3.Keccak.rc (nthRound g.batchNo k) :=
    funext fun k => by rw [trace_apply]; rfl
  refine ⟨fun x => ?_, fun x => ?_, fun x => ?_, fun i => ?_, fun i hi => ?_, ?_, fun i => ?_⟩
  · simp only [e]; exact h.c x
  · simp only [e]; exact h.cShift x
  · simp only [e]; exact h.d x
  · simp only [e]; exact h.aTheta i
  · simp only [e]; exact h.b i hi
  · rw [← hr]; exact h.rc
  · simp only [e]; exact h.out i

end Verif.M3.Keccak
