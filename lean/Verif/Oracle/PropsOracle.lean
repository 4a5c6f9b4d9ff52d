import Verif.Oracle.LemmasOracle
import Mathlib.Data.ZMod.Basic

set_option linter.dupNamespace false
set_option linter.unusedSectionVars false

/-! C35: the oracles the set accepts are well formed, every well formed set determines the tables of its oracles, and the
multilinear extension of the derived tables reduces to that of the inner ones. -/

namespace Verif.Oracle

open Verif.Mle Finset
open Verif.Transparent (ShiftVariant)

variable {F : Type} [CommRing F] [DecidableEq F]

theorem adds_addToSet (os : OracleSet F) (o : Oracle F) : Adds os o (os.addToSet o) := by
  refine ⟨rfl, ?_, ?_, fun j hj => ?_, rfl⟩
  · show (os.oracles ++ [some o])[os.oracles.length]?.bind _ = _
    rw [List.getElem?_append_right (le_refl _), Nat.sub_self]; rfl
  · show (os.oracles ++ [some o]).length = _
    rw [List.length_append]; rfl
  · show (os.oracles ++ [some o])[j]?.bind _ = os.oracles[j]?.bind _
    rw [List.getElem?_append_left hj]

theorem wellFormedOracle_mono {os os' : OracleSet F} {id : Nat} {o : Oracle F}
    (h : ∀ j < id, ∀ inner, os.get j = some inner → os'.get j = some inner) (hw : WellFormedOracle os id o) :
    WellFormedOracle os' id o := by
  unfold WellFormedOracle at hw ⊢
  obtain ⟨nv, tl, var⟩ := o
  cases var with
  | committed => trivial
  | transparent p l => exact hw
  | structured c => trivial
  | repeating j k => obtain ⟨hj, i, hg, r⟩ := hw; exact ⟨hj, i, h j hj i hg, r⟩
  | projected j values s => obtain ⟨hj, i, hg, r⟩ := hw; exact ⟨hj, i, h j hj i hg, r⟩
  | shifted j offset b v => obtain ⟨hj, i, hg, r⟩ := hw; exact ⟨hj, i, h j hj i hg, r⟩
  | packed j k => obtain ⟨hj, i, hg, r⟩ := hw; exact ⟨hj, i, h j hj i hg, r⟩
  | linearCombination offset l =>
    intro p hp
    obtain ⟨hj, i, hg, r⟩ := hw p hp
    exact ⟨hj, i, h _ hj i hg, r⟩
  | zeroPadded j k nz s => obtain ⟨hj, i, hg, r⟩ := hw; exact ⟨hj, i, h j hj i hg, r⟩
  | composite l c =>
    refine ⟨fun j hj => ?_, hw.2⟩
    obtain ⟨hj, i, hg, r⟩ := hw.1 j hj
    exact ⟨hj, i, h _ hj i hg, r⟩

theorem wellFormed_adds {os : OracleSet F} {o : Oracle F} {r : OracleSet F × Nat} (ha : Adds os o r)
    (hw : WellFormed os) (ho : WellFormedOracle os os.oracles.length o) : WellFormed r.1 := by
  obtain ⟨a1, a2, a3, a4, _⟩ := ha
  intro id o' hg
  have hlt := OracleSet.get_lt hg
  by_cases e : id < os.oracles.length
  · rw [a4 id e] at hg
    exact wellFormedOracle_mono (fun j hj inner h => by rw [a4 j (by omega)]; exact h) (hw id o' hg)
  · have e : id = os.oracles.length := by omega
    rw [e, ← a1, a2] at hg
    cases hg
    rw [e]
    exact wellFormedOracle_mono (fun j hj inner h => by rw [a4 j hj]; exact h) ho

theorem valid_of_get {os : OracleSet F} {id : Nat} {o : Oracle F} (h : os.get id = some o) :
    ¬ ¬ (os.isValid id = true) := by
  have := OracleSet.get_lt h
  simp [OracleSet.isValid, this]

theorem not_valid {os : OracleSet F} {id : Nat} (h : os.oracles.length ≤ id) : ¬ (os.isValid id = true) := by
  simp [OracleSet.isValid, h]

theorem getAll_of {os : OracleSet F} (ids : List Nat) (l : List (Oracle F))
    (h : List.Forall₂ (fun id o => os.get id = some o) ids l) : os.getAll ids = some l := by
  induction h with
  | nil => rfl
  | cons h _ ih => unfold OracleSet.getAll; rw [h, ih]; rfl

/-- An addition that succeeds: the oracle `o` is the new last one, and a well formed set stays so. -/
def Accepts (os : OracleSet F) (o : Oracle F) (r : Res (OracleSet F × Nat)) : Prop :=
  ∃ a, r = some (.ok a) ∧ Adds os o a ∧ (WellFormed os → WellFormed a.1)

theorem accepts_put {os : OracleSet F} {o : Oracle F} (ho : WellFormed os → WellFormedOracle os os.oracles.length o) :
    Accepts os o (os.put o) :=
  ⟨_, rfl, adds_addToSet os o, fun hw => wellFormed_adds (adds_addToSet os o) hw (ho hw)⟩

/-- C35.  The empty set is well formed; a committed oracle of any size and level is accepted, and `committed_multiple`
adds them in order; a transparent or structured polynomial is accepted exactly when its tower level fits the
field. -/
theorem C35_leaves (ops : TowerOps F) (os : OracleSet F) (nVars towerLevel : Nat) (p : Transparent.Poly F)
    (c : Arith.Circuit F) :
    WellFormed (OracleSet.new : OracleSet F) ∧
    Accepts os ⟨nVars, towerLevel, .committed⟩ (addCommitted os nVars towerLevel) ∧
    (towerLevel ≤ ops.level → Accepts os ⟨p.nVars, towerLevel, .transparent p towerLevel⟩
      (addTransparent ops os p towerLevel)) ∧
    (ops.level < towerLevel → addTransparent ops os p towerLevel = some (.error .towerLevelTooHigh)) ∧
    (circuitLevel ops c ≤ ops.level → Accepts os ⟨nVars, circuitLevel ops c, .structured c⟩
      (addStructured ops os nVars c)) ∧
    (ops.level < circuitLevel ops c → addStructured ops os nVars c = some (.error .towerLevelTooHigh)) := by
  refine ⟨fun id o h => ?_, accepts_put fun _ => trivial, fun h => ?_, fun h => if_pos h, fun h => ?_,
    fun h => if_pos h⟩
  · simp [OracleSet.get, OracleSet.new] at h
  · unfold addTransparent; rw [if_neg (by omega)]; exact accepts_put fun _ => rfl
  · unfold addStructured; rw [if_neg (by omega)]; exact accepts_put fun _ => trivial

/-- C35.  `committed_multiple` gives `n` new committed oracles with consecutive identifiers, and changes no other. -/
theorem C35_committed_multiple (os : OracleSet F) (nVars towerLevel n : Nat) :
    let r := addCommittedMultiple os nVars towerLevel n
    r.2 = List.range' os.oracles.length n ∧ r.1.oracles.length = os.oracles.length + n ∧ r.1.size = os.size + n ∧
      (∀ j < os.oracles.length, r.1.get j = os.get j) ∧
      (∀ id ∈ r.2, r.1.get id = some ⟨nVars, towerLevel, .committed⟩) ∧ (WellFormed os → WellFormed r.1) := by
  induction n with
  | zero => exact ⟨rfl, rfl, rfl, fun _ _ => rfl, fun _ h => absurd h (by simp [addCommittedMultiple]), id⟩
  | succ n ih =>
    obtain ⟨h1, h2, h3, h4, h5, h6⟩ := ih
    have ha := adds_addToSet (addCommittedMultiple os nVars towerLevel n).1 ⟨nVars, towerLevel, .committed⟩
    have hwf := fun hw => wellFormed_adds ha (h6 hw) trivial
    obtain ⟨a1, a2, a3, a4, a5⟩ := ha
    rw [h2] at a1 a3 a4
    have e2 : (addCommittedMultiple os nVars towerLevel (n + 1)).2 = List.range' os.oracles.length (n + 1) := by
      show (addCommittedMultiple os nVars towerLevel n).2 ++ [_] = _
      rw [h1, List.range'_concat, Nat.one_mul]
      congr 2
    refine ⟨e2, a3, ?_, fun j hj => ?_, fun id hid => ?_, hwf⟩
    · exact a5.trans (by rw [h3]; omega)
    · exact (a4 j (by omega)).trans (h4 j hj)
    · rw [e2, List.range'_concat, Nat.one_mul, List.mem_append] at hid
      rcases hid with hid | hid
      · have hlt : id < os.oracles.length + n := by
          have := List.mem_range'.1 hid
          omega
        exact (a4 id hlt).trans (h5 id (by rw [h1]; exact hid))
      · rw [List.mem_singleton] at hid
        rw [hid, ← a1]
        exact a2

/-- C35.  A repetition of an oracle of the set is accepted for every count and has `log_count` more variables; an
identifier past the end of the set is refused. -/
theorem C35_repeating (os : OracleSet F) (id logCount : Nat) :
    (∀ inner, os.get id = some inner →
      Accepts os ⟨inner.nVars + logCount, inner.towerLevel, .repeating id logCount⟩ (addRepeating os id logCount)) ∧
    (os.oracles.length ≤ id → addRepeating os id logCount = some (.error .invalidOracleId)) := by
  refine ⟨fun inner hg => ?_, fun h => if_pos (not_valid h)⟩
  unfold addRepeating
  rw [if_neg (valid_of_get hg), hg]
  exact accepts_put fun _ => ⟨OracleSet.get_lt hg, inner, hg, rfl⟩

/-- C35.  A shift is accepted exactly when the block fits the oracle and the offset is positive and smaller than the
block. -/
theorem C35_shifted (os : OracleSet F) (id offset b : Nat) (v : ShiftVariant) :
    (∀ inner, os.get id = some inner →
      (b ≤ inner.nVars ∧ 0 < offset ∧ offset < 2 ^ b →
        Accepts os ⟨inner.nVars, inner.towerLevel, .shifted id offset b v⟩ (addShifted os id offset b v)) ∧
      (inner.nVars < b → addShifted os id offset b v = some (.error .invalidBlockSize)) ∧
      (b ≤ inner.nVars → ¬ (0 < offset ∧ offset < 2 ^ b) →
        addShifted os id offset b v = some (.error .invalidShiftOffset))) ∧
    (os.oracles.length ≤ id → addShifted os id offset b v = some (.error .invalidOracleId)) := by
  refine ⟨fun inner hg => ?_, fun h => if_pos (not_valid h)⟩
  unfold addShifted
  rw [if_neg (valid_of_get hg), hg]
  refine ⟨fun ⟨h1, h2, h3⟩ => ?_, fun h => if_pos h, fun h h' => ?_⟩
  · show Accepts os _ (if b > inner.nVars then _ else _)
    rw [if_neg (by omega), if_neg (by omega)]
    exact accepts_put fun _ => ⟨OracleSet.get_lt hg, inner, hg, rfl, h1, h2, h3⟩
  · show (if b > inner.nVars then _ else _) = _
    rw [if_neg (by omega), if_pos (by omega)]

/-- C35.  A packing is accepted exactly when the oracle has enough variables. -/
theorem C35_packed (os : OracleSet F) (id k : Nat) :
    (∀ inner, os.get id = some inner →
      (k ≤ inner.nVars →
        Accepts os ⟨inner.nVars - k, inner.towerLevel + k, .packed id k⟩ (addPacked os id k)) ∧
      (inner.nVars < k → addPacked os id k = some (.error .notEnoughVarsForPacking))) ∧
    (os.oracles.length ≤ id → addPacked os id k = some (.error .invalidOracleId)) := by
  refine ⟨fun inner hg => ?_, fun h => if_pos (not_valid h)⟩
  unfold addPacked
  rw [if_neg (valid_of_get hg), hg]
  refine ⟨fun h => ?_, fun h => if_pos h⟩
  show Accepts os _ (if k > inner.nVars then _ else _)
  rw [if_neg (by omega)]
  exact accepts_put fun _ => ⟨OracleSet.get_lt hg, inner, hg, Nat.sub_add_cancel h, rfl⟩

/-- C35.  A projection is accepted exactly when the projected variables exist. -/
theorem C35_projected (os : OracleSet F) (id : Nat) (values : List F) (s : Nat) :
    (∀ inner, os.get id = some inner →
      (s + values.length ≤ inner.nVars →
        Accepts os ⟨inner.nVars - values.length, inner.towerLevel, .projected id values s⟩
          (addProjected os id values s)) ∧
      (inner.nVars < s + values.length → addProjected os id values s = some (.error .invalidProjection))) ∧
    (os.oracles.length ≤ id → addProjected os id values s = some (.error .invalidOracleId)) := by
  refine ⟨fun inner hg => ?_, fun h => if_pos (not_valid h)⟩
  unfold addProjected
  rw [if_neg (valid_of_get hg), hg]
  refine ⟨fun h => ?_, fun h => ?_⟩
  · show Accepts os _ (if values.length > inner.nVars then _ else _)
    rw [if_neg (by omega), if_neg (by omega)]
    refine accepts_put fun _ => ⟨OracleSet.get_lt hg, inner, hg, ?_, ?_⟩
    · show inner.nVars - values.length + values.length = inner.nVars
      omega
    · show s ≤ inner.nVars - values.length
      omega
  · show (if values.length > inner.nVars then _ else _) = _
    by_cases h' : inner.nVars < values.length
    · rw [if_pos h']
    · rw [if_neg h', if_pos (by omega)]

/-- C35.  A projection of the last variables is accepted when there are enough of them; with too many values, which
`projected` refuses, it panics. -/
theorem C35_projected_last_vars (os : OracleSet F) (id : Nat) (values : List F) :
    (∀ inner, os.get id = some inner →
      (values.length ≤ inner.nVars →
        Accepts os ⟨inner.nVars - values.length, inner.towerLevel,
          .projected id values (inner.nVars - values.length)⟩ (addProjectedLastVars os id values)) ∧
      (inner.nVars < values.length → addProjectedLastVars os id values = none)) ∧
    (os.oracles.length ≤ id → addProjectedLastVars os id values = some (.error .invalidOracleId)) := by
  refine ⟨fun inner hg => ?_, fun h => if_pos (not_valid h)⟩
  unfold addProjectedLastVars
  rw [if_neg (valid_of_get hg), hg]
  refine ⟨fun h => ?_, fun h => if_pos h⟩
  show Accepts os _ (if inner.nVars < values.length then none else if values.length > inner.nVars then _ else _)
  rw [if_neg (by omega), if_neg (by omega), if_neg (by omega)]
  refine accepts_put fun _ => ⟨OracleSet.get_lt hg, inner, hg, ?_, le_refl _⟩
  show inner.nVars - values.length + values.length = inner.nVars
  omega

theorem foldl_max (l : List Nat) : ∀ a : Nat, (∀ x ∈ l, x ≤ l.foldl max a) ∧ a ≤ l.foldl max a ∧
    (l.foldl max a = a ∨ l.foldl max a ∈ l) := by
  induction l with
  | nil => intro a; simp
  | cons x l ih =>
    intro a
    obtain ⟨i1, i2, i3⟩ := ih (max a x)
    refine ⟨fun y hy => ?_, le_trans (le_max_left _ _) i2, ?_⟩
    · rcases List.mem_cons.1 hy with rfl | hy
      · exact le_trans (le_max_right _ _) i2
      · exact i1 y hy
    · rcases i3 with i3 | i3
      · rcases max_cases a x with ⟨hm, _⟩ | ⟨hm, _⟩
        · left; exact i3.trans hm
        · right; rw [List.foldl_cons, i3, hm]; exact List.mem_cons_self
      · right; exact List.mem_cons_of_mem _ i3

/-- C35.  A linear combination is accepted exactly when all its oracles have the stated number of variables; its tower
level is at least that of each of them and of each coefficient, and that of one of them. -/
theorem C35_linear_combination (ops : TowerOps F) (os : OracleSet F) (nVars : Nat) (offset : F)
    (inner : List (Nat × F)) (polys : List (Oracle F))
    (h : List.Forall₂ (fun p o => os.get p.1 = some o) inner polys) :
    ((∀ o ∈ polys, o.nVars = nVars) → ∃ level, Accepts os ⟨nVars, level, .linearCombination offset inner⟩
      (addLinearCombination ops os nVars offset inner) ∧ ops.minLevel offset ≤ level ∧
      (∀ o ∈ polys, o.towerLevel ≤ level) ∧ (∀ p ∈ inner, ops.minLevel p.2 ≤ level) ∧
      (level = 0 ∨ level = ops.minLevel offset ∨ (∃ o ∈ polys, level = o.towerLevel) ∨
        ∃ p ∈ inner, level = ops.minLevel p.2)) ∧
    ((∃ o ∈ polys, o.nVars ≠ nVars) →
      addLinearCombination ops os nVars offset inner = some (.error .incorrectNumberOfVariables)) := by
  have hga : os.getAll (inner.map (·.1)) = some polys := getAll_of _ _ (by
    rw [List.forall₂_map_left_iff]; exact h)
  unfold addLinearCombination
  rw [hga]
  refine ⟨fun hn => ?_, fun hn => ?_⟩
  · have e : (polys.any fun p => p.nVars ≠ nVars) = false := by
      rw [List.any_eq_false]
      intro o ho
      simp [hn o ho]
    obtain ⟨k1, _, k3⟩ := foldl_max ((polys.zip inner).map fun p => max p.1.towerLevel (ops.minLevel p.2.2)) 0
    have hz : ∀ q ∈ polys.zip inner, max q.1.towerLevel (ops.minLevel q.2.2) ≤
        ((polys.zip inner).map fun p => max p.1.towerLevel (ops.minLevel p.2.2)).foldl max 0 :=
      fun q hq => k1 _ (List.mem_map.2 ⟨q, hq, rfl⟩)
    have hlen := h.length_eq
    refine ⟨max (((polys.zip inner).map fun p => max p.1.towerLevel (ops.minLevel p.2.2)).foldl max 0)
      (ops.minLevel offset), ?_, le_max_right _ _, fun o ho => ?_, fun p hp => ?_, ?_⟩
    · show Accepts os _ (if (polys.any fun p => p.nVars ≠ nVars) = true then _ else _)
      rw [if_neg (by rw [e]; simp)]
      refine accepts_put fun _ => fun p hp => ?_
      obtain ⟨k, hk, rfl⟩ := List.getElem_of_mem hp
      have hk' : k < polys.length := by omega
      have := h.get hk hk'
      exact ⟨OracleSet.get_lt this, polys[k], this, hn _ (List.getElem_mem hk')⟩
    · obtain ⟨k, hk, rfl⟩ := List.getElem_of_mem ho
      have hm : (polys[k], inner[k]'(by omega)) ∈ polys.zip inner := by
        rw [← List.getElem_zip (h := by simp; omega)]; exact List.getElem_mem _
      exact le_trans (le_trans (le_max_left _ _) (hz _ hm)) (le_max_left _ _)
    · obtain ⟨k, hk, rfl⟩ := List.getElem_of_mem hp
      have hm : (polys[k]'(by omega), inner[k]) ∈ polys.zip inner := by
        rw [← List.getElem_zip (h := by simp; omega)]; exact List.getElem_mem _
      exact le_trans (le_trans (le_max_right _ _) (hz _ hm)) (le_max_left _ _)
    · rcases max_cases (((polys.zip inner).map fun p => max p.1.towerLevel (ops.minLevel p.2.2)).foldl max 0)
        (ops.minLevel offset) with ⟨hm, _⟩ | ⟨hm, _⟩
      · rw [hm]
        rcases k3 with k3 | k3
        · left; exact k3
        · obtain ⟨q, hq, hq'⟩ := List.mem_map.1 k3
          rw [← hq']
          obtain ⟨q1, q2⟩ := List.of_mem_zip hq
          rcases max_cases q.1.towerLevel (ops.minLevel q.2.2) with ⟨hm, _⟩ | ⟨hm, _⟩
          · right; right; left; exact ⟨_, q1, hm⟩
          · right; right; right; exact ⟨_, q2, hm⟩
      · right; left; exact hm
  · obtain ⟨o, ho, hne⟩ := hn
    show (if (polys.any fun p => p.nVars ≠ nVars) = true then _ else _) = _
    rw [if_pos]
    rw [List.any_eq_true]
    exact ⟨o, ho, by simp [hne]⟩

/-- C35.  A composite oracle is accepted exactly when all its oracles have the stated number of variables and there are
enough of them for the circuit; its tower level is the largest of theirs, whatever the constants of the circuit. -/
theorem C35_composite (os : OracleSet F) (nVars : Nat) (inner : List Nat) (c : Arith.Circuit F)
    (polys : List (Oracle F)) (h : List.Forall₂ (fun id o => os.get id = some o) inner polys) :
    ((∀ o ∈ polys, o.nVars = nVars) → Arith.nVars c ≤ inner.length →
      ∃ level, Accepts os ⟨nVars, level, .composite inner c⟩ (addComposite os nVars inner c) ∧
        (∀ o ∈ polys, o.towerLevel ≤ level) ∧ (level = 0 ∨ ∃ o ∈ polys, level = o.towerLevel)) ∧
    ((∃ o ∈ polys, o.nVars ≠ nVars) → addComposite os nVars inner c = some (.error .incorrectNumberOfVariables)) ∧
    ((∀ o ∈ polys, o.nVars = nVars) → inner.length < Arith.nVars c →
      addComposite os nVars inner c = some (.error .compositionMismatch)) := by
  have hga : os.getAll inner = some polys := getAll_of _ _ h
  have e : (∀ o ∈ polys, o.nVars = nVars) → ¬ (polys.any fun p => p.nVars ≠ nVars) = true := by
    intro hn
    rw [List.any_eq_true]
    rintro ⟨o, ho, h⟩
    simp [hn o ho] at h
  unfold addComposite
  rw [hga]
  obtain ⟨k1, _, k3⟩ := foldl_max (polys.map (·.towerLevel)) 0
  refine ⟨fun hn hc => ⟨(polys.map (·.towerLevel)).foldl max 0, ?_, fun o ho => k1 _ (List.mem_map_of_mem ho), ?_⟩,
    fun hn => ?_, fun hn hc => ?_⟩
  · show Accepts os _ (if (polys.any fun p => p.nVars ≠ nVars) = true then _ else _)
    rw [if_neg (e hn), if_neg (by omega)]
    refine accepts_put fun _ => ⟨fun j hj => ?_, hc⟩
    obtain ⟨k, hk, rfl⟩ := List.getElem_of_mem hj
    have hk' : k < polys.length := by rw [← h.length_eq]; exact hk
    have := h.get hk hk'
    exact ⟨OracleSet.get_lt this, polys[k], this, hn _ (List.getElem_mem hk')⟩
  · rcases k3 with k3 | k3
    · exact .inl k3
    · obtain ⟨o, ho, e⟩ := List.mem_map.1 k3
      exact .inr ⟨o, ho, e.symm⟩
  · obtain ⟨o, ho, hne⟩ := hn
    show (if (polys.any fun p => p.nVars ≠ nVars) = true then _ else _) = _
    rw [if_pos]
    rw [List.any_eq_true]
    exact ⟨o, ho, by simp [hne]⟩
  · show (if (polys.any fun p => p.nVars ≠ nVars) = true then _ else _) = _
    rw [if_neg (e hn), if_pos hc]

/-- C35.  A zero padding is accepted exactly when the start index and the index of the block of values are in range,
where the check of the latter lets `2^n_pad_vars`, one past the last block, through (see
`C35_zero_padded_out_of_range`). -/
theorem C35_zero_padded_partial (os : OracleSet F) (id k nz s : Nat) (inner : Oracle F) (hg : os.get id = some inner) :
    (s ≤ inner.nVars → nz ≤ 2 ^ k →
      Accepts os ⟨inner.nVars + k, inner.towerLevel, .zeroPadded id k nz s⟩ (addZeroPadded os id k nz s)) ∧
    (inner.nVars < s → addZeroPadded os id k nz s = some (.error .invalidStartIndex)) ∧
    (s ≤ inner.nVars → 2 ^ k < nz → addZeroPadded os id k nz s = some (.error .invalidNonzeroIndex)) := by
  unfold addZeroPadded
  rw [hg]
  refine ⟨fun h1 h2 => ?_, fun h => if_pos h, fun h1 h2 => ?_⟩
  · show Accepts os _ (if s > inner.nVars then _ else _)
    rw [if_neg (by omega), if_neg (by omega)]
    exact accepts_put fun _ => ⟨OracleSet.get_lt hg, inner, hg, rfl, h1, h2⟩
  · show (if s > inner.nVars then _ else _) = _
    rw [if_neg (by omega), if_pos h2]

/-- C35.  In a well formed set with lawful parameters, the values of the committed oracles determine one table for every
oracle. -/
theorem C35_tables (β : Nat → Nat → F) (os : OracleSet F) (hw : WellFormed os)
    (hl : ∀ id o, os.get id = some o → Lawful o) (com : Nat → Nat → F) :
    (∃ tab, IsTables β os tab ∧ ∀ id o, os.get id = some o → o.variant = .committed → tab id = com id) ∧
    (∀ tab tab', IsTables β os tab → IsTables β os tab' →
      (∀ id o, os.get id = some o → o.variant = .committed → ∀ i < 2 ^ o.nVars, tab id i = tab' id i) →
      ∀ id o, os.get id = some o → ∀ i < 2 ^ o.nVars, tab id i = tab' id i) := by
  refine ⟨?_, fun tab tab' h h' hc id => ?_⟩
  · obtain ⟨tab, h⟩ := isTables_exists β os hw hl com os.oracles.length
    exact ⟨tab, fun id o hg => (h id (OracleSet.get_lt hg) o hg).1,
      fun id o hg => (h id (OracleSet.get_lt hg) o hg).2⟩
  · induction id using Nat.strongRecOn with
    | ind id ih =>
      intro o hg
      by_cases hv : o.variant = .committed
      · exact hc id o hg hv
      · exact isTable_unique (hw id o hg) hv (fun j hj inner hi => ih j hj inner hi) (h id o hg) (h' id o hg)

/-- C35.  The multilinear extension of the table of a derived oracle is what its kind says, in terms of the multilinear
extensions of the tables of its inner oracles. -/
theorem C35_evaluate (β : Nat → Nat → F) (os : OracleSet F) (tab : Nat → Nat → F)
    (ht : IsTables β os tab) (id : Nat) (o : Oracle F) (hg : os.get id = some o) :
    (∀ j k a b, o.variant = .repeating j k → a.length + b.length = o.nVars → b.length = k →
      mle (tab id) (a ++ b) = mle (tab j) a) ∧
    (∀ j values s lo hi, o.variant = .projected j values s → lo.length = s → lo.length + hi.length = o.nVars →
      mle (tab id) (lo ++ hi) = mle (tab j) (lo ++ values ++ hi)) ∧
    (∀ j off b v lo hi, o.variant = .shifted j off b v → lo.length = b → lo.length + hi.length = o.nVars →
      mle (tab id) (lo ++ hi) =
        mle (Transparent.shifted v b off fun x => mle (fun k => tab j (x + 2 ^ b * k)) hi) lo) ∧
    (∀ j k r inner, o.variant = .packed j k → os.get j = some inner → r.length = o.nVars →
      mle (tab id) r = ∑ e ∈ range (2 ^ k), mle (tab j) (vertex k e ++ r) * β inner.towerLevel e) ∧
    (∀ offset inner r, o.variant = .linearCombination offset inner → r.length = o.nVars →
      mle (tab id) r = offset + (inner.map fun p => p.2 * mle (tab p.1) r).sum) ∧
    (∀ j k nz s lo z hi, o.variant = .zeroPadded j k nz s → lo.length = s → z.length = k →
      lo.length + z.length + hi.length = o.nVars →
      mle (tab id) (lo ++ z ++ hi) = (if nz < 2 ^ k then eqWeight z nz else 0) * mle (tab j) (lo ++ hi)) ∧
    (∀ inner c r, o.variant = .composite inner c → r.length = o.nVars →
      ∃ f : Nat → F, (∀ i < 2 ^ o.nVars, Arith.evaluate c (inner.map fun j => tab j i) = some (f i)) ∧
        mle (tab id) r = ∑ i ∈ range (2 ^ o.nVars), eqWeight r i * f i) := by
  have h := ht id o hg
  unfold IsTable at h
  obtain ⟨nv, tl, var⟩ := o
  refine ⟨fun j k a b hv hab hb => ?_, fun j values s lo hi hv hlo hlen => ?_, fun j off b v lo hi hv hlo hlen => ?_,
    fun j k r inner hv hj hr => ?_, fun offset inner r hv hr => ?_, fun j k nz s lo z hi hv hlo hz hlen => ?_,
    fun inner c r hv hr => ?_⟩ <;> cases hv
  · have hab : a.length + b.length = nv := hab
    refine mle_repeat _ _ _ _ fun i hi => ?_
    rw [h i (by rw [← hab]; exact hi)]
    congr 2
    show 2 ^ (nv - k) = _
    rw [← hab, hb, Nat.add_sub_cancel]
  · have hlen : lo.length + hi.length = nv := hlen
    rw [List.append_assoc]
    refine mle_projected _ _ _ _ _ fun i hi' => ?_
    rw [h i (by rw [← hlen]; exact hi'), hlo]
  · have hlen : lo.length + hi.length = nv := hlen
    exact mle_shifted _ _ _ _ _ _ _ hlo fun i hi' => h i (by rw [← hlen]; exact hi')
  · have hr : r.length = nv := hr
    rw [mle_packed (tab id) (tab j) (β inner.towerLevel) k r fun i hi => h inner hj i (by rw [← hr]; exact hi)]
    refine Finset.sum_congr rfl fun e he => ?_
    congr 1
    rw [mle_append]
    refine mle_congr fun i _ => ?_
    rw [mle_vertex _ _ _ (Finset.mem_range.1 he), vertex_length]
  · have hr : r.length = nv := hr
    have := mle_linear (tab id) offset (inner.map fun p => (tab p.1, p.2)) r fun i hi => by
      rw [h i (by rw [← hr]; exact hi), List.map_map]; rfl
    rw [this, List.map_map]; rfl
  · have hlen : lo.length + z.length + hi.length = nv := hlen
    rw [List.append_assoc, mle_zeroPadded (tab id) (tab j) nz lo z hi fun i hi' => by
      rw [h i (by rw [← hlen, Nat.add_assoc]; exact hi'), hlo, hz]]
    congr 1
    unfold mle
    rw [hz]
    by_cases hn : nz < 2 ^ k
    · rw [if_pos hn, Finset.sum_eq_single nz]
      · simp
      · intro b _ hb; simp [hb]
      · intro hb; exact absurd (Finset.mem_range.2 hn) hb
    · rw [if_neg hn]
      refine Finset.sum_eq_zero fun b hb => ?_
      have := Finset.mem_range.1 hb
      rw [show (fun i => if i = nz then (1 : F) else 0) b = 0 from if_neg (by omega), mul_zero]
  · have hr : r.length = nv := hr
    refine ⟨tab id, fun i hi => h i hi, ?_⟩
    unfold mle
    rw [hr]

/-- C35.  A transparent or structured oracle with lawful parameters evaluates to the multilinear extension of its table. -/
theorem C35_evaluate_leaves (β : Nat → Nat → F) (os : OracleSet F) (tab : Nat → Nat → F)
    (ht : IsTables β os tab) (id : Nat) (o : Oracle F) (hg : os.get id = some o) (hl : Lawful o) (r : List F)
    (hr : r.length = o.nVars) :
    (∀ p l, o.variant = .transparent p l → p.evaluate r = .ok (mle (tab id) r)) ∧
    (∀ c, o.variant = .structured c →
      Arith.evaluate c (r ++ List.replicate (Arith.nVars c - o.nVars) 0) = some (mle (tab id) r)) := by
  have h := ht id o hg
  unfold IsTable at h
  unfold Lawful at hl
  obtain ⟨nv, tl, var⟩ := o
  refine ⟨fun p l hv => ?_, fun c hv => ?_⟩ <;> cases hv
  · obtain ⟨t, _, h1, _⟩ := hl
    rw [h1 r hr]
    congr 1
    refine mle_congr fun i hi => ?_
    have hr : r.length = nv := hr
    rw [hr] at hi
    have e := (h1 _ (vertex_length nv i)).symm.trans (h i hi)
    rw [mle_vertex _ _ _ hi] at e
    exact Except.ok.inj e
  · obtain ⟨g, h1, h2⟩ := hl
    rw [h2 r hr]
    congr 1
    refine isMultilinear_unique _ g h1 _ (fun b hb => ?_) r hr
    exact Option.some.inj ((h2 _ (vertex_length nv b)).symm.trans (h b hb))

/-! Negative results. -/

/-- C35 fails: `zero_padded` accepts the block index `2^n_pad_vars`, whose padded table is zero everywhere and holds no
block of values, and which the row selector needed to evaluate it refuses. -/
theorem C35_zero_padded_out_of_range (os : OracleSet F) (id k s : Nat) (inner : Oracle F)
    (hg : os.get id = some inner) (hs : s ≤ inner.nVars) :
    (∃ a, addZeroPadded os id k (2 ^ k) s = some (.ok a)) ∧
    (∀ β tab t, IsTable β os tab ⟨inner.nVars + k, inner.towerLevel, .zeroPadded id k (2 ^ k) s⟩ t →
      ∀ i < 2 ^ (inner.nVars + k), t i = 0) ∧
    Transparent.selectRowNew k (2 ^ k) = .error .argumentRange := by
  refine ⟨?_, fun β tab t h i hi => ?_, (Transparent.C30_select_row (F := F) 0 k _).2.1 (le_refl _)⟩
  · obtain ⟨a, ha, _⟩ := (C35_zero_padded_partial os id k (2 ^ k) s inner hg).1 hs (le_refl _)
    exact ⟨a, ha⟩
  · rw [h i hi, if_neg]
    have := Nat.mod_lt (i / 2 ^ s) (Nat.two_pow_pos k)
    omega

/-- C35 fails: a structured polynomial is not required to be multilinear.  The circuit `x₀ · x₀` is accepted, and over a
field with an element other than 0 and 1 its value there is not the multilinear extension of its table. -/
theorem C35_structured_not_multilinear (ops : TowerOps F) (os : OracleSet F) (a : F) (ha : a * a ≠ a) :
    let c : Arith.Circuit F := Arith.mul (Arith.var 0) (Arith.var 0)
    (∃ r, addStructured ops os 1 c = some (.ok r) ∧ r.1.get r.2 = some ⟨1, 0, .structured c⟩) ∧
    (∀ β tab t, IsTable β os tab ⟨1, 0, .structured c⟩ t →
      Arith.evaluate c [a] ≠ some (mle t [a])) := by
  intro c
  have hev : ∀ x : F, Arith.evaluate c [x] = some (x * x) := fun x => rfl
  refine ⟨?_, fun β tab t h he => ?_⟩
  · obtain ⟨r, h1, h2, _⟩ := (C35_leaves ops os 1 0 ⟨0, fun _ => .ok 0⟩ c).2.2.2.2.1 (Nat.zero_le _)
    exact ⟨r, h1, h2.2.1⟩
  · have h0 := h 0 (show 0 < 2 ^ 1 by decide)
    have h1 := h 1 (show 1 < 2 ^ 1 by decide)
    have e0 : t 0 = 0 := by
      have := h0.symm.trans (hev 0)
      simpa using this
    have e1 : t 1 = 1 := by
      have := h1.symm.trans (hev 1)
      simpa using this
    rw [hev, mle_singleton, e0, e1] at he
    have := Option.some.inj he
    apply ha
    rw [this]; ring

/-- C35 fails: the validity check of an identifier accepts a skipped oracle, on which the access panics. -/
theorem C35_skipped_panics (os : OracleSet F) (k : Nat) :
    os.addSkip.isValid os.oracles.length = true ∧ addRepeating os.addSkip os.oracles.length k = none := by
  have h1 : os.addSkip.isValid os.oracles.length = true := by simp [OracleSet.isValid, OracleSet.addSkip]
  refine ⟨h1, ?_⟩
  unfold addRepeating
  rw [if_neg (not_not.2 h1)]
  have : os.addSkip.get os.oracles.length = none := by simp [OracleSet.get, OracleSet.addSkip]
  rw [this]; rfl

/-! A concrete set that meets the hypotheses: a committed oracle of three variables, its shift by one in blocks of four,
the projection of its variable 1 and a padding of that. -/

section Example

private def os0 : OracleSet (ZMod 2) := ⟨[some ⟨3, 0, .committed⟩], 1⟩
private def os1 : OracleSet (ZMod 2) := ⟨os0.oracles ++ [some ⟨3, 0, .shifted 0 1 2 .logicalLeft⟩], 2⟩
private def os2 : OracleSet (ZMod 2) := ⟨os1.oracles ++ [some ⟨2, 0, .projected 0 [1] 1⟩], 3⟩
private def os3 : OracleSet (ZMod 2) := ⟨os2.oracles ++ [some ⟨4, 0, .zeroPadded 2 2 3 1⟩], 4⟩

example : addCommitted (OracleSet.new : OracleSet (ZMod 2)) 3 0 = some (.ok (os0, 0)) := rfl
example : addShifted os0 0 1 2 .logicalLeft = some (.ok (os1, 1)) := rfl
example : addProjected os1 0 [1] 1 = some (.ok (os2, 2)) := rfl
example : addZeroPadded os2 2 2 3 1 = some (.ok (os3, 3)) := rfl

private theorem os3_wf : WellFormed os3 := by
  have w0 : WellFormed os0 := by
    obtain ⟨a, h, _, hw⟩ := (C35_leaves ⟨0, fun _ => 0⟩ (OracleSet.new : OracleSet (ZMod 2)) 3 0
      ⟨0, fun _ => .ok 0⟩ []).2.1
    cases h
    exact hw (fun id o h => by simp [OracleSet.get, OracleSet.new] at h)
  have w1 : WellFormed os1 := by
    obtain ⟨a, h, _, hw⟩ := ((C35_shifted os0 0 1 2 .logicalLeft).1 _ rfl).1 (by decide)
    cases h
    exact hw w0
  have w2 : WellFormed os2 := by
    obtain ⟨a, h, _, hw⟩ := ((C35_projected os1 0 [1] 1).1 _ rfl).1 (by decide)
    cases h
    exact hw w1
  obtain ⟨a, h, _, hw⟩ := (C35_zero_padded_partial os2 2 2 3 1 _ rfl).1 (by decide) (by decide)
  cases h
  exact hw w2

example : WellFormed os3 := os3_wf

/-- The set has tables for any committed values. -/
example (com : Nat → Nat → ZMod 2) : ∃ tab, IsTables (fun _ _ => 0) os3 tab ∧ tab 0 = com 0 := by
  have hl : ∀ id o, os3.get id = some o → Lawful o := by
    intro id o h
    have := OracleSet.get_lt h
    match id, this with
    | 0, _ => cases h; trivial
    | 1, _ => cases h; trivial
    | 2, _ => cases h; trivial
    | 3, _ => cases h; trivial
    | n + 4, hn => exact absurd hn (by simp [os3, os2, os1, os0])
  obtain ⟨⟨tab, h, h'⟩, _⟩ := C35_tables (fun _ _ => 0) os3 os3_wf hl com
  exact ⟨tab, h, h' 0 _ rfl rfl⟩

example : ∃ a : ZMod 5, a * a ≠ a := ⟨2, by decide⟩

end Example

end Verif.Oracle
