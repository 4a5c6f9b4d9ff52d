import Verif.Utils.ModelContainers
import Mathlib.Algebra.BigOperators.Group.Finset.Basic
import Mathlib.Data.List.Basic
import Mathlib.Algebra.BigOperators.Group.List.Basic

/-! Lemmas on the containers. -/

namespace Verif.Containers

variable {T : Type}

theorem resized_get (l : List (Option T)) (id i : Nat) :
    ((resized l id)[i]?.bind fun v => v) = l[i]?.bind fun v => v := by
  rw [resized]
  split
  · rcases Nat.lt_or_ge i l.length with h | h
    · rw [List.getElem?_append_left h]
    · rw [List.getElem?_append_right h, List.getElem?_replicate, List.getElem?_eq_none h]
      split <;> rfl
  · rfl

theorem resized_length (l : List (Option T)) (id : Nat) : id < (resized l id).length := by
  rw [resized]
  split
  · rw [List.length_append, List.length_replicate]; omega
  · omega

theorem get_set_entries (l : List (Option T)) {id : Nat} (h : id < l.length) (v : Option T) (i : Nat) :
    ((l.set id v)[i]?.bind fun v => v) = if i = id then v else l[i]?.bind fun v => v := by
  rw [List.getElem?_set]
  by_cases hi : id = i
  · subst hi; simp [h]
  · rw [if_neg hi, if_neg (Ne.symm hi)]

theorem run_get (s : SparseIndex T) (op : Op T) (i : Nat) : (s.run op).get i = op.apply s.get i := by
  cases op with
  | set id v =>
    rw [SparseIndex.run, SparseIndex.set, SparseIndex.get, get_set_entries _ (resized_length _ _), resized_get]
    rfl
  | orInsert id v =>
    rw [SparseIndex.run, SparseIndex.orInsert, SparseIndex.get, get_set_entries _ (resized_length _ _), resized_get]
    have h := resized_get s.entries id id
    rw [List.getElem?_eq_getElem (resized_length _ _)] at h
    rw [Op.apply, List.getElem?_eq_getElem (resized_length _ _), SparseIndex.get, ← h]
    rfl
  | modify id f =>
    rw [SparseIndex.run, SparseIndex.modify, Op.apply]
    split
    · rename_i v h
      have hl : id < s.entries.length := by
        by_contra hl
        rw [List.getElem?_eq_none (by omega)] at h
        cases h
      rw [SparseIndex.get, get_set_entries _ hl, show s.get id = some v from h]
      rfl
    · rename_i h
      rw [show s.get id = none from h]
      show _ = if i = id then _ else _
      split
      · rename_i e
        rw [e]
        exact h
      · rfl

theorem mem_iter (s : SparseIndex T) (i : Nat) (v : T) : (i, v) ∈ s.iter ↔ s.get i = some v := by
  rw [SparseIndex.iter, SparseIndex.get, List.mem_filterMap]
  constructor
  · rintro ⟨⟨o, k⟩, h, e⟩
    rw [List.mem_zipIdx_iff_getElem?] at h
    cases o with
    | none => cases e
    | some w =>
      cases e
      rw [h]; rfl
  · intro h
    cases e : s.entries[i]? with
    | none => rw [e] at h; cases h
    | some o =>
      rw [e] at h
      exact ⟨(o, i), List.mem_zipIdx_iff_getElem?.2 e, by rw [show o = some v from h]; rfl⟩

theorem iter_sorted (l : List (Option T)) (n : Nat) :
    ((l.zipIdx n).filterMap fun p => p.1.map fun v => (p.2, v)).Pairwise (fun a b => a.1 < b.1) ∧
      ∀ p ∈ (l.zipIdx n).filterMap fun p => p.1.map fun v => (p.2, v), n ≤ p.1 := by
  induction l generalizing n with
  | nil => simp
  | cons o l ih =>
    obtain ⟨h1, h2⟩ := ih (n + 1)
    rw [List.zipIdx_cons]
    cases o with
    | none => exact ⟨h1, fun p hp => by have := h2 p hp; omega⟩
    | some v =>
      rw [List.filterMap_cons]
      refine ⟨List.pairwise_cons.2 ⟨fun p hp => ?_, h1⟩, fun p hp => ?_⟩
      · exact h2 p hp
      · rcases List.mem_cons.1 hp with rfl | hp
        · exact le_rfl
        · have := h2 p hp; omega

theorem iter_parts (l : List (Option T)) (n : Nat) :
    ((l.zipIdx n).filterMap fun p => p.1.map fun _ => p.2) =
      ((l.zipIdx n).filterMap fun p => p.1.map fun v => (p.2, v)).map Prod.fst ∧
    (l.filterMap fun v => v) = ((l.zipIdx n).filterMap fun p => p.1.map fun v => (p.2, v)).map Prod.snd := by
  induction l generalizing n with
  | nil => exact ⟨rfl, rfl⟩
  | cons o l ih =>
    obtain ⟨h1, h2⟩ := ih (n + 1)
    rw [List.zipIdx_cons]
    cases o with
    | none => exact ⟨h1, h2⟩
    | some v => exact ⟨congrArg (n :: ·) h1, congrArg (v :: ·) h2⟩

theorem pos_lt {r c i j : Nat} (hi : i < r) (hj : j < c) : i * c + j < r * c := by
  have := Nat.mul_le_mul_right c (Nat.succ_le_of_lt hi)
  rw [Nat.succ_mul] at this
  omega

theorem pos_inj {c i j i' j' : Nat} (hj : j < c) (hj' : j' < c) (h : i * c + j = i' * c + j') : i = i' ∧ j = j' := by
  have hc : 0 < c := by omega
  have h1 := congrArg (· / c) h
  have h2 := congrArg (· % c) h
  simp only [Nat.mul_comm _ c, Nat.mul_add_div hc, Nat.mul_add_mod, Nat.div_eq_of_lt hj, Nat.div_eq_of_lt hj', Nat.mod_eq_of_lt hj,
    Nat.mod_eq_of_lt hj', Nat.add_zero] at h1 h2
  exact ⟨h1, h2⟩

theorem getRow_get (a : Array2D T) (h : a.WF) {i : Nat} (hi : i < a.rows) : ∃ row, a.getRow i = some row ∧
    row.length = a.cols ∧ ∀ j < a.cols, row[j]? = a.index i j := by
  have hl : i * a.cols + a.cols ≤ a.data.length := by
    rw [h, ← Nat.succ_mul]
    exact Nat.mul_le_mul_right _ hi
  refine ⟨_, if_pos hl, ?_, fun j hj => ?_⟩
  · rw [List.length_take, List.length_drop]; omega
  · rw [List.getElem?_take, if_pos hj, List.getElem?_drop]; rfl

end Verif.Containers
