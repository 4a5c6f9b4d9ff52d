import Verif.Math.ModelRowsBatch

/-! C83: evaluation of compositions on batches of rows. -/

namespace Verif.RowsBatch

variable {T : Type}

/-- The guarantee of the type: all rows are long enough. -/
def Batch.WF (b : Batch T) : Prop := ∀ row ∈ b.rows, b.offset + b.rowLen ≤ row.length

/-- Element `j` of row `i`. -/
def Batch.at (b : Batch T) (i j : Nat) : Option T := (b.row i).bind fun row => row[j]?

/-- What `batch_evaluate` should do, crates/math/src/composition_poly.rs:40-48: `evals[j] = composition([batch[i][j] for all
i])` for all `j`. -/
def BatchSpec (evaluate : List T → Option T) (b : Batch T) (evals : Option (List T)) : Prop :=
  evals = (List.range b.rowLen).mapM fun j => ((List.range b.rows.length).mapM fun i => b.at i j).bind evaluate

theorem at_eq (b : Batch T) (h : b.WF) {i j : Nat} (hi : i < b.rows.length) (hj : j < b.rowLen) :
    b.at i j = b.rows[i]?.bind fun row => row[b.offset + j]? := by
  have hr := h b.rows[i] (List.getElem_mem hi)
  rw [Batch.at, Batch.row, List.getElem?_eq_getElem hi, Option.bind_some, if_pos hr, Option.bind_some, Option.bind_some,
    List.getElem?_take, if_pos hj, List.getElem?_drop]

theorem mapM_congr {α β : Type} (l : List α) (f g : α → Option β) (h : ∀ a ∈ l, f a = g a) : l.mapM f = l.mapM g := by
  induction l with
  | nil => rfl
  | cons a l ih =>
    rw [List.mapM_cons, List.mapM_cons, h a (List.mem_cons_self), ih fun b hb => h b (List.mem_cons_of_mem _ hb)]

theorem mapM_map {α β γ : Type} (l : List α) (f : α → β) (g : β → Option γ) :
    (l.map f).mapM g = l.mapM fun a => g (f a) := by
  induction l with
  | nil => rfl
  | cons a l ih => rw [List.map_cons, List.mapM_cons, List.mapM_cons, ih]

theorem mapM_range {α β : Type} (l : List α) (f : α → Option β) :
    l.mapM f = (List.range l.length).mapM fun i => l[i]?.bind f := by
  have h : l = (List.range l.length).attach.map fun i => l[i.1]'(List.mem_range.1 i.2) := by
    apply List.ext_getElem
    · simp
    · intro i h1 h2
      simp
  conv_lhs => rw [h]
  rw [mapM_map]
  have e : ∀ (r : List Nat) (hr : ∀ i ∈ r, i < l.length), (r.attach.mapM fun i => f (l[i.1]'(hr _ i.2))) =
      r.mapM fun i => l[i]?.bind f := by
    intro r hr
    conv_rhs => rw [show r = r.attach.map Subtype.val from (List.attach_map_subtype_val r).symm]
    rw [mapM_map]
    refine mapM_congr _ _ _ fun i _ => ?_
    rw [List.getElem?_eq_getElem (hr _ i.2), Option.bind_some]
  exact e _ fun i hi => List.mem_range.1 hi

/-- C83: the constructors keep the guarantee and panic if it does not hold; a row has its length; a range of columns has those
columns, and panics if it is out of range. -/
theorem C83_rows (rows : List (List T)) (offset rowLen : Nat) :
    ((Batch.newWithOffset rows offset rowLen ≠ none ↔ ∀ row ∈ rows, offset + rowLen ≤ row.length) ∧
      ∀ b, Batch.newWithOffset rows offset rowLen = some b → b.WF) ∧
    (∀ b, Batch.new rows rowLen = some b → b.WF ∧ ∀ i < rows.length, b.row i = rows[i]?) ∧
    (Batch.new rows rowLen ≠ none ↔ ∀ row ∈ rows, row.length = rowLen) ∧
    (∀ b, Batch.newFromIter rows rowLen = some b → b.WF ∧ ∀ i < rows.length, b.row i = rows[i]?.map (List.take rowLen)) ∧
    (Batch.newFromIter rows rowLen ≠ none ↔ ∀ row ∈ rows, rowLen ≤ row.length) ∧
    ∀ (b : Batch T), b.WF → ∀ start stop, (b.columnsSubrange start stop ≠ none ↔ start ≤ stop ∧ stop ≤ b.rowLen) ∧
      ∀ b', b.columnsSubrange start stop = some b' → b'.WF ∧ b'.rowLen = stop - start ∧ b'.rows.length = b.rows.length ∧
        ∀ i j, i < b.rows.length → j < stop - start → b'.at i j = b.at i (start + j) := by
  refine ⟨⟨?_, fun b h => ?_⟩, fun b h => ?_, ?_, fun b h => ?_, ?_, fun b hb start stop => ⟨?_, fun b' h => ?_⟩⟩
  · rw [Batch.newWithOffset]; split <;> simp_all
  · rw [Batch.newWithOffset] at h
    split at h
    · rename_i hr; cases h; exact hr
    · cases h
  · rw [Batch.new] at h
    split at h
    · rename_i hr
      cases h
      refine ⟨fun row hm => ?_, fun i hi => ?_⟩
      · show 0 + rowLen ≤ _
        rw [Nat.zero_add, hr row hm]
        exact Nat.le_refl _
      have hl := hr _ (List.getElem_mem hi)
      rw [Batch.row, List.getElem?_eq_getElem hi, Option.bind_some, if_pos (by show 0 + rowLen ≤ _; omega), List.drop_zero,
        List.take_of_length_le (by show _ ≤ rowLen; omega)]
    · cases h
  · rw [Batch.new]; split <;> simp_all
  · rw [Batch.newFromIter] at h
    split at h
    · rename_i hr
      cases h
      refine ⟨fun row hm => ?_, fun i hi => ?_⟩
      rotate_left
      · have hl := hr _ (List.getElem_mem hi)
        rw [Batch.row, List.getElem?_map, List.getElem?_eq_getElem hi, Option.map_some, Option.bind_some,
          if_pos (by rw [List.length_take]; show 0 + rowLen ≤ _; omega), List.drop_zero]
        exact congrArg some (by rw [List.take_take, Nat.min_self])
      obtain ⟨r, h1, rfl⟩ := List.mem_map.1 hm
      have := hr r h1
      show 0 + rowLen ≤ _
      rw [Nat.zero_add, List.length_take]
      exact Nat.le_min.2 ⟨Nat.le_refl _, this⟩
    · cases h
  · rw [Batch.newFromIter]; split <;> simp_all
  · rw [Batch.columnsSubrange]; split <;> simp_all
  · rw [Batch.columnsSubrange] at h
    split at h
    · rename_i hr
      cases h
      have hwf : Batch.WF ⟨b.rows, stop - start, b.offset + start⟩ := fun row hm => by
        have := hb row hm
        show b.offset + start + (stop - start) ≤ _
        omega
      refine ⟨hwf, rfl, rfl, fun i j hi hj => ?_⟩
      rw [at_eq _ hwf hi hj, at_eq _ hb hi (by omega), Nat.add_assoc]
    · cases h

/-- C83: the default evaluation on a batch evaluates at each column, if the batch starts at the first column; with another
number of evaluations it is an error.

Partial: for a batch with an offset, as `columns_subrange` makes them, this is false (`C83_offset_ignored`). -/
theorem C83_default_partial (evaluate : List T → Option T) (b : Batch T) (h : b.WF) (ho : b.offset = 0) (n : Nat) :
    (n = b.rowLen → BatchSpec evaluate b (defaultBatch evaluate b n)) ∧ (n ≠ b.rowLen → defaultBatch evaluate b n = none) := by
  refine ⟨fun hn => ?_, fun hn => if_pos (Ne.symm hn)⟩
  subst hn
  rw [BatchSpec, defaultBatch, if_neg (by simp)]
  refine mapM_congr _ _ _ fun j hj => ?_
  rw [Batch.iter, mapM_range]
  congr 1
  refine mapM_congr _ _ _ fun i hi => ?_
  rw [at_eq b h (List.mem_range.1 hi) (List.mem_range.1 hj), ho, Nat.zero_add]

theorem mapM_some {α β : Type} (l : List α) (f : α → Option β) (h : ∀ a ∈ l, ∃ b, f a = some b) :
    ∃ r, l.mapM f = some r ∧ r.length = l.length ∧ ∀ i (hi : i < l.length), r[i]? = f (l[i]) := by
  induction l with
  | nil => exact ⟨[], rfl, rfl, fun i hi => absurd hi (by simp)⟩
  | cons a l ih =>
    obtain ⟨b, hb⟩ := h a List.mem_cons_self
    obtain ⟨r, h1, h2, h3⟩ := ih fun b hb => h b (List.mem_cons_of_mem _ hb)
    refine ⟨b :: r, by rw [List.mapM_cons, hb, h1]; rfl, by simp [h2], fun i hi => ?_⟩
    cases i with
    | zero => simpa using hb.symm
    | succ i => simpa using h3 i (by simpa using hi)

/-- C83: a composition of some of the rows, with indices in range as `IndexComposition::new` checks, evaluates on a batch as
it does at each column, if the inner one does and the batch starts at the first column.

Partial: as above. -/
theorem C83_index_partial (nVars : Nat) (indices : List Nat) (inner : Composition T) (hi : ∀ i ∈ indices, i < nVars)
    (hinner : ∀ b : Batch T, b.WF → b.offset = 0 → BatchSpec inner.evaluate b (inner.batchEvaluate b b.rowLen))
    (b : Batch T) (h : b.WF) (ho : b.offset = 0) (hn : b.rows.length = nVars) :
    BatchSpec (indexComposition nVars indices inner).evaluate b
      ((indexComposition nVars indices inner).batchEvaluate b b.rowLen) := by
  obtain ⟨rows, r1, r2, r3⟩ := mapM_some indices (fun i => b.rows[i]?) fun i hm =>
    ⟨_, List.getElem?_eq_getElem (hn ▸ hi i hm)⟩
  have hmap : b.map indices = some ⟨rows, b.rowLen, 0⟩ := by rw [Batch.map, r1]; rfl
  have hwf : Batch.WF ⟨rows, b.rowLen, 0⟩ := by
    intro row hm
    obtain ⟨k, hk, rfl⟩ := List.mem_iff_getElem.1 hm
    have e := r3 k (r2 ▸ hk)
    rw [List.getElem?_eq_getElem hk] at e
    have := h rows[k] (List.mem_of_getElem? e.symm)
    rw [ho] at this
    exact this
  have hs := hinner _ hwf rfl
  rw [BatchSpec] at hs ⊢
  show (b.map indices).bind _ = _
  rw [hmap, Option.bind_some, hs]
  refine mapM_congr _ _ _ fun j hj => ?_
  have hj' : j < b.rowLen := List.mem_range.1 hj
  obtain ⟨q, q1, q2, q3⟩ := mapM_some (List.range b.rows.length) (fun i => b.at i j) fun i hm => by
    have hil := List.mem_range.1 hm
    have hr := h _ (List.getElem_mem hil)
    rw [at_eq b h hil hj', List.getElem?_eq_getElem hil, Option.bind_some]
    exact ⟨_, List.getElem?_eq_getElem (by omega)⟩
  rw [q1, Option.bind_some]
  show _ = if q.length ≠ nVars then none else _
  rw [if_neg (by rw [q2, List.length_range, hn]; simp)]
  congr 1
  rw [mapM_range indices, ← r2]
  refine mapM_congr _ _ _ fun k hk => ?_
  have hk' : k < rows.length := List.mem_range.1 hk
  have hki : k < indices.length := r2 ▸ hk'
  have hlt := hi _ (List.getElem_mem hki)
  rw [at_eq _ hwf hk' hj', List.getElem?_eq_getElem hki, Option.bind_some, r3 k hki]
  have := q3 indices[k] (by rw [List.length_range, hn]; exact hlt)
  rw [this, List.getElem_range, at_eq b h (hn ▸ hlt) hj', ho]

/-- C83: a selection of rows by their indices is an error exactly if an index is out of range. One by identifiers is an error
exactly if an identifier of the smaller query is not in the larger; otherwise, whatever the values of the identifiers, its
evaluation at those of the larger query is that of the inner composition at those of the smaller, in order; any other number
of values is an error. -/
theorem C83_index_of {E : Type} [DecidableEq E] (superset subset : List E) (inner : Composition T) :
    (∀ nVars indices, (indexCompositionNew nVars indices inner = none ↔ ∃ i ∈ indices, nVars ≤ i) ∧
      ∀ c, indexCompositionNew nVars indices inner = some c → c = indexComposition nVars indices inner) ∧
    (indexCompositionOf superset subset inner = none ↔ ∃ e ∈ subset, e ∉ superset) ∧
    ∀ c, indexCompositionOf superset subset inner = some c →
      (∀ value : E → T, c.evaluate (superset.map value) = inner.evaluate (subset.map value)) ∧
      ∀ query : List T, query.length ≠ superset.length → c.evaluate query = none := by
  refine ⟨fun nVars indices => ⟨?_, fun c h => ?_⟩, ?_, fun c h => ?_⟩
  · rw [indexCompositionNew]; split <;> simp_all
  · rw [indexCompositionNew] at h
    split at h
    · cases h
    · cases h; rfl
  · rw [indexCompositionOf]; split <;> simp_all
  · rw [indexCompositionOf] at h
    split at h
    · rename_i hs
      cases h
      refine ⟨fun value => ?_, fun query hq => if_pos hq⟩
      show (if (superset.map value).length ≠ superset.length then none else _) = _
      rw [if_neg (by simp), mapM_map]
      have hm : ∀ l : List E, (∀ e ∈ l, e ∈ superset) →
          (l.mapM fun e => (superset.map value)[superset.findIdx fun s => s == e]?) = some (l.map value) := by
        intro l
        induction l with
        | nil => intro _; rfl
        | cons e l ih =>
          intro hl
          have he := hl e List.mem_cons_self
          have hlt : superset.findIdx (fun s => s == e) < superset.length :=
            List.findIdx_lt_length_of_exists ⟨e, he, by simp⟩
          have heq : superset[superset.findIdx fun s => s == e] = e := by
            simpa using List.findIdx_getElem (w := hlt)
          rw [List.mapM_cons, ih fun x hx => hl x (List.mem_cons_of_mem _ hx), List.getElem?_map,
            List.getElem?_eq_getElem hlt, heq]
          rfl
      rw [hm subset (by simpa using hs), Option.bind_some]
    · cases h

/-- A selection of two of three identifiers, in another order. -/
example : ∃ c, indexCompositionOf ['a', 'b', 'c'] ['c', 'a'] (T := Nat) ⟨List.head?, defaultBatch List.head?⟩ = some c ∧
    c.evaluate [1, 2, 3] = some 3 := ⟨_, rfl, rfl⟩

/-- Finding: rows are iterated, and selected by `map`, without the offset, so that on a range of columns that does not start at
the first both evaluations give those of other columns: on the second column of `[1, 2]`, the value at 1. -/
theorem C83_offset_ignored : ∃ b b' : Batch Nat, b.WF ∧ b.columnsSubrange 1 2 = some b' ∧ b'.at 0 0 = some 2 ∧
    ¬ BatchSpec List.head? b' (defaultBatch List.head? b' 1) ∧
    ¬ BatchSpec (indexComposition 1 [0] ⟨List.head?, defaultBatch List.head?⟩).evaluate b'
      ((indexComposition 1 [0] ⟨List.head?, defaultBatch List.head?⟩).batchEvaluate b' 1) := by
  refine ⟨⟨[[1, 2]], 2, 0⟩, ⟨[[1, 2]], 1, 1⟩, by unfold Batch.WF; decide, rfl, rfl, ?_, ?_⟩
  · unfold BatchSpec; decide
  · unfold BatchSpec; decide

/-- The hypotheses hold for two rows, of which the second is selected. -/
example : BatchSpec (indexComposition 2 [1] ⟨List.head?, defaultBatch List.head?⟩).evaluate ⟨[[1, 2], [3, 4]], 2, 0⟩
    (some [3, 4]) :=
  C83_index_partial 2 [1] ⟨List.head?, defaultBatch List.head?⟩ (by decide)
    (fun b h ho => (C83_default_partial _ b h ho _).1 rfl) ⟨[[1, 2], [3, 4]], 2, 0⟩ (by unfold Batch.WF; decide) rfl rfl

end Verif.RowsBatch
