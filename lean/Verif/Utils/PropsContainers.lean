import Verif.Utils.LemmasContainers

/-! C81: the sparse index is a map; C82: arrays with two dimensions and subranges access the elements they should. -/

namespace Verif.Containers

variable {T : Type}

/-! ### C81 -/

/-- C81: after any history of operations, from an index with any capacity, reading gives what the map has. -/
theorem C81_map (capacity : Nat) (ops : List (Op T)) (id : Nat) :
    (ops.foldl SparseIndex.run (SparseIndex.withCapacity capacity)).get id =
      ops.foldl (fun m op => op.apply m) (fun _ => none) id := by
  have key : ∀ (s : SparseIndex T) (m : Nat → Option T), (∀ i, s.get i = m i) →
      (ops.foldl SparseIndex.run s).get id = ops.foldl (fun m op => op.apply m) m id := by
    induction ops with
    | nil => exact fun s m h => h id
    | cons op ops ih =>
      intro s m h
      refine ih _ _ fun i => ?_
      rw [run_get, funext h]
  refine key _ _ fun i => ?_
  rw [SparseIndex.get, SparseIndex.withCapacity, List.getElem?_replicate]
  split <;> rfl

/-- C81: iteration gives each entry once, identifiers ascending; keys, values, the number of entries, the test of a key and
that of emptiness agree with reading. -/
theorem C81_iter (s : SparseIndex T) :
    s.iter.Pairwise (fun a b => a.1 < b.1) ∧ (∀ i v, (i, v) ∈ s.iter ↔ s.get i = some v) ∧ s.keys = s.iter.map Prod.fst ∧
      s.values = s.iter.map Prod.snd ∧ s.len = s.iter.length ∧ (∀ i, s.containsKey i = true ↔ s.get i ≠ none) ∧
      (s.isEmpty = true ↔ ∀ i, s.get i = none) := by
  have hp := iter_parts s.entries 0
  refine ⟨(iter_sorted s.entries 0).1, mem_iter s, hp.1, hp.2, ?_, fun i => ?_, ?_⟩
  · rw [SparseIndex.len, hp.2, List.length_map]; rfl
  · rw [SparseIndex.containsKey, SparseIndex.get]
    cases s.entries[i]? with
    | none => simp
    | some o => cases o <;> simp
  · rw [SparseIndex.isEmpty, List.all_eq_true]
    constructor
    · intro h i
      rw [SparseIndex.get]
      cases e : s.entries[i]? with
      | none => rfl
      | some o => exact Option.isNone_iff_eq_none.1 (h o (List.mem_of_getElem? e))
    · intro h o ho
      obtain ⟨i, hi⟩ := List.mem_iff_getElem?.1 ho
      have := h i
      rw [SparseIndex.get, hi] at this
      exact Option.isNone_iff_eq_none.2 this

/-- C81: an index collected from pairs has, for each identifier, the last value with it. -/
theorem C81_from_iter (l : List (Nat × T)) (id : Nat) :
    (SparseIndex.fromIter l).get id = ((l.filter fun p => p.1 == id).getLast?).map Prod.snd := by
  rw [SparseIndex.fromIter]
  induction l using List.reverseRecOn with
  | nil => rfl
  | append_singleton l p ih =>
    rw [List.foldl_append, List.filter_append]
    have := run_get (l.foldl (fun s p => s.set p.1 p.2) SparseIndex.new) (.set p.1 p.2) id
    rw [SparseIndex.run] at this
    rw [List.foldl_cons, List.foldl_nil, this]
    show (if id = p.1 then some p.2 else _) = _
    by_cases h : id = p.1
    · subst h; simp
    · rw [if_neg h, ih, List.filter_cons_of_neg (by simpa using Ne.symm h), List.filter_nil, List.append_nil]

/-- A history with each operation. -/
example : ([Op.set 5 1, .orInsert 5 7, .orInsert 2 8, .modify 2 (· + 1), .modify 9 (· + 1), .set 0 4].foldl SparseIndex.run
    (SparseIndex.withCapacity 3)).iter = [(0, 4), (2, 9), (5, 1)] := rfl

/-! ### C82 -/

/-- C82: within the shape, every element can be read and written, and a write changes that element only and not the shape;
new arrays have the default everywhere. -/
theorem C82_read_write (a : Array2D T) (h : a.WF) {i j : Nat} (hi : i < a.rows) (hj : j < a.cols) :
    (∃ v, a.index i j = some v) ∧ ∀ v, ∃ b, a.write i j v = some b ∧ b.WF ∧ b.rows = a.rows ∧ b.cols = a.cols ∧
      ∀ i' j', i' < a.rows → j' < a.cols → b.index i' j' = if i' = i ∧ j' = j then some v else a.index i' j' := by
  have hp : i * a.cols + j < a.data.length := by rw [h]; exact pos_lt hi hj
  refine ⟨⟨_, List.getElem?_eq_getElem hp⟩, fun v => ⟨_, if_pos hp, ?_, rfl, rfl, fun i' j' _ hj' => ?_⟩⟩
  · show (a.data.set _ v).length = _
    rw [List.length_set, h]
  · show (a.data.set _ v)[i' * a.cols + j']? = _
    rw [List.getElem?_set]
    by_cases e : i * a.cols + j = i' * a.cols + j'
    · obtain ⟨rfl, rfl⟩ := pos_inj hj hj' e
      simp [hp]
    · rw [if_neg e, if_neg (fun ⟨h1, h2⟩ => e (by rw [h1, h2])), Array2D.index]

/-- C82: a new array has the default everywhere. -/
theorem C82_new (d : T) (rows cols : Nat) : (Array2D.new d rows cols).WF ∧
    ∀ i j, i < rows → j < cols → (Array2D.new d rows cols).index i j = some d := by
  refine ⟨List.length_replicate, fun i j hi hj => ?_⟩
  rw [Array2D.index, Array2D.new, List.getElem?_replicate, if_pos (pos_lt hi hj)]

/-- C82: a row has the elements of its index; iteration gives all rows. -/
theorem C82_rows (a : Array2D T) (h : a.WF) : (a.cols ≠ 0 → a.numRows = some a.rows) ∧
    (∀ i < a.rows, ∃ row, a.getRow i = some row ∧ row.length = a.cols ∧ ∀ j < a.cols, row[j]? = a.index i j) ∧
    ∃ rows, a.iterRows = some rows ∧ rows.length = a.rows ∧ ∀ i < a.rows, rows[i]? = a.getRow i := by
  refine ⟨fun hc => ?_, fun i hi => getRow_get a h hi, ?_⟩
  · rw [Array2D.numRows, if_neg hc, h, Nat.mul_div_cancel _ (by omega)]
  · have key : ∀ n, n ≤ a.rows → ∃ rows, (List.range n).mapM a.getRow = some rows ∧ rows.length = n ∧
        ∀ i < n, rows[i]? = a.getRow i := by
      intro n
      induction n with
      | zero => exact fun _ => ⟨[], rfl, rfl, fun i hi => by omega⟩
      | succ n ih =>
        intro hn
        obtain ⟨rows, h1, h2, h3⟩ := ih (by omega)
        obtain ⟨row, r1, -⟩ := getRow_get a h (show n < a.rows by omega)
        refine ⟨rows ++ [row], ?_, by rw [List.length_append, h2]; rfl, fun i hi => ?_⟩
        · rw [List.range_succ, List.mapM_append, h1]
          simp [r1]
        · rcases Nat.lt_or_ge i n with hi' | hi'
          · rw [List.getElem?_append_left (by omega), h3 i hi']
          · obtain rfl : i = n := by omega
            rw [List.getElem?_append_right (by omega), h2, Nat.sub_self, r1]; rfl
    exact key a.rows le_rfl

/-- C82: another shape is given if and only if it has as many elements; elements stay the same in the order of rows. -/
theorem C82_reshape (a : Array2D T) (h : a.WF) (rows cols : Nat) :
    (a.reshape rows cols ≠ none ↔ rows * cols = a.rows * a.cols) ∧
    ∀ b, a.reshape rows cols = some b → b.WF ∧ b.rows = rows ∧ b.cols = cols ∧
      ∀ i j i' j', i * cols + j = i' * a.cols + j' → b.index i j = a.index i' j' := by
  rw [Array2D.reshape, h]
  constructor
  · split <;> simp_all
  · intro b hb
    split at hb
    · cases hb
    · rename_i he
      cases hb
      refine ⟨h.trans (by simpa using Eq.symm (not_not.1 he)), rfl, rfl, fun i j i' j' e => ?_⟩
      rw [Array2D.index, Array2D.index, e]

/-- C82: `sum_rows` is the sum of the rows: element `j` is the sum of the elements of column `j`.  (Its documentation,
"the sum of the elements in each row", says otherwise.) -/
theorem C82_sum_rows [AddCommMonoid T] (a : Array2D T) (h : a.WF) : ∃ sum, a.sumRows = some sum ∧ sum.length = a.cols ∧
    ∀ j < a.cols, sum[j]? = some (∑ i ∈ Finset.range a.rows, (a.index i j).getD 0) := by
  obtain ⟨-, hrow, rows, h1, h2, h3⟩ := C82_rows a h
  refine ⟨_, by rw [Array2D.sumRows, h1]; rfl, ?_⟩
  have key : ∀ n, n ≤ a.rows → ((rows.take n).foldl (fun sum row => List.zipWith (· + ·) sum row) (List.replicate a.cols 0)).length =
      a.cols ∧ ∀ j < a.cols, ((rows.take n).foldl (fun sum row => List.zipWith (· + ·) sum row) (List.replicate a.cols 0))[j]? =
      some (∑ i ∈ Finset.range n, (a.index i j).getD 0) := by
    intro n
    induction n with
    | zero =>
      intro _
      refine ⟨List.length_replicate, fun j hj => ?_⟩
      rw [List.take_zero, List.foldl_nil, List.getElem?_replicate, if_pos hj, Finset.range_zero, Finset.sum_empty]
    | succ n ih =>
      intro hn
      obtain ⟨i1, i2⟩ := ih (by omega)
      obtain ⟨row, r1, r2, r3⟩ := hrow n (by omega)
      have e : rows.take (n + 1) = rows.take n ++ [row] := by
        rw [List.take_add_one, h3 n (by omega), r1]; rfl
      rw [e, List.foldl_append]
      refine ⟨by rw [List.foldl_cons, List.foldl_nil, List.length_zipWith, i1, r2, Nat.min_self], fun j hj => ?_⟩
      rw [List.foldl_cons, List.foldl_nil, List.getElem?_zipWith, i2 j hj, Finset.sum_range_succ, ← r3 j hj]
      rw [List.getElem?_eq_getElem (show j < row.length by omega)]
      rfl
  have := key a.rows le_rfl
  rwa [List.take_of_length_le (by omega)] at this

/-- Finding: a column index out of range does not panic but reads an element of a later row, unless in the last; and `rows`
of an array without columns panics, whatever its number of rows. -/
theorem C82_out_of_shape (a : Array2D T) (h : a.WF) : (∀ i j, i + 1 < a.rows → j < a.cols →
      a.index i (a.cols + j) = a.index (i + 1) j ∧ a.index i (a.cols + j) ≠ none) ∧ (a.cols = 0 → a.numRows = none) := by
  refine ⟨fun i j hi hj => ?_, fun hc => if_pos hc⟩
  have e : a.index i (a.cols + j) = a.index (i + 1) j := by
    rw [Array2D.index, Array2D.index, Nat.succ_mul, Nat.add_assoc]
  refine ⟨e, ?_⟩
  rw [e]
  obtain ⟨v, hv⟩ := (C82_read_write a h hi hj).1
  rw [hv]
  simp

/-- C82: a subrange of a slice exists if and only if it is within it; then reads and writes at its indices, and no others, are
those of the slice from the offset on, and no other element changes. -/
theorem C82_subrange (l : List T) (offset len : Nat) :
    (sliceSeq.subrange l offset len ≠ none ↔ offset + len ≤ l.length) ∧
    ∀ q, sliceSeq.subrange l offset len = some q → ∀ l' : List T, l'.length = l.length → ∀ i,
      (i < len → q.get l' i = l'[offset + i]? ∧ q.get l' i ≠ none ∧ ∀ v, q.set l' i v = some (l'.set (offset + i) v)) ∧
      (len ≤ i → q.get l' i = none ∧ ∀ v, q.set l' i v = none) := by
  rw [Seq.subrange]
  show ((if offset + len ≤ l.length then _ else _) ≠ none ↔ _) ∧ _
  constructor
  · split <;> simp_all
  · intro q hq l' hl i
    change (if offset + len ≤ l.length then _ else _) = some q at hq
    split at hq
    · cases hq
      refine ⟨fun hi => ?_, fun hi => ?_⟩
      · have hlt : i + offset < l'.length := by omega
        refine ⟨?_, ?_, fun v => ?_⟩
        · rw [Seq.get, if_pos hi, Nat.add_comm offset]; rfl
        · rw [Seq.get, if_pos hi]
          show l'[i + offset]? ≠ none
          rw [List.getElem?_eq_getElem hlt]; simp
        · rw [Seq.set, if_pos hi, Nat.add_comm offset]
          exact if_pos hlt
      · exact ⟨if_neg (by show ¬ i < len; omega), fun v => if_neg (by show ¬ i < len; omega)⟩
    · cases hq

/-- C82: a subrange of a subrange is a subrange. -/
theorem C82_subrange_nested {S : Type} (q : Seq S T) (s : S) (o n o' n' : Nat) {q1 q2 : Seq S T} (h1 : q.subrange s o n = some q1)
    (h2 : q1.subrange s o' n' = some q2) : q.subrange s (o + o') n' = some q2 := by
  rw [Seq.subrange] at h1
  split at h1
  · cases h1
    rw [Seq.subrange] at h2
    split at h2
    · rename_i hle hle'
      cases h2
      change o' + n' ≤ n at hle'
      rw [Seq.subrange, if_pos (by omega)]
      simp only [Nat.add_assoc, Nat.add_comm o o']
    · cases h2
  · cases h1

/-- An array with two rows and three columns. -/
example : Array2D.WF ⟨[1, 2, 3, 4, 5, 6], 2, 3⟩ ∧ Array2D.index ⟨[1, 2, 3, 4, 5, 6], 2, 3⟩ 1 0 = some 4 ∧
    Array2D.index ⟨[1, 2, 3, 4, 5, 6], 2, 3⟩ 0 3 = some 4 ∧ Array2D.sumRows ⟨[1, 2, 3, 4, 5, 6], 2, 3⟩ = some [5, 7, 9] :=
  ⟨rfl, rfl, rfl, rfl⟩

example : (((sliceSeq.subrange [1, 2, 3, 4, 5] 1 3).bind fun q => q.subrange [1, 2, 3, 4, 5] 1 2).bind fun q =>
    q.set [1, 2, 3, 4, 5] 0 9) = some [1, 2, 9, 4, 5] := rfl

end Verif.Containers
