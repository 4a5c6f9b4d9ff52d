import Verif.Piop.SpecCommit
import Mathlib.Data.List.Count
import Mathlib.Data.Nat.Size
import Mathlib.Algebra.BigOperators.Group.List.Basic
import Mathlib.Tactic.Ring

/-! The passes over the oracles. -/

set_option linter.dupNamespace false
set_option linter.unusedSectionVars false

namespace Verif.Piop

open Verif.Oracle (OracleSet Oracle Variant)

variable {F : Type}

theorem readAt_modify (l : List Nat) (i j : Nat) (hi : i < l.length) :
    readAt (l.modify i (· + 1)) j = readAt l j + if j = i then 1 else 0 := by
  unfold readAt
  rw [List.getElem?_modify]
  by_cases hj : j = i
  · subst hj
    rw [List.getElem?_eq_getElem hi]
    simp
  · have hj' : ¬ i = j := fun e => hj e.symm
    simp only [hj, hj', if_false]
    cases l[j]? <;> rfl

theorem readAt_append (l : List Nat) (n j : Nat) : readAt (l ++ List.replicate n 0) j = readAt l j := by
  unfold readAt
  by_cases h : j < l.length
  · rw [List.getElem?_append_left h]
  · rw [List.getElem?_append_right (by omega), List.getElem?_replicate, List.getElem?_eq_none (l := l) (by omega)]
    split
    · rename_i x hx
      split at hx
      · simpa using hx.symm
      · simp at hx
    · rfl

theorem readAt_incrementAt (l : List Nat) (i j : Nat) :
    readAt (incrementAt l i) j = readAt l j + if j = i then 1 else 0 := by
  unfold incrementAt
  by_cases h : i ≥ l.length
  · rw [if_pos h]
    simp only
    rw [readAt_modify _ _ _ (by simp; omega), readAt_append]
  · rw [if_neg h]
    simp only
    rw [readAt_modify _ _ _ (by omega)]

theorem length_incrementAt (l : List Nat) (i : Nat) : (incrementAt l i).length = max l.length (i + 1) := by
  unfold incrementAt
  by_cases h : i ≥ l.length
  · rw [if_pos h]
    simp
    omega
  · rw [if_neg h]
    simp
    omega

/-- The identifiers of the pairs with `n` packed variables. -/
def bucket (level : Nat) (ps : List (Nat × Oracle F)) (n : Nat) : List Nat :=
  (ps.filter fun p => isCommitted p.2 ∧ nPackedVars level p.2 = n).map Prod.fst

theorem bucket_snoc (level : Nat) (ps : List (Nat × Oracle F)) (p : Nat × Oracle F) (n : Nat) :
    bucket level (ps ++ [p]) n =
      if isCommitted p.2 ∧ nPackedVars level p.2 = n then bucket level ps n ++ [p.1] else bucket level ps n := by
  unfold bucket
  rw [List.filter_append, List.map_append]
  by_cases h : isCommitted p.2 ∧ nPackedVars level p.2 = n
  · rw [if_pos h]
    congr 1
    simp [h]
  · rw [if_neg h]
    have : ([p].filter fun p => isCommitted p.2 ∧ nPackedVars level p.2 = n) = [] := by
      simpa using h
    rw [this]
    simp

/-- What holds during the first pass. -/
structure FirstInv (level : Nat) (ps : List (Nat × Oracle F)) (st : SparseIndex (Nat × Nat) × List Nat) : Prop where
  counts : ∀ n, readAt st.2 n = (bucket level ps n).length
  len : ∀ n, n < st.2.length → ∃ m, n ≤ m ∧ m < st.2.length ∧ bucket level ps m ≠ []
  cover : ∀ n, bucket level ps n ≠ [] → n < st.2.length
  index : ∀ id n i, st.1 id = some (n, i) → (bucket level ps n)[i]? = some id
  total : ∀ n, ∀ id ∈ bucket level ps n, ∃ i, st.1 id = some (n, i)

theorem mem_bucket {level : Nat} {ps : List (Nat × Oracle F)} {n id : Nat} :
    id ∈ bucket level ps n ↔ ∃ o, (id, o) ∈ ps ∧ isCommitted o ∧ nPackedVars level o = n := by
  unfold bucket
  simp only [List.mem_map, List.mem_filter, decide_eq_true_eq, Prod.exists, exists_and_right, exists_eq_right]

theorem firstPass (level : Nat) (ps : List (Nat × Oracle F)) : (ps.map Prod.fst).Nodup →
    FirstInv level ps (ps.foldl (firstStep level) (fun _ => none, [])) := by
  induction ps using List.reverseRecOn with
  | nil =>
    intro _
    exact ⟨fun n => rfl, fun n h => by simp at h, fun n h => by simp [bucket] at h, fun id n i h => by simp at h,
      fun n id h => by simp [bucket] at h⟩
  | append_singleton ps p ih =>
    intro hn
    rw [List.map_append, List.nodup_append] at hn
    have inv := ih hn.1
    have hnew : ∀ n, p.1 ∉ bucket level ps n := fun n hm => by
      obtain ⟨o, ho, _⟩ := mem_bucket.mp hm
      exact hn.2.2 p.1 (List.mem_map.mpr ⟨_, ho, rfl⟩) p.1 (by simp) rfl
    rw [List.foldl_append]
    set st := ps.foldl (firstStep level) (fun _ => none, []) with hst
    show FirstInv level (ps ++ [p]) (firstStep level st p)
    unfold firstStep
    by_cases hc : isCommitted p.2
    · rw [if_pos hc]
      simp only
      have hb : ∀ n, bucket level (ps ++ [p]) n =
          if nPackedVars level p.2 = n then bucket level ps n ++ [p.1] else bucket level ps n := fun n => by
        rw [bucket_snoc]
        simp [hc]
      constructor
      · intro n
        rw [readAt_incrementAt, inv.counts, hb]
        by_cases h : nPackedVars level p.2 = n
        · rw [if_pos h, if_pos h.symm]; simp
        · rw [if_neg h, if_neg fun e => h e.symm]; rfl
      · intro n hl
        rw [length_incrementAt] at hl ⊢
        by_cases h : n ≤ nPackedVars level p.2
        · exact ⟨_, h, by omega, by rw [hb, if_pos rfl]; simp⟩
        · obtain ⟨m, h1, h2, h3⟩ := inv.len n (by omega)
          exact ⟨m, h1, by omega, by rw [hb, if_neg (by omega)]; exact h3⟩
      · intro n h
        rw [length_incrementAt]
        rw [hb] at h
        by_cases e : nPackedVars level p.2 = n
        · omega
        · rw [if_neg e] at h
          have := inv.cover n h
          omega
      · intro id n i h
        simp only [SparseIndex.set] at h
        rw [hb]
        by_cases e : id = p.1
        · rw [if_pos e] at h
          simp only [Option.some.injEq, Prod.mk.injEq] at h
          rw [if_pos h.1, ← h.1, ← h.2, inv.counts, e, List.getElem?_append_right le_rfl, Nat.sub_self]
          rfl
        · rw [if_neg e] at h
          have h3 := inv.index id n i h
          split
          · rw [List.getElem?_append_left (List.getElem?_eq_some_iff.mp h3).1, h3]
          · exact h3
      · intro n id h
        rw [hb] at h
        simp only [SparseIndex.set]
        by_cases e : id = p.1
        · rw [if_pos e]
          split at h
          · rename_i hp
            exact ⟨_, by rw [hp]⟩
          · exact absurd (e ▸ h) (hnew n)
        · rw [if_neg e]
          split at h
          · rcases List.mem_append.mp h with h | h
            · exact inv.total n id h
            · exact absurd (by simpa using h) e
          · exact inv.total n id h
    · rw [if_neg hc]
      have hb : ∀ n, bucket level (ps ++ [p]) n = bucket level ps n := fun n => by
        rw [bucket_snoc, if_neg fun h => hc h.1]
      constructor
      · intro n; rw [hb]; exact inv.counts n
      · intro n h
        obtain ⟨m, h1, h2, h3⟩ := inv.len n h
        exact ⟨m, h1, h2, by rw [hb]; exact h3⟩
      · intro n h; rw [hb] at h; exact inv.cover n h
      · intro id n i h; rw [hb]; exact inv.index id n i h
      · intro n id h; rw [hb] at h; exact inv.total n id h

/-- The number of elements of a batch: `2^v` for each polynomial of `v` variables. -/
def elems : Nat → List Nat → Nat
  | _, [] => 0
  | v, n :: l => n * 2 ^ v + elems (v + 1) l

theorem metaFold_ok : ∀ (l : List Nat) (v : Nat) (offs : List Nat) (mult el : Nat),
    (metaFold v l (offs, mult, el)).1 = offs ++ (List.range l.length).map (fun k => mult + (l.take k).sum) ∧
    (metaFold v l (offs, mult, el)).2.1 = mult + l.sum ∧
    (metaFold v l (offs, mult, el)).2.2 = el + elems v l
  | [], v, offs, mult, el => by simp [metaFold, elems]
  | n :: l, v, offs, mult, el => by
    obtain ⟨h1, h2, h3⟩ := metaFold_ok l (v + 1) (offs ++ [mult]) (mult + n) (el + n * 2 ^ v)
    unfold metaFold
    refine ⟨?_, ?_, ?_⟩
    · rw [h1, List.length_cons, List.range_succ_eq_map, List.map_cons, List.append_assoc]
      congr 1
      simp [Function.comp_def, Nat.add_assoc]
    · rw [h2]; simp [Nat.add_assoc]
    · rw [h3, elems]; omega

theorem secondPass_ok (m : CommitMeta) (first : SparseIndex (Nat × Nat))
    (hr : ∀ id n i, first id = some (n, i) → ∃ r, m.rangeByVars n = some r) :
    ∀ (l : List (Nat × Oracle F)) (index : SparseIndex Nat), ∃ index', secondPass m first l index = some index' ∧
      ∀ id, index' id = if id ∈ l.map Prod.fst then
          match first id with
          | some (n, i) => (m.rangeByVars n).map fun r => r.1 + i
          | none => index id
        else index id
  | [], index => ⟨index, rfl, fun id => by simp⟩
  | p :: l, index => by
    unfold secondPass
    cases hp : first p.1 with
    | none =>
      obtain ⟨index', h1, h2⟩ := secondPass_ok m first hr l index
      refine ⟨index', h1, fun id => ?_⟩
      rw [h2 id]
      by_cases e : id = p.1
      · subst e
        simp [hp]
      · simp only [List.map_cons, List.mem_cons, e, false_or]
    | some x =>
      obtain ⟨n, i⟩ := x
      obtain ⟨r, hr'⟩ := hr _ _ _ hp
      simp only
      rw [hr', Option.bind_some]
      obtain ⟨index', h1, h2⟩ := secondPass_ok m first hr l (index.set p.1 (r.1 + i))
      refine ⟨index', h1, fun id => ?_⟩
      rw [h2 id]
      by_cases e : id = p.1
      · subst e
        rw [hp]
        simp [hr', SparseIndex.set]
      · simp only [List.map_cons, List.mem_cons, e, false_or, SparseIndex.set, if_false]

theorem oracleIter_mem {os : OracleSet F} {id : Nat} {o : Oracle F} : (id, o) ∈ oracleIter os ↔ os.get id = some o := by
  unfold oracleIter
  simp only [List.mem_filterMap, List.mem_range, Option.map_eq_some_iff, Prod.mk.injEq]
  constructor
  · rintro ⟨i, _, a, h1, rfl, rfl⟩
    exact h1
  · intro h
    refine ⟨id, ?_, o, h, rfl, rfl⟩
    unfold OracleSet.get at h
    by_contra hn
    rw [List.getElem?_eq_none (by omega)] at h
    simp at h

theorem oracleIter_sorted (os : OracleSet F) : ((oracleIter os).map Prod.fst).Pairwise (· < ·) := by
  unfold oracleIter
  rw [List.map_filterMap, List.pairwise_filterMap]
  refine List.Pairwise.imp_of_mem ?_ (List.pairwise_lt_range)
  intro a b _ _ hab x hx y hy
  simp only [Option.map_map, Option.map_eq_some_iff, Function.comp_apply] at hx hy
  obtain ⟨_, _, rfl⟩ := hx
  obtain ⟨_, _, rfl⟩ := hy
  exact hab

theorem isCommitted_iff (o : Oracle F) : isCommitted o = true ↔ o.variant = Variant.committed := by
  unfold isCommitted
  cases o.variant <;> simp

/-- The commitment order: the buckets one after the other. -/
def order (level : Nat) (os : OracleSet F) (len : Nat) : List Nat :=
  (List.range len).flatMap (bucket level (oracleIter os))

theorem flatMap_get {b : Nat → List Nat} : ∀ (len n i id : Nat), n < len → (b n)[i]? = some id →
    ((List.range len).flatMap b)[(((List.range len).map fun k => (b k).length).take n).sum + i]? = some id
  | 0, n, i, id, h, _ => by omega
  | len + 1, n, i, id, h, hi => by
    rw [List.range_succ, List.flatMap_append, List.map_append]
    by_cases e : n < len
    · have ih := flatMap_get len n i id e hi
      rw [List.take_append_of_le_length (by simp; omega), List.getElem?_append_left (List.getElem?_eq_some_iff.mp ih).1, ih]
    · have : n = len := by omega
      subst this
      have hl : ((List.range n).flatMap b).length = ((List.range n).map fun k => (b k).length).sum := by
        rw [List.length_flatMap]
      rw [List.take_append_of_le_length (by simp), List.take_of_length_le (by simp), ← hl,
        List.getElem?_append_right (by omega), Nat.add_sub_cancel_left]
      simpa using hi

theorem bucket_sorted (level : Nat) (os : OracleSet F) (n : Nat) : (bucket level (oracleIter os) n).Pairwise (· < ·) := by
  have h := oracleIter_sorted os
  unfold bucket
  exact List.Pairwise.sublist (List.Sublist.map _ List.filter_sublist) h

theorem counts_eq {level : Nat} {ps : List (Nat × Oracle F)} {st : SparseIndex (Nat × Nat) × List Nat}
    (h : FirstInv level ps st) : st.2 = (List.range st.2.length).map fun k => (bucket level ps k).length := by
  apply List.ext_getElem?
  intro i
  by_cases hi : i < st.2.length
  · have := h.counts i
    unfold readAt at this
    rw [List.getElem?_eq_getElem hi] at this ⊢
    simp [hi, ← this]
  · rw [List.getElem?_eq_none (by omega), List.getElem?_eq_none (by simp; omega)]

theorem rangeByVars_new (counts : List Nat) (n : Nat) : (CommitMeta.new counts).rangeByVars n =
    if h : n < counts.length then some ((counts.take n).sum, (counts.take n).sum + counts[n]) else none := by
  unfold CommitMeta.rangeByVars CommitMeta.new
  simp only
  rw [(metaFold_ok counts 0 [] 0 0).1]
  by_cases h : n < counts.length
  · rw [dif_pos h]
    simp [h]
  · rw [dif_neg h, List.getElem?_eq_none (by simp; omega)]
    rfl

theorem size_spec (n t : Nat) : Nat.size (n - 1) ≤ t ↔ n ≤ 2 ^ t := by
  rw [Nat.size_le]
  have := Nat.two_pow_pos t
  omega

end Verif.Piop
