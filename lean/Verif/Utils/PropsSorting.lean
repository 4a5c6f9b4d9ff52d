import Verif.Utils.LemmasSorting

/-!
# C03: stable_sort, unsort
-/

namespace Verif.Sorting
open scoped List

/-- **C03.** What `stable_sort` returns: `idx` lists every input position once, entry `p` of the
sorted list is the input at position `idx[p]`; a later entry has a key at least as large (at most as
large when `descending`), and if the keys are equal it comes from a later input position. -/
theorem C03_stable_sort {α : Type} (objs : List α) (key : α → Nat) (descending : Bool) :
    let idx := (stableSort objs key descending).1
    let sorted := (stableSort objs key descending).2
    idx ~ List.range objs.length ∧
    sorted.length = idx.length ∧
    (∀ p (hp : p < idx.length) (hp' : p < sorted.length), objs[idx[p]]? = some sorted[p]) ∧
    ∀ p q (_ : p < q) (hq : q < idx.length) (hp' : p < sorted.length) (hq' : q < sorted.length),
      (if descending then key sorted[q] ≤ key sorted[p] else key sorted[p] ≤ key sorted[q]) ∧
      (key sorted[p] = key sorted[q] → idx[p] < idx[q]) := by
  intro idx sorted
  -- both directions at once
  have main : ∀ (le : Nat × α → Nat × α → Bool),
      (∀ a b c, le a b = true → le b c = true → le a c = true) →
      (∀ a b, (le a b || le b a) = true) →
      stableSort objs key descending =
        (((objs.zipIdx.map fun p => (p.2, p.1)).mergeSort le).unzip) →
      (∀ a b, le a b = true ↔ if descending then key b.2 ≤ key a.2 else key a.2 ≤ key b.2) →
      idx ~ List.range objs.length ∧ sorted.length = idx.length ∧
      (∀ p (hp : p < idx.length) (hp' : p < sorted.length), objs[idx[p]]? = some sorted[p]) ∧
      ∀ p q (_ : p < q) (hq : q < idx.length) (hp' : p < sorted.length) (hq' : q < sorted.length),
        (if descending then key sorted[q] ≤ key sorted[p] else key sorted[p] ≤ key sorted[q]) ∧
        (key sorted[p] = key sorted[q] → idx[p] < idx[q]) := by
    intro le trans total he hle
    have hi : idx = ((objs.zipIdx.map fun p => (p.2, p.1)).mergeSort le).map Prod.fst := by
      show (stableSort objs key descending).1 = _
      rw [he, List.unzip_fst]
    have hs : sorted = ((objs.zipIdx.map fun p => (p.2, p.1)).mergeSort le).map Prod.snd := by
      show (stableSort objs key descending).2 = _
      rw [he, List.unzip_snd]
    obtain ⟨h1, h2, h3, h4⟩ := sorted_aux objs le trans total _ rfl
    rw [← hi] at h1
    refine ⟨h1, by rw [hi, hs, List.length_map, List.length_map], ?_, ?_⟩
    · intro p hp hp'
      simp only [hi, hs, List.getElem_map]
      exact h2 _ (List.getElem_mem _)
    · intro p q hpq hq hp' hq'
      have := h4 p q hpq (by rw [hi, List.length_map] at hq; exact hq)
      simp only [hi, hs, List.getElem_map]
      rw [hle] at this
      refine ⟨this.1, fun hk => this.2 ?_⟩
      rw [hle]
      split
      · exact le_of_eq hk
      · exact le_of_eq hk.symm
  cases descending with
  | true =>
    refine main (fun a b => decide (key b.2 ≤ key a.2)) ?_ ?_ rfl ?_
    · intro a b c; simp only [decide_eq_true_eq]; omega
    · intro a b; simp only [Bool.or_eq_true, decide_eq_true_eq]; omega
    · intro a b; simp
  | false =>
    refine main (fun a b => decide (key a.2 ≤ key b.2)) ?_ ?_ rfl ?_
    · intro a b c; simp only [decide_eq_true_eq]; omega
    · intro a b; simp only [Bool.or_eq_true, decide_eq_true_eq]; omega
    · intro a b; simp

/-- **C03.** `unsort` puts the `p`-th object at position `idx[p]`, for every list `idx` of distinct
positions `0..n` and every `n` objects. -/
theorem C03_unsort {α : Type} (idx : List Nat) (ys : List α) (hidx : idx ~ List.range idx.length)
    (hlen : ys.length = idx.length) :
    (unsort idx ys).length = ys.length ∧
    ∀ p (hp : p < idx.length), (unsort idx ys)[idx[p]]? = ys[p]? := by
  set le : Nat × α → Nat × α → Bool := fun a b => decide (a.1 ≤ b.1) with hle
  have hperm : (idx.zip ys).mergeSort le ~ idx.zip ys := List.mergeSort_perm _ _
  have hfst : ((idx.zip ys).mergeSort le).map Prod.fst = List.range idx.length := by
    have h1 : ((idx.zip ys).mergeSort le).map Prod.fst ~ List.range idx.length := by
      refine (hperm.map _).trans ?_
      rw [List.map_fst_zip (by omega)]
      exact hidx
    refine h1.eq_of_pairwise (le := (· ≤ ·)) ?_ ?_ ?_
    · intro a b _ _ hab hba; exact le_antisymm hab hba
    · rw [List.pairwise_map]
      have := List.pairwise_mergeSort (le := le)
        (fun a b c => by simp only [hle, decide_eq_true_eq]; omega)
        (fun a b => by simp only [hle, Bool.or_eq_true, decide_eq_true_eq]; omega) (idx.zip ys)
      exact this.imp fun h => by simpa [hle] using h
    · exact List.pairwise_le_range
  have hl : ((idx.zip ys).mergeSort le).length = idx.length := by
    rw [hperm.length_eq, List.length_zip, hlen, min_self]
  refine ⟨by show ((_ : List (Nat × α)).map Prod.snd).length = _; rw [List.length_map]; exact hl.trans hlen.symm, ?_⟩
  intro p hp
  have hm : (idx[p], ys[p]'(by omega)) ∈ (idx.zip ys).mergeSort le := by
    rw [hperm.mem_iff]
    have : (idx.zip ys)[p]'(by rw [List.length_zip]; omega) = (idx[p], ys[p]'(by omega)) :=
      List.getElem_zip
    rw [← this]; exact List.getElem_mem _
  obtain ⟨k, hk, he⟩ := List.getElem_of_mem hm
  have hk' : k = idx[p] := by
    have h2 : (((idx.zip ys).mergeSort le).map Prod.fst)[k]'(by rw [List.length_map]; exact hk) = k := by
      simp only [hfst, List.getElem_range]
    rw [List.getElem_map, he] at h2
    exact h2.symm
  show (((idx.zip ys).mergeSort le).map Prod.snd)[idx[p]]? = _
  rw [List.getElem?_map, ← hk', List.getElem?_eq_getElem hk, he, List.getElem?_eq_getElem (by omega)]
  rfl

/-- **C03.** Undoing a stable sort after an element-wise computation on the sorted list gives the
element-wise computation on the input list. -/
theorem C03_unsort_stable_sort {α β : Type} (objs : List α) (key : α → Nat) (descending : Bool)
    (f : α → β) :
    unsort (stableSort objs key descending).1 ((stableSort objs key descending).2.map f) =
      objs.map f := by
  obtain ⟨h1, h2, h3, -⟩ := C03_stable_sort objs key descending
  set idx := (stableSort objs key descending).1
  set sorted := (stableSort objs key descending).2
  have hn : idx.length = objs.length := by rw [h1.length_eq, List.length_range]
  obtain ⟨hl, hv⟩ := C03_unsort idx (sorted.map f) (by rw [hn]; exact h1) (by simp [h2])
  refine List.ext_getElem? fun i => ?_
  by_cases hi : i < objs.length
  · have hm : i ∈ idx := h1.mem_iff.mpr (List.mem_range.mpr hi)
    obtain ⟨p, hp, he⟩ := List.getElem_of_mem hm
    have hp' : p < sorted.length := by omega
    have := hv p hp
    rw [he] at this
    rw [this, List.getElem?_map, List.getElem?_map, ← he, h3 p hp hp', List.getElem?_eq_getElem hp']
  · rw [List.getElem?_eq_none (by rw [hl, List.length_map]; omega),
      List.getElem?_eq_none (by rw [List.length_map]; omega)]

/-- **C03.** `is_sorted_ascending` holds exactly when every entry is at most every later one. -/
theorem C03_is_sorted_ascending (l : List Nat) :
    isSortedAscending l = true ↔ ∀ (i j : Nat) (_ : i < j) (hj : j < l.length), l[i] ≤ l[j] := by
  have e : (∀ (i j : Nat) (_ : i < j) (hj : j < l.length), l[i] ≤ l[j]) ↔ l.Pairwise (· ≤ ·) :=
    ⟨fun h => List.pairwise_iff_getElem.mpr fun i j _ hj hij => h i j hij hj,
      fun h i j hij hj => List.pairwise_iff_getElem.mp h i j _ hj hij⟩
  rw [e]
  clear e
  induction l with
  | nil => simp [isSortedAscending]
  | cons a l ih =>
    cases l with
    | nil => simp [isSortedAscending]
    | cons b l =>
      have ih' : isSortedAscending (b :: l) = true ↔ (b :: l).Pairwise (· ≤ ·) := ih
      rw [isSortedAscending, Bool.and_eq_true, ih', List.pairwise_cons (a := a)]
      simp only [gt_iff_lt, Bool.not_eq_true', decide_eq_false_iff_not, not_lt]
      constructor
      · rintro ⟨h1, h2⟩
        refine ⟨fun c hc => ?_, h2⟩
        rcases List.mem_cons.mp hc with rfl | hc
        · exact h1
        · exact h1.trans ((List.pairwise_cons.mp h2).1 c hc)
      · rintro ⟨h1, h2⟩
        exact ⟨h1 b List.mem_cons_self, h2⟩

/-- The repository's test case (`sorting.rs:81-104`), and its undoing. -/
example : stableSort [("apple", 3), ("banana", 2), ("cherry", 3), ("date", 1), ("elderberry", 2)]
    (fun p => p.2) false =
    ([3, 1, 4, 0, 2],
      [("date", 1), ("banana", 2), ("elderberry", 2), ("apple", 3), ("cherry", 3)]) := by
  simp [stableSort, List.mergeSort, List.MergeSort.Internal.splitInTwo, List.zipIdx]

end Verif.Sorting
