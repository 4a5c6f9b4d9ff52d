/-!
# Sorting helpers (model)

`crates/utils/src/sorting.rs`. Rust's `sort_by` is a stable merge sort; it is modelled by Lean's
`List.mergeSort`, which is stable too (the result of a stable sort is determined by the comparison).
-/

namespace Verif.Sorting

/-- `is_sorted_ascending`, `sorting.rs:6-8`: no adjacent pair `a > b`. -/
def isSortedAscending : List Nat → Bool
  | a :: b :: l => !(decide (a > b)) && isSortedAscending (b :: l)
  | _ => true

/-- `stable_sort`, `sorting.rs:32-45`. -/
def stableSort {α : Type} (objs : List α) (key : α → Nat) (descending : Bool) :
    List Nat × List α :=
  let indexed := objs.zipIdx.map fun p => (p.2, p.1)
  let sorted :=
    if descending then indexed.mergeSort fun a b => decide (key b.2 ≤ key a.2)
    else indexed.mergeSort fun a b => decide (key a.2 ≤ key b.2)
  sorted.unzip

/-- `unsort`, `sorting.rs:65-75`. -/
def unsort {α : Type} (originalIndices : List Nat) (sortedObjs : List α) : List α :=
  let temp := originalIndices.zip sortedObjs
  (temp.mergeSort fun a b => decide (a.1 ≤ b.1)).map Prod.snd

end Verif.Sorting
