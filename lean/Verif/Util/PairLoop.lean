import Mathlib.Data.List.Nodup
import Mathlib.Tactic.Common

/-!
# Loops that rewrite pairs of slots

In-place butterfly loops read two slots of a slice, compute two new values and store them back.
The slice is a function from indices to values. These are generic helper lemmas.
-/

namespace Verif

/-- One step: `let (x, y) = f v[a] v[b]; v[a] = x; v[b] = y`. -/
def pairStep {α : Type*} (f : α → α → α × α) (a b : Nat) (m : Nat → α) : Nat → α :=
  let r := f (m a) (m b)
  fun e => if e = b then r.2 else if e = a then r.1 else m e

/-- Run the steps for a list of loop indices. -/
def pairLoop {ι α : Type*} (f : ι → α → α → α × α) (i0 i1 : ι → Nat) (xs : List ι) (m : Nat → α) :
    Nat → α :=
  xs.foldl (fun m x => pairStep (f x) (i0 x) (i1 x) m) m

/-- The slots of different loop indices are different. -/
structure DisjointPairs {ι : Type*} (i0 i1 : ι → Nat) (xs : List ι) : Prop where
  ne : ∀ x ∈ xs, i0 x ≠ i1 x
  pairwise : xs.Pairwise fun x y => i0 x ≠ i0 y ∧ i0 x ≠ i1 y ∧ i1 x ≠ i0 y ∧ i1 x ≠ i1 y

theorem pairLoop_of_not_mem {ι α : Type*} (f : ι → α → α → α × α) (i0 i1 : ι → Nat) (xs : List ι) :
    ∀ (m : Nat → α) (e : Nat), (∀ x ∈ xs, e ≠ i0 x ∧ e ≠ i1 x) → pairLoop f i0 i1 xs m e = m e := by
  induction xs with
  | nil => intro m e _; rfl
  | cons x xs ih =>
    intro m e h
    rw [pairLoop, List.foldl_cons]
    refine (ih _ e fun y hy => h y (List.mem_cons_of_mem _ hy)).trans ?_
    obtain ⟨h0, h1⟩ := h x List.mem_cons_self
    simp [pairStep, h0, h1]

theorem pairLoop_of_mem {ι α : Type*} (f : ι → α → α → α × α) (i0 i1 : ι → Nat) (xs : List ι) :
    ∀ (m : Nat → α), DisjointPairs i0 i1 xs → ∀ x ∈ xs,
      pairLoop f i0 i1 xs m (i0 x) = (f x (m (i0 x)) (m (i1 x))).1 ∧
      pairLoop f i0 i1 xs m (i1 x) = (f x (m (i0 x)) (m (i1 x))).2 := by
  induction xs with
  | nil => intro m _ x hx; cases hx
  | cons y xs ih =>
    intro m hd x hx
    have hp := List.pairwise_cons.mp hd.pairwise
    have hd' : DisjointPairs i0 i1 xs :=
      ⟨fun z hz => hd.ne z (List.mem_cons_of_mem _ hz), hp.2⟩
    rw [pairLoop, List.foldl_cons]
    rcases List.mem_cons.mp hx with rfl | hx'
    · have hne := hd.ne x List.mem_cons_self
      have e0 := pairLoop_of_not_mem f i0 i1 xs (pairStep (f x) (i0 x) (i1 x) m) (i0 x)
        (fun z hz => ⟨(hp.1 z hz).1, (hp.1 z hz).2.1⟩)
      have e1 := pairLoop_of_not_mem f i0 i1 xs (pairStep (f x) (i0 x) (i1 x) m) (i1 x)
        (fun z hz => ⟨(hp.1 z hz).2.2.1, (hp.1 z hz).2.2.2⟩)
      refine ⟨e0.trans ?_, e1.trans ?_⟩
      · simp [pairStep, hne]
      · simp [pairStep]
    · have h := ih (pairStep (f y) (i0 y) (i1 y) m) hd' x hx'
      have hy := hp.1 x hx'
      have e0 : pairStep (f y) (i0 y) (i1 y) m (i0 x) = m (i0 x) := by
        simp [pairStep, hy.1.symm, hy.2.2.1.symm]
      have e1 : pairStep (f y) (i0 y) (i1 y) m (i1 x) = m (i1 x) := by
        simp [pairStep, hy.2.1.symm, hy.2.2.2.symm]
      rw [e0, e1] at h
      exact h

/-- The index list of the doubly nested loop `for j in 0..a { for k in 0..b { .. } }`. -/
def nest (a b : Nat) : List (Nat × Nat) :=
  (List.range a).flatMap fun j => (List.range b).map fun k => (j, k)

theorem mem_nest {a b : Nat} {p : Nat × Nat} : p ∈ nest a b ↔ p.1 < a ∧ p.2 < b := by
  obtain ⟨j, k⟩ := p
  simp [nest]

theorem nodup_nest (a b : Nat) : (nest a b).Nodup := by
  rw [nest, List.nodup_flatMap]
  refine ⟨fun j _ => ?_, ?_⟩
  · exact (List.nodup_range).map (fun x y h => by simpa using h)
  · refine (List.nodup_range (n := a)).imp ?_
    intro x y hxy
    simp only [Function.onFun, List.disjoint_left, List.mem_map, List.mem_range]
    rintro _ ⟨k, _, rfl⟩ ⟨k', _, h⟩
    exact hxy (by simpa using (congrArg Prod.fst h).symm)

/-- The butterfly index pairs of one layer: `idx0 = j * 2^(w+1) + k`, `idx1 = idx0 + 2^w` for
`j < a`, `k < 2^w`. -/
theorem disjointPairs_layer (a w : Nat) (i0 i1 : Nat × Nat → Nat)
    (h0 : ∀ p ∈ nest a (2 ^ w), i0 p = p.1 * 2 ^ (w + 1) + p.2)
    (h1 : ∀ p ∈ nest a (2 ^ w), i1 p = p.1 * 2 ^ (w + 1) + p.2 + 2 ^ w) :
    DisjointPairs i0 i1 (nest a (2 ^ w)) := by
  have hw := Nat.two_pow_pos w
  have hpw : 2 ^ (w + 1) = 2 ^ w + 2 ^ w := by rw [Nat.pow_succ]; omega
  have key : ∀ j k j' k' : Nat, k < 2 ^ (w + 1) → k' < 2 ^ (w + 1) →
      j * 2 ^ (w + 1) + k = j' * 2 ^ (w + 1) + k' → j = j' ∧ k = k' := by
    intro j k j' k' hk hk' h
    have e1 : (j * 2 ^ (w + 1) + k) / 2 ^ (w + 1) = j := by
      rw [Nat.add_comm, Nat.add_mul_div_right _ _ (by omega), Nat.div_eq_of_lt hk, Nat.zero_add]
    have e2 : (j' * 2 ^ (w + 1) + k') / 2 ^ (w + 1) = j' := by
      rw [Nat.add_comm, Nat.add_mul_div_right _ _ (by omega), Nat.div_eq_of_lt hk', Nat.zero_add]
    have : j = j' := by rw [← e1, h, e2]
    subst this
    exact ⟨rfl, by omega⟩
  refine ⟨fun x hx => ?_, ?_⟩
  · rw [h0 x hx, h1 x hx]; omega
  · refine List.Pairwise.imp_of_mem ?_ (nodup_nest a (2 ^ w))
    rintro ⟨j, k⟩ ⟨j', k'⟩ hx hy hne
    have hk := (mem_nest.mp hx).2
    have hk' := (mem_nest.mp hy).2
    rw [h0 _ hx, h0 _ hy, h1 _ hx, h1 _ hy]
    simp only at hk hk' ⊢
    refine ⟨fun h => ?_, fun h => ?_, fun h => ?_, fun h => ?_⟩
    · obtain ⟨rfl, rfl⟩ := key j k j' k' (by omega) (by omega) h
      exact hne rfl
    · obtain ⟨_, h'⟩ := key j k j' (k' + 2 ^ w) (by omega) (by omega) (by omega)
      omega
    · obtain ⟨_, h'⟩ := key j (k + 2 ^ w) j' k' (by omega) (by omega) (by omega)
      omega
    · obtain ⟨rfl, h'⟩ := key j (k + 2 ^ w) j' (k' + 2 ^ w) (by omega) (by omega) (by omega)
      exact hne (by congr 1; omega)

end Verif
