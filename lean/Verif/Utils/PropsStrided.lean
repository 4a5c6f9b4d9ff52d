import Verif.Utils.ModelStrided
import Mathlib.Tactic.Ring
import Mathlib.Data.List.Nodup
import Mathlib.Tactic.Linarith

/-!
# C05: strided 2D array views never alias
-/

namespace Verif.Strided

/-- Specification: the rectangle of a view lies inside its rows and the rows inside the slice. -/
def View.Valid (v : View) : Prop :=
  v.colStart ≤ v.colEnd ∧ v.colEnd ≤ v.dataWidth ∧ v.dataWidth * v.height ≤ v.dataLen

theorem cell_some {v : View} {i j c : Nat} (h : v.cell i j = some c) :
    i < v.height ∧ v.colStart + j < v.colEnd ∧ c = i * v.dataWidth + j + v.colStart := by
  rw [View.cell] at h
  split at h
  · rename_i hb
    obtain ⟨h1, h2⟩ := hb
    rw [View.width] at h2
    exact ⟨h1, by omega, (Option.some.inj h).symm⟩
  · exact absurd h (by simp)

theorem mem_stepBy {start stop stride s : Nat} (hs : 0 < stride) :
    s ∈ stepBy start stop stride ↔ ∃ k, s = start + k * stride ∧ s < stop := by
  simp only [stepBy, List.mem_map, List.mem_range]
  constructor
  · rintro ⟨k, hk, rfl⟩
    refine ⟨k, rfl, ?_⟩
    have h1 : (k + 1) * stride ≤ stop - start + stride - 1 := by
      calc (k + 1) * stride ≤ ((stop - start + stride - 1) / stride) * stride :=
            Nat.mul_le_mul_right _ hk
        _ ≤ _ := Nat.div_mul_le_self _ _
    rw [Nat.add_mul] at h1
    omega
  · rintro ⟨k, rfl, hlt⟩
    refine ⟨k, ?_, rfl⟩
    have h1 : (k + 1) * stride ≤ stop - start + stride - 1 := by rw [Nat.add_mul]; omega
    exact (Nat.le_div_iff_mul_le hs).mpr h1

theorem row_unique {w i i' a b : Nat} (ha : a < w) (hb : b < w) (h : i * w + a = i' * w + b) :
    i = i' ∧ a = b := by
  have h1 : (i * w + a) / w = i := by
    rw [Nat.add_comm, Nat.add_mul_div_right _ _ (by omega), Nat.div_eq_of_lt ha, Nat.zero_add]
  have h2 : (i' * w + b) / w = i' := by
    rw [Nat.add_comm, Nat.add_mul_div_right _ _ (by omega), Nat.div_eq_of_lt hb, Nat.zero_add]
  rw [h] at h1
  have : i = i' := h1.symm.trans h2
  subst this
  exact ⟨rfl, by omega⟩

/-- **C05.** `without_stride`, with overflow checks, gives a valid view of the whole slice exactly
when the dimensions match. -/
theorem C05_without_stride (len h w : Nat) (v : View)
    (hv : withoutStride true len h w = some (.ok v)) :
    v.Valid ∧ ∀ c, (∃ i j, v.cell i j = some c) ↔ c < len := by
  simp only [withoutStride, mulUsize, if_true, Option.bind_eq_bind] at hv
  by_cases hlt : w * h < 2 ^ 64
  · rw [if_pos hlt, Option.bind_some] at hv
    by_cases hne : w * h ≠ len
    · rw [if_pos hne] at hv; simp at hv
    · rw [if_neg hne] at hv
      have hlen : w * h = len := not_not.mp hne
      simp only [Option.some.injEq, Except.ok.injEq] at hv
      subst hv
      refine ⟨⟨Nat.zero_le _, le_rfl, le_of_eq hlen⟩, fun c => ⟨?_, fun hc => ?_⟩⟩
      · rintro ⟨i, j, hc⟩
        obtain ⟨h1, h2, rfl⟩ := cell_some hc
        simp only [Nat.zero_add, Nat.add_zero] at h1 h2 ⊢
        calc i * w + j < i * w + w := by omega
          _ = (i + 1) * w := by ring
          _ ≤ h * w := Nat.mul_le_mul_right _ h1
          _ = len := by rw [← hlen, Nat.mul_comm]
      · have hw : 0 < w := by
          rcases Nat.eq_zero_or_pos w with h0 | h0
          · rw [h0, Nat.zero_mul] at hlen; omega
          · exact h0
        refine ⟨c / w, c % w, ?_⟩
        rw [View.cell, if_pos]
        · simp only [Nat.add_zero, Option.some.injEq]
          rw [Nat.mul_comm]; exact Nat.div_add_mod c w
        · refine ⟨?_, ?_⟩
          · show c / w < h
            exact Nat.div_lt_of_lt_mul (by omega)
          · show c % w < w - 0
            exact Nat.mod_lt _ hw
  · rw [if_neg hlt] at hv; simp at hv

/-- **C05.** Indexing a valid view stays inside the slice and different positions are different
cells. -/
theorem C05_cells_distinct (v : View) (hv : v.Valid) (i j c : Nat) (h : v.cell i j = some c) :
    c < v.dataLen ∧ ∀ i' j', v.cell i' j' = some c → i' = i ∧ j' = j := by
  obtain ⟨h1, h2, h3⟩ := cell_some h
  obtain ⟨v1, v2, v3⟩ := hv
  constructor
  · calc c = i * v.dataWidth + (j + v.colStart) := by omega
      _ < i * v.dataWidth + v.dataWidth := by omega
      _ = (i + 1) * v.dataWidth := by ring
      _ ≤ v.height * v.dataWidth := Nat.mul_le_mul_right _ h1
      _ ≤ v.dataLen := by rw [Nat.mul_comm]; exact v3
  · intro i' j' h'
    obtain ⟨g1, g2, g3⟩ := cell_some h'
    have := row_unique (w := v.dataWidth) (i := i') (i' := i) (a := j' + v.colStart)
      (b := j + v.colStart) (by omega) (by omega) (by omega)
    exact ⟨this.1, by omega⟩

/-- **C05.** The pieces of `into_strides` are valid views. -/
theorem C05_strides_valid (v : View) (hv : v.Valid) (stride : Nat) (vs : List View)
    (h : v.intoStrides stride = some vs) (p : View) (hp : p ∈ vs) :
    p.Valid ∧ p.height = v.height ∧ p.width ≤ stride := by
  rw [View.intoStrides] at h
  split at h
  · simp at h
  · rename_i hs
    cases h
    obtain ⟨s, hs', rfl⟩ := List.mem_map.mp hp
    obtain ⟨k, _, hlt⟩ := (mem_stepBy (by omega)).mp hs'
    obtain ⟨v1, v2, v3⟩ := hv
    refine ⟨⟨?_, ?_, v3⟩, rfl, ?_⟩
    · show s ≤ min (s + stride) v.colEnd; omega
    · show min (s + stride) v.colEnd ≤ v.dataWidth; omega
    · show min (s + stride) v.colEnd - s ≤ stride; omega

/-- **C05.** No cell is reachable from two different pieces of `into_strides`. -/
theorem C05_disjoint (v : View) (hv : v.Valid) (stride : Nat) (vs : List View)
    (h : v.intoStrides stride = some vs) (a b : Nat) (ha : a < vs.length) (hb : b < vs.length)
    (i j i' j' c : Nat) (h1 : vs[a].cell i j = some c) (h2 : vs[b].cell i' j' = some c) :
    a = b ∧ i = i' ∧ j = j' := by
  rw [View.intoStrides] at h
  split at h
  · simp at h
  · rename_i hs
    cases h
    simp only [List.getElem_map, stepBy, List.getElem_range] at h1 h2
    obtain ⟨p1, p2, p3⟩ := cell_some h1
    obtain ⟨q1, q2, q3⟩ := cell_some h2
    dsimp only at p1 p2 p3 q1 q2 q3
    obtain ⟨v1, v2, v3⟩ := hv
    have := row_unique (w := v.dataWidth) (i := i) (i' := i') (a := j + (v.colStart + a * stride))
      (b := j' + (v.colStart + b * stride)) (by omega) (by omega) (by omega)
    obtain ⟨e1, e2⟩ := this
    have hja : j < stride := by omega
    have hjb : j' < stride := by omega
    have := row_unique (w := stride) (i := a) (i' := b) hja hjb (by omega)
    exact ⟨this.1, e1, this.2⟩

/-- **C05.** Together the pieces cover exactly the cells of the original view. -/
theorem C05_cover (v : View) (stride : Nat) (vs : List View)
    (h : v.intoStrides stride = some vs) (c : Nat) :
    (∃ i j, v.cell i j = some c) ↔ ∃ p ∈ vs, ∃ i j, p.cell i j = some c := by
  rw [View.intoStrides] at h
  split at h
  · simp at h
  · rename_i hs
    cases h
    have hpos : 0 < stride := by omega
    constructor
    · rintro ⟨i, j, hc⟩
      obtain ⟨h1, h2, h3⟩ := cell_some hc
      have hdm : (j / stride) * stride + j % stride = j := by
        rw [Nat.mul_comm]; exact Nat.div_add_mod j stride
      have hmod := Nat.mod_lt j hpos
      refine ⟨_, List.mem_map.mpr ⟨v.colStart + (j / stride) * stride,
        (mem_stepBy hpos).mpr ⟨j / stride, rfl, by omega⟩, rfl⟩, i, j % stride, ?_⟩
      rw [View.cell, if_pos]
      · simp only [Option.some.injEq]; omega
      · refine ⟨h1, ?_⟩
        show j % stride < min (v.colStart + j / stride * stride + stride) v.colEnd -
          (v.colStart + j / stride * stride)
        omega
    · rintro ⟨p, hp, i, j, hc⟩
      obtain ⟨s, hs', rfl⟩ := List.mem_map.mp hp
      obtain ⟨k, hk, hlt⟩ := (mem_stepBy hpos).mp hs'
      obtain ⟨h1, h2, h3⟩ := cell_some hc
      dsimp only at h1 h2 h3
      refine ⟨i, j + (s - v.colStart), ?_⟩
      rw [View.cell, if_pos]
      · simp only [Option.some.injEq]; omega
      · refine ⟨h1, ?_⟩
        rw [View.width]; omega

/-- **C05.** The elements of a column iterator are the cells of that column, all different. -/
theorem C05_column (v : View) (hv : v.Valid) (col : Nat) (l : List Nat)
    (h : v.column col = some l) :
    l.length = v.height ∧ l.Nodup ∧ ∀ i (hi : i < l.length), v.cell i col = some l[i] := by
  rw [View.column] at h
  split at h
  · rename_i hc
    cases h
    have hw : col + v.colStart < v.dataWidth := by
      rw [View.width] at hc
      obtain ⟨v1, v2, v3⟩ := hv
      omega
    refine ⟨by simp, ?_, fun i hi => ?_⟩
    · refine List.Nodup.map ?_ List.nodup_range
      intro a b hab
      exact (row_unique hw hw hab).1
    · simp only [List.length_map, List.length_range] at hi
      rw [View.cell, if_pos ⟨hi, hc⟩]
      simp only [List.getElem_map, List.getElem_range, Option.some.injEq]
      omega
  · simp at h

/-- **C05**, finding: without overflow checks (Rust's release profile) the dimension check of
`without_stride` can be passed by a wrapping product, giving a "view" whose cells lie outside the
slice. -/
theorem C05_wrapping_unsound : ∃ v : View,
    withoutStride false 0 2 (2 ^ 63) = some (.ok v) ∧ ∃ c, v.cell 1 1 = some c ∧ ¬ c < v.dataLen :=
  ⟨⟨0, 2 ^ 63, 2, 0, 2 ^ 63⟩, by decide, 2 ^ 63 + 1, by decide, by decide⟩

/-- A 4 x 5 array cut into columns `0..2, 2..4, 4..5`. -/
example : (⟨20, 5, 4, 0, 5⟩ : View).Valid ∧
    (⟨20, 5, 4, 0, 5⟩ : View).intoStrides 2 =
      some [⟨20, 5, 4, 0, 2⟩, ⟨20, 5, 4, 2, 4⟩, ⟨20, 5, 4, 4, 5⟩] := by
  refine ⟨?_, by decide⟩
  exact ⟨by decide, by decide, by decide⟩

example : withoutStride true 20 4 5 = some (.ok ⟨20, 5, 4, 0, 5⟩) := by decide

end Verif.Strided
