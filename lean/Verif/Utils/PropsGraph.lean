import Verif.Utils.LemmasGraph

/-!
# C04: connected_components
-/

namespace Verif.Graph

/-- Specification: `i` and `j` are linked by a chain of groups (the equivalence closure of "some group
contains both"). -/
def Linked (data : List (List Nat)) : Nat → Nat → Prop :=
  Relation.EqvGen fun a b => ∃ g ∈ data, a ∈ g ∧ b ∈ g

/-- Specification: `m` is the largest id in the groups, `0` if they contain none. -/
def IsMaxId (data : List (List Nat)) (m : Nat) : Prop :=
  (∀ g ∈ data, ∀ i ∈ g, i ≤ m) ∧ (m = 0 ∨ ∃ g ∈ data, m ∈ g)

theorem isMaxId_max (data : List (List Nat)) : IsMaxId data ((data.flatten.max?).getD 0) := by
  rcases h : data.flatten.max? with _ | m
  · rw [List.max?_eq_none_iff] at h
    refine ⟨fun g hg i hi => ?_, Or.inl rfl⟩
    have : i ∈ data.flatten := List.mem_flatten.mpr ⟨g, hg, hi⟩
    rw [h] at this; exact absurd this List.not_mem_nil
  · have := List.max?_eq_some_iff.mp h
    refine ⟨fun g hg i hi => this.2 i (List.mem_flatten.mpr ⟨g, hg, hi⟩), Or.inr ?_⟩
    obtain ⟨g, hg, hm⟩ := List.mem_flatten.mp this.1
    exact ⟨g, hg, hm⟩

/-- **C04.** `connected_components` never fails; for non-empty input it has one entry for every id up
to the largest one, and entry `i` is the least id linked to `i`. -/
theorem C04_least (data : List (List Nat)) (hne : data ≠ []) :
    ∃ out m, connectedComponents data = some out ∧ IsMaxId data m ∧ out.length = m + 1 ∧
      ∀ i (hi : i < out.length), Linked data i out[i] ∧ ∀ j, Linked data i j → out[i] ≤ j := by
  set m := (data.flatten.max?).getD 0 with hm
  have hmax := isMaxId_max data
  rw [← hm] at hmax
  have heq : Equivalence (Linked data) := Relation.EqvGen.is_equivalence _
  -- initial state
  have hroot0 : ∀ y z, Root (UF.new (m + 1)) y z ↔ y = z := by
    intro y z
    constructor
    · intro h
      cases h with
      | self _ => rfl
      | step hne _ => exact absurd rfl hne
    · rintro rfl; exact .self rfl
  have g0 : Good (Linked data) (UF.new (m + 1)) := by
    refine ⟨⟨fun x hx => hx, fun x _ h => absurd rfl h⟩, ?_, ?_⟩
    · intro r hr _
      exact ⟨hr, .self rfl, fun y _ h => by rw [(hroot0 y r).mp h]; exact le_rfl⟩
    · rintro u v _ _ ⟨r, h1, h2⟩
      rw [(hroot0 u r).mp h1, (hroot0 v r).mp h2]
      exact heq.refl _
  obtain ⟨t, e, g, x, j⟩ := unionGroups_good heq data _ g0 (fun g hg =>
    ⟨fun i hi => Nat.lt_succ_of_le (hmax.1 g hg i hi),
      fun a ha b hb => Relation.EqvGen.rel _ _ ⟨g, hg, ha, hb⟩⟩)
  have hn : t.n = m + 1 := x.1
  obtain ⟨out, ec, ho, hv⟩ := collect_spec (m + 1) t 0 g.inv g.min (by omega)
  -- linked vertices end in the same tree
  have complete : ∀ a b, Linked data a b → (a < t.n ↔ b < t.n) ∧ (a < t.n → same t a b) := by
    intro a b h
    induction h with
    | rel a b h =>
      obtain ⟨g', hg, ha, hb⟩ := h
      have h1 := hmax.1 g' hg a ha
      have h2 := hmax.1 g' hg b hb
      exact ⟨⟨fun _ => by omega, fun _ => by omega⟩, fun _ => j g' hg a ha b hb⟩
    | refl a =>
      refine ⟨Iff.rfl, fun ha => ?_⟩
      obtain ⟨r, _, hr⟩ := exists_root' g.inv ha
      exact ⟨r, hr, hr⟩
    | symm a b _ ih => exact ⟨ih.1.symm, fun hb => same_symm (ih.2 (ih.1.mpr hb))⟩
    | trans a b c _ _ ih1 ih2 =>
      exact ⟨ih1.1.trans ih2.1, fun ha => same_trans (ih1.2 ha) (ih2.2 (ih1.1.mp ha))⟩
  refine ⟨out, m, ?_, hmax, ho, fun i hi => ?_⟩
  · rw [connectedComponents, if_neg hne]
    simp only [Option.bind_eq_bind]
    rw [← hm, e]
    exact ec
  · obtain ⟨h1, h2, h3⟩ := hv i hi
    rw [Nat.zero_add] at h1 h3
    refine ⟨g.sound _ _ (by omega) h2 h1, fun k hk => ?_⟩
    have hc := complete i k hk
    have hit : i < t.n := by omega
    exact h3 k (hc.1.mp hit) (hc.2 hit)

/-- **C04.** Two ids get the same label exactly when they are linked. -/
theorem C04_same_label (data : List (List Nat)) (out : List Nat)
    (h : connectedComponents data = some out) (i j : Nat) (hi : i < out.length)
    (hj : j < out.length) : out[i] = out[j] ↔ Linked data i j := by
  by_cases hne : data = []
  · subst hne
    rw [connectedComponents, if_pos rfl] at h
    cases h
    simp at hi
  · obtain ⟨out', m, e, _, _, hv⟩ := C04_least data hne
    rw [e] at h
    cases h
    have heq : Equivalence (Linked data) := Relation.EqvGen.is_equivalence _
    obtain ⟨i1, i2⟩ := hv i hi
    obtain ⟨j1, j2⟩ := hv j hj
    constructor
    · intro h; exact heq.trans i1 (h ▸ heq.symm j1)
    · intro h
      exact le_antisymm (i2 _ (heq.trans h j1)) (j2 _ (heq.trans (heq.symm h) i1))

/-- The example in the function's documentation (`graph.rs:17-20`). -/
example : connectedComponents [[0, 1, 2], [5, 6, 7, 8], [9], [2, 3, 9]] =
    some [0, 0, 0, 0, 4, 5, 5, 5, 5, 0] := by decide

example : Linked [[0, 1, 2], [5, 6, 7, 8], [9], [2, 3, 9]] 0 9 :=
  .trans _ 2 _ (.rel _ _ ⟨_, List.mem_cons_self, by simp⟩) (.rel _ _ ⟨[2, 3, 9], by simp⟩)

end Verif.Graph
