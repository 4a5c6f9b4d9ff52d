import Verif.M3.LemmasMerkleGroestl

/-! C80: the Merkle tree gadget with the gadget for the permutation of Grøstl proves inclusion under the compression of Grøstl. -/

namespace Verif.M3.Merkle

open Verif.M3.Emulate

/-- C80: what the trace computes for two digests is the compression of Grøstl. -/
theorem C80_compress (l r : Fin 32 → Byte) : compress l r = groestlCompress l r := compress_eq l r

/-- C80: in a row that satisfies its constraints, whatever the prover puts in the columns, the parent is the compression of
Grøstl of the children. -/
theorem C80_row (row : Row) (rounds : Nat → Groestl.Round) (h : row.HoldsGadget rounds) (l r : Fin 32 → Byte)
    (hl : row.left = toRows l) (hr : row.right = toRows r) : row.parent = toRows (groestlCompress l r) := by
  have h' := holds_of_gadget h
  rw [← compressRows_toRows, ← hl, ← hr]
  exact parent_eq h'

/-- C80, soundness: if the rows satisfy their constraints, with those of the permutation gadget, the channels balance and no
depth overflows, then each leaf of the boundary is included, under the compression of Grøstl, at its depth under a root of the
boundary with its identifier, at its index if the depth is at most 32.

Partial: the constraints do not exclude that a depth overflows (`C77_depth_wraps`). -/
theorem C80_sound_partial (t : Tables) (hr : ∀ r ∈ t.rows, ∃ rounds, r.HoldsGadget rounds)
    {leaf : List (NodeToken (Fin 32 → Byte))} {root : List (RootToken (Fin 32 → Byte))}
    (hn : (t.pushes (leaf.map fun l => ⟨l.rootId, toRows l.data, l.depth, l.index⟩)).Perm t.pulls)
    (hroot : (root.map fun r => (⟨r.rootId, toRows r.data⟩ : RootToken Rows4)).Perm t.rootPulls)
    (hc : ∀ r ∈ t.rows, r.parentDepth ≠ 255) :
    ∀ l ∈ leaf, ∃ r ∈ root, r.rootId = l.rootId ∧
      (∃ idx, idx % 2 ^ 32 = l.index ∧ Included groestlCompress r.data l.depth idx l.data) ∧
      (l.depth ≤ 32 → Included groestlCompress r.data l.depth l.index l.data) := by
  intro l hl
  obtain ⟨r, h1, h2, ⟨idx, h3, h4⟩, h5⟩ := C77_tables_sound_partial permRows t
    (fun r h => (hr r h).elim fun _ h => holds_of_gadget h) hn hroot hc _ (List.mem_map_of_mem hl)
  obtain ⟨r, hm, rfl⟩ := List.mem_map.1 h1
  exact ⟨r, hm, h2, ⟨idx, h3, included_toRows h4⟩, fun h => included_toRows (h5 h)⟩

/-- C80, completeness: for any paths of leaves of trees with at most `2 ^ 32` leaves and fewer than 256 roots, the tables are
filled from the trace; their rows, with what the permutation gadget writes, satisfy the constraints, and the channels balance
with the boundaries, which are the leaves and roots of the paths. -/
theorem C80_complete (trees : List (List (Fin 32 → Byte))) (roots : List (Fin 32 → Byte)) (paths : List (Path (Fin 32 → Byte)))
    (h : ∀ p ∈ paths, FromTree compress trees roots p ∧ p.rootId < 256 ∧ p.nodes.length ≤ 32) :
    ∃ t tables, generate compress roots paths = some t ∧ fillTables populated t = some tables ∧
      (∀ r ∈ tables.rows, r.HoldsGadget (Groestl.populate .P r.stateIn)) ∧
      (tables.pushes (leafBoundaries t)).Perm tables.pulls ∧ (rootBoundaries t).Perm tables.rootPulls ∧
      (∀ l, l ∈ leafBoundaries t ↔ ∃ p ∈ paths, l = ⟨p.rootId, toRows p.leaf, p.nodes.length, p.index⟩) ∧
      ∀ r, r ∈ rootBoundaries t ↔ ∃ p ∈ paths, ∃ d, roots[p.rootId]? = some d ∧ r = ⟨p.rootId, toRows d⟩ := by
  have e : compress = compressBytes populated := by
    funext l r
    rw [compress_eq, compressBytes_populated]
  rw [e] at h ⊢
  obtain ⟨t, tables, h1, h2, h3, h4⟩ := C77_tables_complete populated trees roots paths h
  rw [populated_rows] at h3
  exact ⟨t, tables, h1, h2, fun r hr => gadget_of_holds (h3 r hr), h4⟩

/-- The hypotheses hold for each leaf of a tree with two leaves. -/
example (a b : Fin 32 → Byte) : FromTree compress [[a, b]] [compress a b] ⟨0, 1, b, [a]⟩ := by
  refine ⟨[a, b], 1, _, _, rfl, treeNew_eq _ rfl, rfl, rfl, ?_⟩
  rw [merklePath_eq _ _ (show 1 < 2 ^ 1 by decide)]
  simp [List.range_succ, nodeOf]

/-- Tables with one row, which satisfy the hypotheses of soundness: the right one of two leaves. -/
example (a b : Fin 32 → Byte) : Included groestlCompress (groestlCompress a b) 1 1 b := by
  let row : Row := ⟨0, toRows a, toRows b, joined (toRows a) (toRows b), permRows (joined (toRows a) (toRows b)), 0, 1, false, 0⟩
  have hrow : row.Holds permRows := ⟨rfl, rfl, rfl⟩
  have hg := gadget_of_holds hrow
  have hp : row.parent = toRows (groestlCompress a b) := C80_row row _ hg a b rfl rfl
  have hs := C80_sound_partial ⟨[], [row], [], [(0, toRows (groestlCompress a b))]⟩ (leaf := [⟨0, b, 1, 1⟩])
    (root := [⟨0, groestlCompress a b⟩])
    (fun r hr => ⟨Groestl.populate .P row.stateIn, by rw [show r = row by simpa [Tables.rows] using hr]; exact hg⟩)
    (by
      have h1 : row.pullRight = ⟨0, toRows b, 1, 1⟩ := by
        rw [Row.pullRight, show row.rightIndex = 1 from (by decide : ((0 : BitVec 32) <<< 1) ^^^ 1 = 1)]
        rfl
      have h2 : row.push = ⟨0, toRows (groestlCompress a b), 0, 0⟩ := by
        rw [Row.push, hp]
        rfl
      have h3 : Tables.pulls ⟨[], [row], [], [(0, toRows (groestlCompress a b))]⟩ =
        [row.pullRight, ⟨0, toRows (groestlCompress a b), 0, 0⟩] := rfl
      have h4 : Tables.pushes ⟨[], [row], [], [(0, toRows (groestlCompress a b))]⟩ [⟨0, toRows b, 1, 1⟩] =
        [⟨0, toRows b, 1, 1⟩, row.push] := rfl
      rw [List.map_singleton, h3, h4, h1, h2])
    (List.Perm.refl _)
    (fun r hr => by
      rw [show r = row by simpa [Tables.rows] using hr]
      exact (by decide : (0 : Byte) ≠ 255))
    ⟨0, b, 1, 1⟩ (List.mem_singleton_self _)
  obtain ⟨r, hr, -, -, h⟩ := hs
  rw [List.mem_singleton] at hr
  rw [hr] at h
  exact h (show 1 ≤ 32 by decide)

end Verif.M3.Merkle
