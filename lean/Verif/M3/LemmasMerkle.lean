import Verif.M3.ModelMerkle
import Verif.M3.PropsEmulate
import Mathlib.Algebra.Order.Ring.Nat
import Mathlib.Tactic.Ring
import Mathlib.Data.Nat.Bitwise
import Mathlib.Tactic.Linarith

/-! Lemmas on the Merkle tree gadget. -/

namespace Verif.M3.Merkle

open Verif.M3.Emulate

variable {D : Type} [DecidableEq D]

omit [DecidableEq D] in
theorem included_left {compress : D → D → D} {root l r : D} {depth index : Nat}
    (h : Included compress root depth index (compress l r)) : Included compress root (depth + 1) (2 * index) l := by
  obtain ⟨h1, ss, h2, h3⟩ := h
  refine ⟨by rw [pow_succ]; omega, r :: ss, by simp [h2], ?_⟩
  rw [climb, if_pos (by omega), show 2 * index / 2 = index by omega, h3]

omit [DecidableEq D] in
theorem included_right {compress : D → D → D} {root l r : D} {depth index : Nat}
    (h : Included compress root depth index (compress l r)) : Included compress root (depth + 1) (2 * index + 1) r := by
  obtain ⟨h1, ss, h2, h3⟩ := h
  refine ⟨by rw [pow_succ]; omega, l :: ss, by simp [h2], ?_⟩
  rw [climb, if_neg (by omega), show (2 * index + 1) / 2 = index by omega, h3]

theorem mem_of_count {α β : Type} [DecidableEq α] [DecidableEq β] {ops : List α} {f g : β → α}
    (h : ∀ v, ops.count (f v) = ops.count (g v)) {v : β} (hv : f v ∈ ops) : g v ∈ ops :=
  List.count_pos_iff.1 (h v ▸ List.count_pos_iff.2 hv)

/-- The pushes and pulls of events. -/
theorem push_mem_fire {e : PathEvent D} {t : NodeToken D} (h : Op.push t ∈ e.fire) :
    t = ⟨e.rootId, e.parent, e.parentDepth, e.parentIndex⟩ := by
  unfold PathEvent.fire at h
  rcases e with ⟨_, _, _, _, _, _, _ | _, _ | _⟩ <;> simp at h <;> exact h

theorem pull_mem_fire {e : PathEvent D} {t : NodeToken D} (h : Op.pull t ∈ e.fire) :
    t = ⟨e.rootId, e.left, e.parentDepth + 1, 2 * e.parentIndex⟩ ∨
    t = ⟨e.rootId, e.right, e.parentDepth + 1, 2 * e.parentIndex + 1⟩ := by
  unfold PathEvent.fire at h
  rcases e with ⟨_, _, _, _, _, _, _ | _, _ | _⟩ <;> simp at h <;> tauto

/-! ### Trees -/

theorem verifyLoop_climb (compress : D → D → D) (index : Nat) : ∀ (path : List D) (i : Nat) (cur : D),
    verifyLoop compress index i cur path = climb compress (index >>> i) cur path
  | [], _, _ => rfl
  | n :: path, i, cur => by
    rw [verifyLoop, climb, verifyLoop_climb compress index path]
    rw [Nat.and_one_is_mod, ← Nat.shiftRight_succ]

/-- The nodes that `buildLayers` should have: the layers one after the other. -/
def layers [Inhabited D] (compress : D → D → D) (leaves : List D) (depth : Nat) : Nat → List D
  | 0 => (List.range (2 ^ depth)).map (nodeOf compress leaves 0)
  | h + 1 => layers compress leaves depth h ++ (List.range (2 ^ (depth - (h + 1)))).map (nodeOf compress leaves (h + 1))

theorem layers_length [Inhabited D] (compress : D → D → D) (leaves : List D) (depth : Nat) : ∀ h ≤ depth,
    (layers compress leaves depth h).length + 2 ^ (depth - h) = 2 ^ (depth + 1)
  | 0, _ => by simp [layers, pow_succ]; omega
  | h + 1, hh => by
    have ih := layers_length compress leaves depth h (by omega)
    rw [layers, List.length_append, List.length_map, List.length_range]
    have : 2 ^ (depth - h) = 2 * 2 ^ (depth - (h + 1)) := by
      rw [← pow_succ']; congr 1; omega
    omega

/-- Node `i` of layer `h`, counted from the start of the layer. -/
theorem layers_get [Inhabited D] (compress : D → D → D) (leaves : List D) (depth : Nat) : ∀ h ≤ depth, ∀ h' ≤ h,
    ∀ i < 2 ^ (depth - h'), (layers compress leaves depth h)[2 ^ (depth + 1) - 2 ^ (depth + 1 - h') + i]? =
      some (nodeOf compress leaves h' i)
  | 0, _, h', hh', i, hi => by
    obtain rfl : h' = 0 := by omega
    simp only [Nat.sub_zero, Nat.sub_self, zero_add] at hi ⊢
    simp [layers, hi]
  | h + 1, hh, h', hh', i, hi => by
    have hlen := layers_length compress leaves depth h (by omega)
    rw [layers]
    rcases Nat.lt_or_ge h' (h + 1) with hlt | hge
    · rw [List.getElem?_append_left, layers_get compress leaves depth h (by omega) h' (by omega) i hi]
      have e1 : 2 ^ (depth + 1 - h') = 2 * 2 ^ (depth - h') := by rw [← pow_succ']; congr 1; omega
      have e2 : 2 ^ (depth - h) ≤ 2 ^ (depth - h') := Nat.pow_le_pow_right (by omega) (by omega)
      have e3 : 2 ^ (depth + 1 - h') ≤ 2 ^ (depth + 1) := Nat.pow_le_pow_right (by omega) (by omega)
      omega
    · obtain rfl : h' = h + 1 := by omega
      rw [show depth + 1 - (h + 1) = depth - h by omega, List.getElem?_append_right (by omega),
        show 2 ^ (depth + 1) - 2 ^ (depth - h) + i - (layers compress leaves depth h).length = i by omega]
      simp [hi]

theorem buildLayers_eq [Inhabited D] (compress : D → D → D) (leaves : List D) (depth : Nat) : ∀ k ≤ depth,
    buildLayers compress k (layers compress leaves depth (depth - k)) = layers compress leaves depth depth
  | 0, _ => rfl
  | k + 1, hk => by
    have hlen := layers_length compress leaves depth (depth - (k + 1)) (by omega)
    rw [show depth - (depth - (k + 1)) = k + 1 by omega] at hlen
    have hg := layers_get compress leaves depth (depth - (k + 1)) (by omega) (depth - (k + 1)) (le_refl _)
    rw [show depth - (depth - (k + 1)) = k + 1 by omega, show depth + 1 - (depth - (k + 1)) = k + 2 by omega] at hg
    have e2 : 2 ^ (k + 2) = 2 * 2 ^ (k + 1) := by rw [← pow_succ']
    have e1 : 2 ^ (k + 1) = 2 * 2 ^ k := by rw [← pow_succ']
    have e3 : 2 ^ (k + 2) ≤ 2 ^ (depth + 1) := Nat.pow_le_pow_right (by omega) (by omega)
    have hm : (layers compress leaves depth (depth - (k + 1))).length - 2 ^ (k + 1) = 2 ^ (depth + 1) - 2 ^ (k + 2) := by
      omega
    rw [buildLayers, hm, ← buildLayers_eq compress leaves depth k (by omega)]
    congr 1
    conv_rhs => rw [show depth - k = depth - (k + 1) + 1 by omega, layers]
    rw [show depth - (depth - (k + 1) + 1) = k by omega]
    congr 1
    refine List.map_congr_left fun j hj => ?_
    have hj := List.mem_range.1 hj
    rw [hg (2 * j) (by omega), hg (2 * j + 1) (by omega)]
    rfl

theorem nodeOf_climb [Inhabited D] (compress : D → D → D) (leaves : List D) : ∀ (n h i : Nat), i < 2 ^ n →
    climb compress i (nodeOf compress leaves h i)
      ((List.range n).map fun j => nodeOf compress leaves (h + j) ((i >>> j) ^^^ 1)) = nodeOf compress leaves (h + n) 0
  | 0, h, i, hi => by
    obtain rfl : i = 0 := by simpa using hi
    rfl
  | n + 1, h, i, hi => by
    have ih := nodeOf_climb compress leaves n (h + 1) (i / 2) (by rw [pow_succ] at hi; omega)
    rw [List.range_succ_eq_map, List.map_cons, List.map_map, climb]
    have e : ((fun j => nodeOf compress leaves (h + j) ((i >>> j) ^^^ 1)) ∘ Nat.succ) =
        fun j => nodeOf compress leaves (h + 1 + j) ((i / 2) >>> j ^^^ 1) := by
      funext j
      simp only [Function.comp]
      rw [show h + j.succ = h + 1 + j by omega, show i >>> j.succ = (i / 2) >>> j by
        rw [show j.succ = 1 + j by omega, Nat.shiftRight_add]; rfl]
    rw [e, show h + (n + 1) = h + 1 + n by omega, ← ih]
    congr 1
    rw [nodeOf, Nat.add_zero, Nat.shiftRight_zero]
    rcases Nat.mod_two_eq_zero_or_one i with h0 | h1
    · rw [if_pos h0, show 2 * (i / 2) = i by omega, show i ^^^ 1 = i + 1 from ?_]
      rw [Nat.xor_one_of_even (Nat.even_iff.2 h0)]
    · rw [if_neg (by omega), show 2 * (i / 2) + 1 = i by omega, show i ^^^ 1 = 2 * (i / 2) from ?_]
      rw [Nat.xor_one_of_odd (Nat.odd_iff.2 h1)]
      omega

omit [DecidableEq D] in
theorem climb_zero_append (compress : D → D → D) : ∀ (a b : List D) (d : D),
    climb compress 0 d (a ++ b) = climb compress 0 (climb compress 0 d a) b
  | [], _, _ => rfl
  | s :: a, b, d => by
    simp only [List.cons_append, climb, Nat.zero_div]
    exact climb_zero_append compress a b _

/-! ### Tables -/

theorem parent_eq {perm : Rows8 → Rows8} {r : Row} (h : r.Holds perm) :
    r.parent = compressRows perm r.left r.right := by
  funext i j
  rw [Row.parent, compressRows, Row.permOut, Row.shifted, h.stateOut, h.stateIn]
  have hj := j.isLt
  simp only [Nat.reduceMod, Nat.zero_mul, Nat.zero_add]
  rw [dif_pos (by omega)]
  congr 1

theorem leftIndex_eq (r : Row) {idx : Nat} (h : idx % 2 ^ 32 = r.parentIndex.toNat) :
    (2 * idx) % 2 ^ 32 = r.leftIndex.toNat := by
  rw [Row.leftIndex, BitVec.toNat_shiftLeft, Nat.shiftLeft_eq, ← h]
  omega

theorem rightIndex_eq (r : Row) {idx : Nat} (h : idx % 2 ^ 32 = r.parentIndex.toNat) :
    (2 * idx + 1) % 2 ^ 32 = r.rightIndex.toNat := by
  rw [Row.rightIndex, BitVec.toNat_xor, ← leftIndex_eq r h]
  have : (1 : BitVec 32).toNat = 1 := rfl
  rw [this, Nat.xor_one_of_even (Nat.even_iff.2 (by omega))]
  omega

end Verif.M3.Merkle
