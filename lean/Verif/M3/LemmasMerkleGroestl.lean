import Verif.M3.ModelMerkleGroestl
import Verif.M3.SpecMerkleGroestl
import Verif.M3.PropsMerkle
import Verif.M3.PropsGroestl
import Verif.Hash.LemmasGroestl
import Mathlib.Tactic.FinCases

/-! Lemmas on the Merkle tree gadget with the compression of Grøstl. -/

namespace Verif.M3.Merkle

open Verif.Hash.Groestl (State permP ofBytes toBytes add)
open Verif.M3.Groestl (fromAes)

theorem fromAes_toAes (b : Byte) : fromAes (toAes b) = b := (Field.Aes.transform8_inverse b).2

/-- The state that columns hold. -/
def stateOf (c : Rows8) : State := fun i j => toAes (c i j)

theorem represents_stateOf (c : Rows8) : Groestl.Represents c (stateOf c) := fun _ _ => (fromAes_toAes _).symm

/-- The permutation on columns. -/
def permRows (c : Rows8) : Rows8 := fun i j => fromAes (permP (stateOf c) i j)

theorem gadget_out {c : Rows8} {rounds : Nat → Groestl.Round} (h : Groestl.Holds .P c rounds) :
    (rounds 9).stateOut = permRows c := by
  funext i j
  exact Groestl.C79_sound .P c rounds h _ (represents_stateOf c) i j

theorem holds_of_gadget {r : Row} {rounds : Nat → Groestl.Round} (h : r.HoldsGadget rounds) : r.Holds permRows :=
  ⟨h.stateIn, h.stateOut.trans (gadget_out h.permutation), h.depth⟩

theorem gadget_of_holds {r : Row} (h : r.Holds permRows) : r.HoldsGadget (Groestl.populate .P r.stateIn) :=
  ⟨h.stateIn, Groestl.C79_complete _ _, h.stateOut.trans (gadget_out (Groestl.C79_complete _ _)).symm, h.depth⟩

theorem toRows8_ofRows8 (s : Rows8) : toRows8 (ofRows8 s) = s := by
  funext i j
  simp only [toRows8, ofRows8]
  congr 2 <;> first | (ext; simp; omega) | omega

theorem populated_rows : (fun s => toRows8 (populated (ofRows8 s))) = permRows := by
  funext s
  rw [populated, toRows8_ofRows8, toRows8_ofRows8, gadget_out (Groestl.C79_complete _ _)]

theorem toBytes_getD (s : State) (i j : Fin 8) : (toBytes s).getD (8 * j.val + i.val) 0 = s i j := by
  fin_cases i <;> fin_cases j <;> rfl

theorem getD_map_fromAes (L : List Byte) (k : Nat) : (L.map fromAes).getD k 0 = fromAes (L.getD k 0) := by
  rw [List.getD_eq_getElem?_getD, List.getD_eq_getElem?_getD, List.getElem?_map]
  cases L[k]? with
  | none => exact Groestl.fromAes_zero.symm
  | some a => rfl

theorem groestlCompress_eq (l r : Fin 32 → Byte) (k : Fin 32) : groestlCompress l r k =
    fromAes ((Hash.Groestl.compress2 ((List.ofFn l).map toAes) ((List.ofFn r).map toAes)).getD k.val 0) := rfl

theorem compress_eq (l r : Fin 32 → Byte) : compress l r = groestlCompress l r := by
  funext k
  rw [compress, groestlCompress_eq]
  dsimp only
  rw [← List.map_drop, getD_map_fromAes, Hash.Groestl.compress2, Hash.Groestl.output, ← List.map_append,
    Hash.Groestl.stateToBytes_ok, Hash.Groestl.xorState_ok, Hash.Groestl.p_ok, Hash.Groestl.stateFromBytes_ok]

theorem state_getD (l r : Fin 32 → Byte) (n : Nat) (hn : n < 64) :
    ((List.ofFn l ++ List.ofFn r).map toAes).getD n 0 =
      toAes (if h : n < 32 then l ⟨n, h⟩ else r ⟨n - 32, by omega⟩) := by
  rw [List.getD_eq_getElem?_getD, List.getElem?_map]
  split
  · rename_i h
    rw [List.getElem?_append_left (by rw [List.length_ofFn]; exact h), List.getElem?_eq_getElem (by rw [List.length_ofFn]; exact h),
      List.getElem_ofFn]
    rfl
  · rename_i h
    rw [List.getElem?_append_right (by rw [List.length_ofFn]; omega),
      List.getElem?_eq_getElem (by rw [List.length_ofFn, List.length_ofFn]; omega), List.getElem_ofFn]
    simp only [List.length_ofFn, Option.map_some, Option.getD_some]

theorem compressBytes_populated (l r : Fin 32 → Byte) : compressBytes populated l r = groestlCompress l r := by
  funext k
  have hk := k.isLt
  rw [compressBytes, groestlCompress_eq]
  dsimp only
  have e : ∀ b : Fin 64 → Byte, populated b = ofRows8 (permRows (toRows8 b)) := fun b => by
    rw [populated, gadget_out (Groestl.C79_complete _ _)]
  have hs : stateOf (toRows8 fun k => if h : k.val < 32 then l ⟨k.val, h⟩ else r ⟨k.val - 32, by omega⟩) =
      ofBytes ((List.ofFn l ++ List.ofFn r).map toAes) := by
    funext i j
    rw [ofBytes, state_getD l r _ (by omega)]
    rfl
  rw [e, Hash.Groestl.compress2, Hash.Groestl.output, ← List.map_append, ← hs]
  have hd : ∀ s : State, ((toBytes s).drop 32).getD k.val 0 = s ⟨(k.val + 32) % 8, by omega⟩ ⟨(k.val + 32) / 8, by omega⟩ := by
    intro s
    rw [← toBytes_getD s ⟨(k.val + 32) % 8, by omega⟩ ⟨(k.val + 32) / 8, by omega⟩, List.getD_eq_getElem?_getD, List.getD_eq_getElem?_getD, List.getElem?_drop]
    congr 2
    dsimp only
    omega
  rw [hd, add, Groestl.fromAes_xor]
  refine congrArg₂ (· ^^^ ·) rfl ?_
  rw [stateOf, fromAes_toAes, toRows8]
  have : 8 * ((k.val + 32) / 8) + (k.val + 32) % 8 = k.val + 32 := by omega
  simp only [this]

/-! ### Digests and rows -/

theorem toRows_bijective : Function.Bijective toRows := by
  constructor
  · intro a b h
    funext k
    have := congrFun (congrFun h ⟨k.val % 8, by omega⟩) ⟨k.val / 8, by omega⟩
    have e : 8 * (k.val / 8) + k.val % 8 = k.val := by omega
    simpa only [toRows, e] using this
  · intro c
    refine ⟨fun k => c ⟨k.val % 8, by omega⟩ ⟨k.val / 8, by omega⟩, ?_⟩
    funext i j
    have e1 : (8 * j.val + i.val) % 8 = i.val := by omega
    have e2 : (8 * j.val + i.val) / 8 = j.val := by omega
    simp only [toRows, e1, e2]

theorem compressRows_toRows (l r : Fin 32 → Byte) : compressRows permRows (toRows l) (toRows r) = toRows (groestlCompress l r) := by
  rw [← populated_rows, compress_rows, compressBytes_populated]

theorem climb_toRows : ∀ (ss : List (Fin 32 → Byte)) (n : Nat) (d : Fin 32 → Byte),
    climb (compressRows permRows) n (toRows d) (ss.map toRows) = toRows (climb groestlCompress n d ss)
  | [], _, _ => rfl
  | s :: ss, n, d => by
    rw [List.map_cons, climb, climb, ← climb_toRows ss]
    split <;> rw [compressRows_toRows]

theorem included_toRows {root leaf : Fin 32 → Byte} {depth index : Nat}
    (h : Included (compressRows permRows) (toRows root) depth index (toRows leaf)) :
    Included groestlCompress root depth index leaf := by
  obtain ⟨h1, ss, h2, h3⟩ := h
  obtain ⟨ss, rfl⟩ := (List.map_surjective_iff.2 toRows_bijective.2) ss
  rw [climb_toRows] at h3
  rw [List.length_map] at h2
  exact ⟨h1, ss, h2, toRows_bijective.1 h3⟩

end Verif.M3.Merkle
