import Verif.M3.LemmasGroestl
import Verif.Hash.SpecGroestl

/-! C79: the gadget for the permutations of Grøstl. -/

set_option linter.dupNamespace false

namespace Verif.M3.Groestl

open Verif.Field Verif.Hash.Groestl

/-- The permutation of a variant. -/
def permOf : Variant → State → State
  | .P => permP
  | .Q => permQ

/-- The columns hold the state: byte in row `i` and column `j` of the matrix is position `j` of column `i`, converted from the
AES field. -/
def Represents (c : Fin 8 → Column) (s : State) : Prop := ∀ i j, c i j = fromAes (s i j)

theorem fromAes_bijective : Function.Bijective fromAes :=
  ⟨fun x y h => by rw [← (Aes.transform8_inverse x).1, ← (Aes.transform8_inverse y).1]; exact congrArg _ h,
    fun y => ⟨_, (Aes.transform8_inverse y).2⟩⟩

/-- Whatever the columns hold, it is a state, and only one. -/
theorem C79_represents (c : Fin 8 → Column) : ∃! s : State, Represents c s := by
  choose s hs using fun i j => fromAes_bijective.2 (c i j)
  refine ⟨s, fun i j => (hs i j).symm, fun s' h' => ?_⟩
  funext i j
  exact fromAes_bijective.1 ((h' i j).symm.trans (hs i j).symm)

theorem before_sound {pq : Variant} {stateIn : Fin 8 → Column} {rounds : Nat → Round} {s : State} (hs : Represents stateIn s)
    (h : Holds pq stateIn rounds) : ∀ r, r ≤ 10 → Represents (stateBefore stateIn rounds r)
      ((List.range r).foldl (fun s r => roundOf pq (BitVec.ofNat 8 r) s) s)
  | 0, _ => hs
  | r + 1, hr => by
    rw [List.range_succ, List.foldl_append]
    exact fun i j => round_sound (before_sound hs h r (by omega)) ⟨r, hr⟩ (h r hr) i j

/-- Soundness: whatever a prover puts in the columns, if the constraints hold in a row, then the output columns hold the
permutation of what the input columns hold. -/
theorem C79_sound (pq : Variant) (stateIn : Fin 8 → Column) (rounds : Nat → Round) (h : Holds pq stateIn rounds) (s : State)
    (hs : Represents stateIn s) : Represents (rounds 9).stateOut (permOf pq s) := by
  have := before_sound hs h 10 le_rfl
  cases pq <;> exact this

theorem before_populate (pq : Variant) (stateIn : Fin 8 → Column) (r : Nat) :
    populate pq stateIn r = Round.populate pq (stateBefore stateIn (populate pq stateIn) r) r := by
  cases r <;> rfl

/-- Completeness: for every input, what `populate` writes satisfies the constraints. -/
theorem C79_complete (pq : Variant) (stateIn : Fin 8 → Column) : Holds pq stateIn (populate pq stateIn) := by
  intro r _
  rw [before_populate]
  exact round_complete pq _ r

/-- The S-box alone, at every position. -/
theorem C79_sbox (input : Column) : (SBox.populate input).Holds input ∧
    ∀ s : SBox, s.Holds input → ∀ j a, input j = fromAes a → s.output j = fromAes (sbox a) :=
  ⟨sbox_complete input, fun _ h j a ha => sbox_sound h j a ha⟩

/-- The committed bits are forced: two witnesses for the same input that satisfy the constraints are the same in every round. -/
theorem C79_unique (pq : Variant) (stateIn : Fin 8 → Column) (rounds rounds' : Nat → Round) (h : Holds pq stateIn rounds)
    (h' : Holds pq stateIn rounds') (r : Nat) (hr : r < 10) (i b j : Fin 8) :
    ((rounds r).sbox i).invBits b j = ((rounds' r).sbox i).invBits b j := by
  obtain ⟨s, hs, -⟩ := C79_represents stateIn
  have e : stateBefore stateIn rounds r = stateBefore stateIn rounds' r := by
    funext i j
    rw [before_sound hs h r hr.le i j, before_sound hs h' r hr.le i j]
  obtain ⟨a1, a2, -⟩ := h r hr
  obtain ⟨b1, b2, -⟩ := h' r hr
  rw [a1] at a2
  rw [b1, ← e] at b2
  obtain ⟨p1, p2, p3, -⟩ := a2 i j
  obtain ⟨q1, q2, q3, -⟩ := b2 i j
  have hinv : ((rounds r).sbox i).inv j = ((rounds' r).sbox i).inv j := el_inj ((inv_forced p2 p3).trans (inv_forced q2 q3).symm)
  rw [← bits_pack (fun b => ((rounds r).sbox i).invBits b j) b, ← bits_pack (fun b => ((rounds' r).sbox i).invBits b j) b, ← p1, ← q1,
    hinv]

/-- In bytes: the input columns filled with the converted bytes of a state, the output columns of any witness read back as the
converted bytes of its permutation. -/
theorem C79_bytes (pq : Variant) (b : List (BitVec 8)) (hb : b.length = 64) (rounds : Nat → Round)
    (h : Holds pq (populateStateIn (b.map fromAes)) rounds) :
    readStateOut (rounds 9).stateOut = (toBytes (permOf pq (ofBytes b))).map fromAes := by
  have hs : Represents (populateStateIn (b.map fromAes)) (ofBytes b) := by
    intro i j
    have hi := i.isLt
    have hj := j.isLt
    rw [populateStateIn, ofBytes, Nat.mul_comm, List.getD_eq_getElem?_getD, List.getD_eq_getElem?_getD, List.getElem?_map,
      List.getElem?_eq_getElem (by omega)]
    rfl
  have hout := C79_sound pq _ rounds h _ hs
  unfold readStateOut
  simp only [hout _ _]
  generalize permOf pq (ofBytes b) = s
  rfl

/-- But `read_state_outs`, which only tests use, gives the states of the first `log_size` rows, not of all `2 ^ log_size`: so
the tests of 256 permutations compare 8 of them. -/
theorem C79_read_state_outs (logSize : Nat) (stateOut : Nat → Fin 8 → Column) :
    (readStateOuts logSize stateOut).length = logSize ∧ logSize < 2 ^ logSize := by
  rw [readStateOuts, List.length_map, List.length_range]
  exact ⟨rfl, Nat.lt_two_pow_self⟩

/-! ### Concrete cases -/

/-- A witness that satisfies the constraints, for the state of bytes `0, 1, …, 63`, and what it proves. -/
example : readStateOut (populate .Q (populateStateIn (((List.range 64).map (BitVec.ofNat 8)).map fromAes)) 9).stateOut =
    (toBytes (permQ (ofBytes ((List.range 64).map (BitVec.ofNat 8))))).map fromAes :=
  C79_bytes .Q _ (by rw [List.length_map, List.length_range]) _ (C79_complete _ _)

/-- The S-box of zero: the inverse must be zero. -/
example (s : SBox) (h : s.Holds fun _ => 0) : s.output 0 = fromAes 0x63 := by
  rw [(C79_sbox fun _ => 0).2 s h 0 0 (by decide)]
  decide +kernel

/-- Conversion moves bytes. -/
example : fromAes 2 = 0x3c ∧ fromAes 0xff ≠ 0xff := by decide

end Verif.M3.Groestl
