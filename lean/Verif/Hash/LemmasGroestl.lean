import Verif.Hash.LemmasGroestlTable
import Verif.Hash.LemmasHash

/-! The portable permutations are those of Grøstl. -/

set_option linter.dupNamespace false

namespace Verif.Hash.Groestl

/-- Byte `k` of a word, the most significant first. -/
def byteOf (w : BitVec 64) (k : Fin 8) : BitVec 8 := (w >>> (8 * (7 - k.val))).setWidth 8

/-- The matrix of a state. -/
def matrix (x : Words) : State := fun i j => byteOf (x j) i

theorem byteOf_xor (a b : BitVec 64) (k : Fin 8) : byteOf (a ^^^ b) k = byteOf a k ^^^ byteOf b k := by
  unfold byteOf
  rw [BitVec.ushiftRight_xor_distrib, BitVec.setWidth_xor]

theorem bytesN_byteOf (w : Nat) (k : Fin 8) : byteOf (BitVec.ofNat 64 w) k = BitVec.ofNat 8 ((bytesN w).getD k.val 0) := by
  apply BitVec.eq_of_toNat_eq
  have h : ∀ k : Fin 8, (bytesN w).getD k.val 0 = w / 256 ^ (7 - k.val) % 256 := by
    intro k; match k with | 0 => rfl | 1 => rfl | 2 => rfl | 3 => rfl | 4 => rfl | 5 => rfl | 6 => rfl | 7 => rfl
  rw [h, byteOf, BitVec.toNat_setWidth, BitVec.toNat_ushiftRight, BitVec.toNat_ofNat, BitVec.toNat_ofNat,
    Nat.shiftRight_eq_div_pow, Nat.pow_mul]
  show w % 2 ^ 64 / 256 ^ (7 - k.val) % 256 = w / 256 ^ (7 - k.val) % 256 % 256
  match k with
  | 0 => simp only [Fin.val_zero]; omega
  | 1 => show w % 2 ^ 64 / 256 ^ 6 % 256 = w / 256 ^ 6 % 256 % 256; omega
  | 2 => show w % 2 ^ 64 / 256 ^ 5 % 256 = w / 256 ^ 5 % 256 % 256; omega
  | 3 => show w % 2 ^ 64 / 256 ^ 4 % 256 = w / 256 ^ 4 % 256 % 256; omega
  | 4 => show w % 2 ^ 64 / 256 ^ 3 % 256 = w / 256 ^ 3 % 256 % 256; omega
  | 5 => show w % 2 ^ 64 / 256 ^ 2 % 256 = w / 256 ^ 2 % 256 % 256; omega
  | 6 => show w % 2 ^ 64 / 256 ^ 1 % 256 = w / 256 ^ 1 % 256 % 256; omega
  | 7 => show w % 2 ^ 64 / 256 ^ 0 % 256 = w / 256 ^ 0 % 256 % 256; omega

theorem rot_map (i : Nat) (f : BitVec 8 → Nat) (l : List (BitVec 8)) :
    rot i (l.map f) = (l.drop (8 - i) ++ l.take (8 - i)).map f := by
  rw [rot, List.map_append, List.map_drop, List.map_take]

/-- The entries of the table. -/
theorem entry_ok (i k : Fin 8) (b : BitVec 8) : byteOf (entry i.val b.toNat) k = mul (circ (i - k)) (sbox b) := by
  have hb := b.isLt
  have h1 : (table.getD i.val []).map bytesN = sboxes.map fun s => (coeffs i).map fun c => (mul c (BitVec.ofNat 8 s)).toNat := by
    rw [table_rot, table0_ok, List.map_map]
    refine List.map_congr_left fun s _ => ?_
    rw [Function.comp_apply, rot_map, coeffs_rot]
  have h2 : ((table.getD i.val []).map bytesN)[b.toNat]? = some ((coeffs i).map fun c => (mul c (sbox b)).toNat) := by
    rw [h1, sboxes_ok, List.map_map, List.getElem?_map, List.getElem?_range hb]
    simp
  rw [List.getElem?_map] at h2
  rw [entry, bytesN_byteOf, List.getD_eq_getElem?_getD (l := table.getD i.val [])]
  rcases hx : (table.getD i.val [])[b.toNat]? with _ | w
  · rw [hx] at h2; simp at h2
  · rw [hx, Option.map_some, Option.some.injEq] at h2
    rw [Option.getD_some, h2, coeffs, List.map_map, List.getD_eq_getElem?_getD, List.getElem?_map,
      List.getElem?_eq_getElem (by rw [List.length_finRange]; exact k.isLt)]
    simp

theorem foldl_byteOf (f : Fin 8 → BitVec 64) (g : Fin 8 → BitVec 8) (k : Fin 8) (h : ∀ i, byteOf (f i) k = g i) :
    ∀ (l : List (Fin 8)) (t : BitVec 64) (u : BitVec 8), byteOf t k = u →
      byteOf (l.foldl (fun t i => t ^^^ f i) t) k = l.foldl (fun t i => t ^^^ g i) u
  | [], _, _, h0 => h0
  | i :: l, t, u, h0 => by
    rw [List.foldl_cons, List.foldl_cons]
    exact foldl_byteOf f g k h l _ _ (by rw [byteOf_xor, h, h0])

theorem column_ok (x : Words) (c : Fin 8 → Fin 8) (k : Fin 8) :
    byteOf (column x c) k = (List.finRange 8).foldl (fun t i => t ^^^ mul (circ (i - k)) (sbox (byteOf (x (c i)) i))) 0 := by
  unfold column
  refine foldl_byteOf _ _ k (fun i => ?_) _ _ _ (by simp [byteOf])
  rw [show ((x (c i) >>> (8 * (7 - i.val))) &&& 0xFF).toNat = (byteOf (x (c i)) i).toNat from ?_, entry_ok]
  rw [byteOf, BitVec.toNat_setWidth, BitVec.toNat_and]
  exact Nat.and_two_pow_sub_one_eq_mod _ 8

theorem columnsP_ok : ∀ n i : Fin 8, (columnsP.getD n.val []).getD i.val 0 = n + shiftsP i := by decide +kernel
theorem columnsQ_ok : ∀ n i : Fin 8, (columnsQ.getD n.val []).getD i.val 0 = n + shiftsQ i := by decide +kernel

theorem constP : ∀ (r : Fin 10) (i j : Fin 8), byteOf ((BitVec.ofNat 64 j.val <<< 60) ^^^ (BitVec.ofNat 64 r.val <<< 56)) i =
    if i = 0 then high j ^^^ BitVec.ofNat 8 r.val else 0 := by decide +kernel
theorem constQ : ∀ (r : Fin 10) (i j : Fin 8),
    byteOf ((BitVec.allOnes 64 - (BitVec.ofNat 64 j.val <<< 4)) ^^^ BitVec.ofNat 64 r.val) i =
    if i = 7 then 0xff ^^^ (high j ^^^ BitVec.ofNat 8 r.val) else 0xff := by decide +kernel

theorem rndp_ok (x : Words) (r : Fin 10) : matrix (rndp x (BitVec.ofNat 64 r.val <<< 56)) = roundP (BitVec.ofNat 8 r.val) (matrix x) := by
  funext k n
  rw [matrix, rndp, column_ok]
  unfold roundP mix shift sub
  congr 1
  funext t i
  rw [columnsP_ok, byteOf_xor, constP]
  unfold addP matrix
  split
  · rw [BitVec.xor_assoc]
  · rw [show byteOf (x (n + shiftsP i)) i ^^^ 0 = byteOf (x (n + shiftsP i)) i from BitVec.xor_zero]

theorem rndq_ok (x : Words) (r : Fin 10) : matrix (rndq x (BitVec.ofNat 64 r.val)) = roundQ (BitVec.ofNat 8 r.val) (matrix x) := by
  funext k n
  rw [matrix, rndq, column_ok]
  unfold roundQ mix shift sub
  congr 1
  funext t i
  rw [columnsQ_ok, byteOf_xor, constQ]
  unfold addQ matrix
  split
  · rw [BitVec.xor_assoc, BitVec.xor_assoc]
  · rfl

theorem foldl_rounds {f : Words → Nat → Words} {g : State → Nat → State} (h : ∀ x (r : Fin 10), matrix (f x r.val) = g (matrix x) r.val) :
    ∀ (l : List Nat) (x : Words), (∀ r ∈ l, r < 10) → matrix (l.foldl f x) = l.foldl g (matrix x)
  | [], _, _ => rfl
  | r :: l, x, hl => by
    rw [List.foldl_cons, List.foldl_cons, foldl_rounds h l _ fun r hr => hl r (List.mem_cons_of_mem _ hr),
      h x ⟨r, hl r List.mem_cons_self⟩]

theorem p_ok (x : Words) : matrix (p x) = permP (matrix x) :=
  foldl_rounds (fun x r => rndp_ok x r) _ x fun _ hr => List.mem_range.1 hr
theorem q_ok (x : Words) : matrix (q x) = permQ (matrix x) :=
  foldl_rounds (fun x r => rndq_ok x r) _ x fun _ hr => List.mem_range.1 hr

theorem xorState_ok (x y : Words) : matrix (xorState x y) = add (matrix x) (matrix y) := by
  funext i j
  exact byteOf_xor _ _ _

theorem byteOf_append (b0 b1 b2 b3 b4 b5 b6 b7 : BitVec 8) (k : Fin 8) :
    byteOf (b0 ++ b1 ++ b2 ++ b3 ++ b4 ++ b5 ++ b6 ++ b7) k = [b0, b1, b2, b3, b4, b5, b6, b7].getD k.val 0 := by
  apply BitVec.eq_of_toNat_eq
  have h0 := b0.isLt; have h1 := b1.isLt; have h2 := b2.isLt; have h3 := b3.isLt
  have h4 := b4.isLt; have h5 := b5.isLt; have h6 := b6.isLt; have h7 := b7.isLt
  have ha : ∀ {n : Nat} (x : BitVec n) (y : BitVec 8), (x ++ y).toNat = 256 * x.toNat + y.toNat := by
    intro n x y
    rw [BitVec.toNat_append, ← Nat.shiftLeft_add_eq_or_of_lt y.isLt, Nat.shiftLeft_eq]; omega
  rw [byteOf, BitVec.toNat_setWidth, BitVec.toNat_ushiftRight, Nat.shiftRight_eq_div_pow]
  simp only [ha]
  match k with
  | 0 => show _ / 2 ^ 56 % 2 ^ 8 = b0.toNat; omega
  | 1 => show _ / 2 ^ 48 % 2 ^ 8 = b1.toNat; omega
  | 2 => show _ / 2 ^ 40 % 2 ^ 8 = b2.toNat; omega
  | 3 => show _ / 2 ^ 32 % 2 ^ 8 = b3.toNat; omega
  | 4 => show _ / 2 ^ 24 % 2 ^ 8 = b4.toNat; omega
  | 5 => show _ / 2 ^ 16 % 2 ^ 8 = b5.toNat; omega
  | 6 => show _ / 2 ^ 8 % 2 ^ 8 = b6.toNat; omega
  | 7 => show _ / 2 ^ 0 % 2 ^ 8 = b7.toNat; omega

theorem stateFromBytes_ok (b : Bytes) : matrix (stateFromBytes b) = ofBytes b := by
  funext i j
  rw [matrix, stateFromBytes, fromBe, byteOf_append, ofBytes]
  match i with | 0 => rfl | 1 => rfl | 2 => rfl | 3 => rfl | 4 => rfl | 5 => rfl | 6 => rfl | 7 => rfl

theorem stateToBytes_ok (x : Words) : stateToBytes x = toBytes (matrix x) := rfl

theorem add_comm (s t : State) : add s t = add t s := by
  funext i j; exact BitVec.xor_comm _ _
theorem add_assoc (s t u : State) : add (add s t) u = add s (add t u) := by
  funext i j; exact BitVec.xor_assoc _ _ _

theorem compressWords_ok (h : Words) (b : Bytes) : matrix (compressWords h b) = compress (matrix h) b := by
  have : compressWords h b = xorState h (xorState (q (stateFromBytes b)) (p (xorState h (stateFromBytes b)))) := rfl
  rw [this, xorState_ok, xorState_ok, q_ok, p_ok, xorState_ok, stateFromBytes_ok, compress,
    add_comm (permP _), add_comm _ (matrix h)]

theorem compressDefault_ok (h : Words) (b : Bytes) : matrix (compressDefault h b) = compress (matrix h) b := by
  show matrix (xorState (xorState h (p (xorState h (stateFromBytes b)))) (q (stateFromBytes b))) = _
  rw [xorState_ok, xorState_ok, q_ok, p_ok, xorState_ok, stateFromBytes_ok, compress, add_assoc, add_comm (matrix h)]

theorem output_portable (x : Words) : portable.output x = Groestl.output (matrix x) := by
  show (stateToBytes (xorState x (p x))).drop 32 = _
  rw [stateToBytes_ok, xorState_ok, p_ok, Groestl.output, add_comm]

theorem iv_portable : matrix portable.iv = initial := by
  show matrix (stateFromBytes _) = _
  rw [stateFromBytes_ok, initial]
  congr 1

theorem foldl_portable : ∀ (bs : List Bytes) (x : Words), matrix (bs.foldl portable.compress x) = bs.foldl Groestl.compress (matrix x)
  | [], _ => rfl
  | b :: bs, x => by
    rw [List.foldl_cons, List.foldl_cons, foldl_portable bs, show portable.compress x b = compressWords x b from rfl, compressWords_ok]

theorem portable_ok (m : Bytes) : merkleDamgard portable.iv portable.compress portable.output m = groestl256 m := by
  rw [merkleDamgard, output_portable, foldl_portable, iv_portable]; rfl

end Verif.Hash.Groestl
