import Verif.Field.LemmasTables

namespace Verif.Field.Aes
open Table Scalar Packed

variable {n : Nat}

theorem hk (n : Nat) : 3 ≤ 3 + n := by omega
theorem sub3 (n : Nat) : 3 + n - 3 = n := by omega

theorem getSub_toBinary {i : Nat} (hi : i < 2 ^ n) (x : U (3 + n)) :
    getSub 3 i (toBinary x) = φ8 (getSub 3 i x) := by
  rw [toBinary, getSub_fromFn (hk n) (by rw [sub3]; exact hi)]; rfl

theorem getSub_ofBinary {i : Nat} (hi : i < 2 ^ n) (x : U (3 + n)) :
    getSub 3 i (ofBinary x) = transform8 binaryToAesBases (getSub 3 i x) := by
  rw [ofBinary, getSub_fromFn (hk n) (by rw [sub3]; exact hi)]

theorem ext8 {x y : U (3 + n)} (h : ∀ i < 2 ^ n, getSub 3 i x = getSub 3 i y) : x = y :=
  getSub_ext (hk n) fun i hi => h i (by rwa [sub3] at hi)

theorem ofBinary_toBinary (x : U (3 + n)) : ofBinary (toBinary x) = x :=
  ext8 fun i hi => by
    rw [getSub_ofBinary hi, getSub_toBinary hi]; exact (transform8_inverse _).1

theorem toBinary_ofBinary (x : U (3 + n)) : toBinary (ofBinary x) = x :=
  ext8 fun i hi => by
    rw [getSub_toBinary hi, getSub_ofBinary hi]; exact (transform8_inverse _).2

theorem toBinary_xor (x y : U (3 + n)) : toBinary (x ^^^ y) = toBinary x ^^^ toBinary y :=
  ext8 fun i hi => by
    rw [getSub_toBinary hi, getSub_xor, getSub_xor, getSub_toBinary hi, getSub_toBinary hi, φ8_xor]

theorem getSub_split_fst {k j i : Nat} (hi : i < 2 ^ (k - j)) (hj : j ≤ k) (x : U (k + 1)) :
    getSub j i (split x).1 = getSub j i x := by
  refine getSub_congr fun b hb => ?_
  rw [split, BitVec.getLsbD_setWidth]
  simp [idx_lt hj hi hb]

theorem getSub_split_snd {k j i : Nat} (hi : i < 2 ^ (k - j)) (hj : j ≤ k) (x : U (k + 1)) :
    getSub j i (split x).2 = getSub j (i + 2 ^ (k - j)) x := by
  refine getSub_congr fun b hb => ?_
  rw [split, BitVec.getLsbD_setWidth, BitVec.getLsbD_ushiftRight]
  have e : 2 ^ k = 2 ^ (k - j) * 2 ^ j := by rw [← Nat.pow_add]; congr 1; omega
  rw [show (i + 2 ^ (k - j)) * 2 ^ j + b = 2 ^ k + (i * 2 ^ j + b) by rw [e]; ring]
  simp [idx_lt hj hi hb]

theorem split_join {k : Nat} (a b : U k) : split (join a b) = (a, b) := by
  have h := (split_eq (join a b)).symm.trans (toT_join a b)
  have h1 := congrArg Prod.fst h
  have h2 := congrArg Prod.snd h
  exact Prod.ext (toT_injective h1) (toT_injective h2)

theorem split_toBinary (x : U (3 + (n + 1))) :
    split (k := 3 + n) (toBinary x) =
      (toBinary (split (k := 3 + n) x).1, toBinary (split (k := 3 + n) x).2) := by
  have hp : 2 ^ (n + 1) = 2 ^ n + 2 ^ n := two_pow_split n
  refine Prod.ext (ext8 fun i hi => ?_) (ext8 fun i hi => ?_)
  · show getSub 3 i (split (k := 3 + n) (toBinary x)).1 = _
    rw [getSub_split_fst (by rw [sub3]; exact hi) (hk n), getSub_toBinary (by omega),
      getSub_toBinary hi, getSub_split_fst (by rw [sub3]; exact hi) (hk n)]
  · show getSub 3 i (split (k := 3 + n) (toBinary x)).2 = _
    rw [getSub_split_snd (by rw [sub3]; exact hi) (hk n), sub3, getSub_toBinary (by omega),
      getSub_toBinary hi, getSub_split_snd (by rw [sub3]; exact hi) (hk n), sub3]

/-- The tower element denoted by an AES tower scalar. -/
def Φ (n : Nat) (x : U (3 + n)) : T (3 + n) := toT (toBinary x)

theorem Φ_injective : Function.Injective (Φ n) := by
  intro x y h
  rw [← ofBinary_toBinary x, ← ofBinary_toBinary y, toT_injective h]

theorem Φ_xor (x y : U (3 + n)) : Φ n (x ^^^ y) = Φ n x + Φ n y := by
  rw [Φ, toBinary_xor]; exact toT_add _ _

theorem Φ_split (x : U (3 + (n + 1))) :
    Φ (n + 1) x = (Φ n (split (k := 3 + n) x).1, Φ n (split (k := 3 + n) x).2) := by
  have h := split_eq (k := 3 + n) (toBinary x)
  rw [split_toBinary] at h
  exact h

theorem Φ_join (a b : U (3 + n)) : Φ (n + 1) (join a b) = (Φ n a, Φ n b) := by
  rw [Φ_split]
  exact Prod.ext (congrArg (Φ n) (congrArg Prod.fst (split_join a b)))
    (congrArg (Φ n) (congrArg Prod.snd (split_join a b)))

theorem Φ_zero_eq (x : U 3) : Φ 0 x = toT (k := 3) (φ8 x) := by
  have : toBinary (n := 0) x = φ8 x := ext8 (n := 0) fun i hi => by
    obtain rfl : i = 0 := by simpa using hi
    rw [getSub_toBinary (n := 0) hi]
    have e : ∀ y : U 3, getSub 3 0 y = y := by
      intro y
      apply BitVec.eq_of_getLsbD_eq
      intro j hj
      rw [getLsbD_getSub]; simp; intro _; exact hj
    rw [e]; exact (e _).symm
  rw [Φ, this]

theorem unary_ok (t : List (BitVec 8)) (g : U 3 → U 3) (x : BitVec 8)
    (h : (unaryOp t x).map φ8 = some (g (φ8 x))) :
    ∃ z, unaryOp t x = some z ∧ Φ 0 z = toT (k := 3) (g (φ8 x)) := by
  obtain ⟨z, hz, hv⟩ := Option.map_eq_some_iff.mp h
  exact ⟨z, hz, by rw [Φ_zero_eq, hv]⟩

theorem Φ_mulAlpha : ∀ (n : Nat) (a : U (3 + n)),
    ∃ z, mulAlpha n a = some z ∧ Φ n z = T.mulAlpha (3 + n) (Φ n a) := by
  intro n
  induction n with
  | zero =>
    intro a
    obtain ⟨z, hz, hv⟩ := unary_ok _ _ a (aes_unary_tables a).1
    refine ⟨z, hz, hv.trans ?_⟩
    rw [Φ_zero_eq]
    exact lane_mulAlpha 3 le_rfl 0 (by decide) (φ8 a)
  | succ n ih =>
    intro a
    obtain ⟨z1, h1, v1⟩ := ih (split (k := 3 + n) a).2
    refine ⟨_, by simp only [mulAlpha, h1, Option.bind_eq_bind, Option.bind_some]; rfl, ?_⟩
    rw [Φ_join, Φ_xor, v1, Φ_split a]
    rfl

theorem Φ_mul : ∀ (n : Nat) (a b : U (3 + n)),
    ∃ z, mul n a b = some z ∧ Φ n z = Φ n a * Φ n b := by
  intro n
  induction n with
  | zero =>
    intro a b
    obtain ⟨z, hz, hv⟩ := logTable_mul_of_ok aes_logTableOk a b
    refine ⟨z, hz, ?_⟩
    rw [Φ_zero_eq, Φ_zero_eq, Φ_zero_eq]
    exact hv
  | succ n ih =>
    intro a b
    obtain ⟨z0, h0, v0⟩ := ih (split (k := 3 + n) a).1 (split (k := 3 + n) b).1
    obtain ⟨z2, h2, v2⟩ := ih (split (k := 3 + n) a).2 (split (k := 3 + n) b).2
    obtain ⟨m, hm, vm⟩ := ih ((split (k := 3 + n) a).1 ^^^ (split (k := 3 + n) a).2)
      ((split (k := 3 + n) b).1 ^^^ (split (k := 3 + n) b).2)
    obtain ⟨z2a, ha, va⟩ := Φ_mulAlpha n z2
    refine ⟨_, by simp only [mul, h0, h2, hm, ha, Option.bind_eq_bind, Option.bind_some]; rfl, ?_⟩
    rw [Φ_join, Φ_xor, Φ_xor, Φ_xor, Φ_xor, v0, v2, vm, va, v2, Φ_xor, Φ_xor, Φ_split a, Φ_split b]
    rfl

theorem Φ_square : ∀ (n : Nat) (a : U (3 + n)),
    ∃ z, square n a = some z ∧ Φ n z = T.square (3 + n) (Φ n a) := by
  intro n
  induction n with
  | zero =>
    intro a
    obtain ⟨z, hz, hv⟩ := unary_ok _ _ a (aes_unary_tables a).2.1
    refine ⟨z, hz, hv.trans ?_⟩
    rw [Φ_zero_eq]
    exact toT_square (k := 3) (φ8 a)
  | succ n ih =>
    intro a
    obtain ⟨z0, h0, v0⟩ := ih (split (k := 3 + n) a).1
    obtain ⟨z2, h2, v2⟩ := ih (split (k := 3 + n) a).2
    obtain ⟨z2a, ha, va⟩ := Φ_mulAlpha n z2
    refine ⟨_, by simp only [square, h0, h2, ha, Option.bind_eq_bind, Option.bind_some]; rfl, ?_⟩
    rw [Φ_join, Φ_xor, v0, va, v2, Φ_split a]
    rfl

theorem Φ_inv : ∀ (n : Nat) (a : U (3 + n)),
    ∃ z, invertOrZero n a = some z ∧ Φ n z = (Φ n a)⁻¹ := by
  intro n
  induction n with
  | zero =>
    intro a
    obtain ⟨z, hz, hv⟩ := unary_ok _ _ a (aes_unary_tables a).2.2
    refine ⟨z, hz, hv.trans ?_⟩
    rw [Φ_zero_eq]
    exact toT_inv (k := 3) (φ8 a)
  | succ n ih =>
    intro a
    obtain ⟨t, ht, vt⟩ := Φ_mulAlpha n (split (k := 3 + n) a).2
    obtain ⟨p, hp, vp⟩ := Φ_mul n (split (k := 3 + n) a).1 ((split (k := 3 + n) a).1 ^^^ t)
    obtain ⟨q, hq, vq⟩ := Φ_square n (split (k := 3 + n) a).2
    obtain ⟨d, hd, vd⟩ := ih (p ^^^ q)
    obtain ⟨i0, h0, v0⟩ := Φ_mul n d ((split (k := 3 + n) a).1 ^^^ t)
    obtain ⟨i1, h1, v1⟩ := Φ_mul n d (split (k := 3 + n) a).2
    refine ⟨_, by
      simp only [invertOrZero, ht, hp, hq, hd, h0, h1, Option.bind_eq_bind, Option.bind_some]; rfl, ?_⟩
    rw [Φ_join, v0, v1, vd, Φ_xor, Φ_xor, vp, Φ_xor, vq, vt, Φ_split a]
    rfl

end Verif.Field.Aes
