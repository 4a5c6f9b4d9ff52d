import Verif.Field.LemmasMove
import Verif.Field.ModelAes

namespace Verif.Field
open Table

/-! ## Log tables -/

/-- A log/exp table pair represents multiplication through a map to the tower. -/
theorem logTable_mul (F : BitVec 8 → U 3) (γ : U 3) (log exp : List (BitVec 8))
    (hF0 : toT (F 0) = 0)
    (h0 : ∃ e, exp[0]? = some e ∧ toT (F e) = 1)
    (hstep : ∀ i : Fin 254, ∃ a b, exp[i.val]? = some a ∧ exp[i.val + 1]? = some b ∧
      Scalar.mul γ (F a) = F b)
    (hwrap : ∃ e, exp[254]? = some e ∧ Scalar.mul γ (F e) = 1#_)
    (hlog : ∀ x : BitVec 8, x ≠ 0 → ∃ l, log[x.toNat]? = some l ∧ l.toNat ≤ 254 ∧
      exp[l.toNat]? = some x) (x y : BitVec 8) :
    ∃ z, multiply8bUsingLogTable x y log exp = some z ∧ toT (F z) = toT (F x) * toT (F y) := by
  have hpow : ∀ i, i ≤ 254 → ∃ e, exp[i]? = some e ∧ toT (F e) = toT γ ^ i := by
    intro i
    induction i with
    | zero => intro _; simpa using h0
    | succ i ih =>
      intro hi
      obtain ⟨a, b, ha, hb, hab⟩ := hstep ⟨i, by omega⟩
      obtain ⟨e, he, hv⟩ := ih (by omega)
      refine ⟨b, hb, ?_⟩
      have : a = e := Option.some.inj (ha.symm.trans he)
      rw [← hab, Scalar.toT_mul, this, hv, pow_succ']
  have hone : toT γ ^ 255 = 1 := by
    obtain ⟨e, he, hv⟩ := hwrap
    obtain ⟨e', he', hv'⟩ := hpow 254 le_rfl
    have : e = e' := Option.some.inj (he.symm.trans he')
    rw [pow_succ', ← hv', ← this, ← Scalar.toT_mul, hv, Scalar.toT_one]
  rw [multiply8bUsingLogTable]
  by_cases h : x ≠ 0 ∧ y ≠ 0
  · rw [if_pos h]
    obtain ⟨a, ha, hal, hax⟩ := hlog x h.1
    obtain ⟨b, hb, hbl, hby⟩ := hlog y h.2
    have vx : toT (F x) = toT γ ^ a.toNat := by
      obtain ⟨e, he, hv⟩ := hpow _ hal
      rw [← hv, Option.some.inj (hax.symm.trans he)]
    have vy : toT (F y) = toT γ ^ b.toNat := by
      obtain ⟨e, he, hv⟩ := hpow _ hbl
      rw [← hv, Option.some.inj (hby.symm.trans he)]
    simp only [ha, hb, Option.bind_eq_bind, Option.bind_some]
    by_cases hgt : a.toNat + b.toNat > 254
    · obtain ⟨e, he, hv⟩ := hpow (a.toNat + b.toNat - 255) (by omega)
      refine ⟨e, by rw [if_pos hgt]; exact he, ?_⟩
      rw [hv, vx, vy, ← pow_add]
      conv_rhs => rw [show a.toNat + b.toNat = 255 + (a.toNat + b.toNat - 255) by omega]
      rw [pow_add, hone, one_mul]
    · obtain ⟨e, he, hv⟩ := hpow (a.toNat + b.toNat) (by omega)
      refine ⟨e, by rw [if_neg hgt]; exact he, ?_⟩
      rw [hv, vx, vy, ← pow_add]
  · rw [if_neg h]
    refine ⟨0, rfl, ?_⟩
    have : x = 0 ∨ y = 0 := by
      by_contra hc
      exact h ⟨fun hx => hc (Or.inl hx), fun hy => hc (Or.inr hy)⟩
    rcases this with rfl | rfl
    · rw [hF0, zero_mul]
    · rw [hF0, mul_zero]

/-- The whole check of a log table pair as one boolean. -/
def logTableOk (F : BitVec 8 → U 3) (γ : U 3) (log exp : List (BitVec 8)) : Bool :=
  (F 0 == 0#_) && (exp[0]?.map F == some 1#_) &&
  ((List.range 254).all fun i => (exp[i]?.map fun a => Scalar.mul γ (F a)) == exp[i + 1]?.map F &&
    exp[i]?.isSome) &&
  (exp[254]?.map (fun a => Scalar.mul γ (F a)) == some 1#_) &&
  (log.length == 256) &&
  (log.zipIdx.all fun p => p.2 == 0 || (decide (p.1.toNat ≤ 254) &&
    exp[p.1.toNat]? == some (BitVec.ofNat 8 p.2)))

theorem logTable_mul_of_ok {F : BitVec 8 → U 3} {γ : U 3} {log exp : List (BitVec 8)}
    (h : logTableOk F γ log exp = true) (x y : BitVec 8) :
    ∃ z, multiply8bUsingLogTable x y log exp = some z ∧ toT (F z) = toT (F x) * toT (F y) := by
  simp only [logTableOk, Bool.and_eq_true, beq_iff_eq] at h
  obtain ⟨⟨⟨⟨⟨h1, h2⟩, h3⟩, h4⟩, h5⟩, h6⟩ := h
  refine logTable_mul F γ log exp (by rw [h1, Scalar.toT_zero]) ?_ ?_ ?_ ?_ x y
  · obtain ⟨e, he, hv⟩ := Option.map_eq_some_iff.mp h2
    exact ⟨e, he, by rw [hv, Scalar.toT_one]⟩
  · intro i
    have h := List.all_eq_true.mp h3 i.val (List.mem_range.mpr i.isLt)
    simp only [Bool.and_eq_true, beq_iff_eq] at h
    obtain ⟨h, hs⟩ := h
    obtain ⟨a, ha⟩ := Option.isSome_iff_exists.mp hs
    rw [ha, Option.map_some] at h
    obtain ⟨b, hb, hv⟩ := Option.map_eq_some_iff.mp h.symm
    exact ⟨a, b, ha, hb, hv.symm⟩
  · obtain ⟨e, he, hv⟩ := Option.map_eq_some_iff.mp h4
    exact ⟨e, he, hv⟩
  · intro x hx
    have hlt : x.toNat < log.length := by rw [h5]; exact x.isLt
    have h := List.all_eq_true.mp h6 (log[x.toNat], x.toNat)
      (List.mem_zipIdx_iff_getElem?.mpr (List.getElem?_eq_getElem hlt))
    simp only [Bool.or_eq_true, Bool.and_eq_true, beq_iff_eq, decide_eq_true_eq] at h
    have hne : x.toNat ≠ 0 := fun h0 => hx (BitVec.eq_of_toNat_eq (by simpa using h0))
    obtain ⟨h7, h8⟩ := h.resolve_left hne
    exact ⟨log[x.toNat], List.getElem?_eq_getElem hlt, h7, by rw [h8, BitVec.ofNat_toNat]; simp⟩

set_option maxRecDepth 100000 in
theorem binary_logTableOk : logTableOk id 0x13#8 logTable expTable = true := by decide +kernel

set_option maxRecDepth 100000 in
theorem aes_logTableOk :
    logTableOk (Aes.transform8 Aes.aesToBinaryBases) (Aes.transform8 Aes.aesToBinaryBases 0x03)
      aesLogTable aesExpTable = true := by decide +kernel

/-! ## The byte isomorphism -/

namespace Aes
open Scalar

/-- The image of a byte in the tower. -/
def φ8 (x : BitVec 8) : U 3 := transform8 aesToBinaryBases x

theorem transform8_xor (bs : List (BitVec 8)) (x y : BitVec 8) :
    transform8 bs (x ^^^ y) = transform8 bs x ^^^ transform8 bs y := by
  have key : ∀ (l : List (BitVec 8 × Nat)) (a b c : BitVec 8), c = a ^^^ b →
      l.foldl (fun acc p => acc ^^^ (if (x ^^^ y).getLsbD p.2 then p.1 else 0#8)) c =
      l.foldl (fun acc p => acc ^^^ (if x.getLsbD p.2 then p.1 else 0#8)) a ^^^
      l.foldl (fun acc p => acc ^^^ (if y.getLsbD p.2 then p.1 else 0#8)) b := by
    intro l
    induction l with
    | nil => intro a b c h; exact h
    | cons p l ih =>
      intro a b c h
      simp only [List.foldl_cons]
      apply ih
      rw [h, BitVec.getLsbD_xor]
      have swap : ∀ u v w z : BitVec 8, (u ^^^ v) ^^^ (w ^^^ z) = (u ^^^ w) ^^^ (v ^^^ z) := by
        intro u v w z
        rw [BitVec.xor_assoc, BitVec.xor_assoc, ← BitVec.xor_assoc v, BitVec.xor_comm v w,
          BitVec.xor_assoc w]
      rw [← swap]
      cases x.getLsbD p.2 <;> cases y.getLsbD p.2 <;> simp
  exact key _ _ _ _ (by simp)

theorem φ8_xor (x y : BitVec 8) : φ8 (x ^^^ y) = φ8 x ^^^ φ8 y := transform8_xor _ _ _

set_option maxRecDepth 100000 in
theorem aes_unary_tables : (∀ x : BitVec 8,
    (unaryOp aesMulAlphaMap x).map φ8 = some (Packed.mulAlpha (L := 3) 3 (φ8 x)) ∧
    (unaryOp aesSquareMap x).map φ8 = some (Scalar.square (φ8 x)) ∧
    (unaryOp aesInvertMap x).map φ8 = some (Scalar.invertOrZero (φ8 x))) := by
  decide +kernel

set_option maxRecDepth 100000 in
theorem transform8_inverse : ∀ x : BitVec 8,
    transform8 binaryToAesBases (transform8 aesToBinaryBases x) = x ∧
    transform8 aesToBinaryBases (transform8 binaryToAesBases x) = x := by decide +kernel

end Aes
end Verif.Field
