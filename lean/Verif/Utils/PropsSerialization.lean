import Verif.Utils.LemmasSerialization

/-!
# C01, C02: serialization

`t.ser m v cap` is the result of `serialize` into a buffer with room for `cap` bytes, `t.de m b` the
result of `deserialize` from the bytes `b`: the value and the unread rest.
-/

namespace Verif.Ser

/-- **C01.** If serializing succeeds, deserializing the bytes followed by anything returns the same
value and leaves exactly what followed. -/
theorem C01_roundtrip (m : Mode) (t : Ty) (ht : t.Supported) (v : t.Val) (cap : Nat)
    (bs suffix : List UInt8) (h : t.ser m v cap = .ok bs) :
    t.de m (bs ++ suffix) = .ok (v, suffix) := by
  have L := law_ty m t ht
  by_cases hf : t.Fits v
  · obtain ⟨bs', w, r⟩ := L.enc v hf
    rw [w cap] at h
    split at h
    · simp at h
    · simp only [Except.ok.injEq] at h
      rw [← h]; exact r suffix
  · obtain ⟨e, he⟩ := L.fail v hf cap
    rw [he] at h; simp at h

/-- **C01.** Serializing fails only if some `usize` or length in the value exceeds `u32::MAX`, or the
buffer is too small; in the latter case the error is `WriteBufferFull`, and the bytes written do not
depend on the room left. -/
theorem C01_serialize_result (m : Mode) (t : Ty) (ht : t.Supported) (v : t.Val) :
    (t.Fits v → ∃ bs, ∀ cap, t.ser m v cap =
      if cap < bs.length then .error .writeBufferFull else .ok bs) ∧
    (¬ t.Fits v → ∀ cap, ∃ e, t.ser m v cap = .error e) := by
  have L := law_ty m t ht
  refine ⟨fun hf => ?_, fun hf => L.fail v hf⟩
  obtain ⟨bs, w, _⟩ := L.enc v hf
  exact ⟨bs, w⟩

/-- **C02.** Every strict prefix of an encoding is rejected, with `NotEnoughBytes`. -/
theorem C02_truncated (m : Mode) (t : Ty) (ht : t.Supported) (v : t.Val) (cap : Nat)
    (bs p : List UInt8) (h : t.ser m v cap = .ok bs) (hp : p <+: bs) (hne : p ≠ bs) :
    t.de m p = .error .notEnoughBytes := by
  have hr := C01_roundtrip m t ht v cap bs [] h
  obtain ⟨used, hu, _, hpre⟩ := framed_ty m t _ _ _ hr
  simp only [List.append_nil] at hu
  rw [← hu] at hpre
  exact hpre p hp hne

/-- **C02.** Two values with the same encoding are equal. -/
theorem C02_injective (m : Mode) (t : Ty) (ht : t.Supported) (v w : t.Val) (c d : Nat)
    (bs : List UInt8) (hv : t.ser m v c = .ok bs) (hw : t.ser m w d = .ok bs) : v = w := by
  have h1 := C01_roundtrip m t ht v c bs [] hv
  have h2 := C01_roundtrip m t ht w d bs [] hw
  rw [h1] at h2
  simp only [Except.ok.injEq, Prod.mk.injEq] at h2
  exact h2.1

/-- **C02.** On arbitrary input, honest or not: a successful read consumes a definite prefix of the
input, the result does not depend on the bytes after it, and on every strict prefix of it the read
fails with `NotEnoughBytes`. -/
theorem C02_any_input (m : Mode) (t : Ty) (b rest : List UInt8) (v : t.Val)
    (h : t.de m b = .ok (v, rest)) :
    ∃ used, b = used ++ rest ∧ (∀ s, t.de m (used ++ s) = .ok (v, s)) ∧
      ∀ p, p <+: used → p ≠ used → t.de m p = .error .notEnoughBytes :=
  framed_ty m t b v rest h

/-! ## Where the code falls short -/

/-- An enum of `n` variants without fields. -/
def unitEnum : Nat → Variants
  | 0 => .nil
  | n + 1 => .cons .nil (unitEnum n)

/-- The last variant. -/
def lastVariant : (n : Nat) → (unitEnum (n + 1)).Val
  | 0 => .inl ()
  | n + 1 => .inr (lastVariant n)

/-- **C01**, finding: the variant index is written with `i as u8`, so in an enum with more than 256
variants variant 256 is read back as variant 0. -/
theorem C01_large_enum_not_roundtrip :
    (Ty.enum (unitEnum 257)).ser .native (lastVariant 256) 1 = .ok [0] ∧
    (Ty.enum (unitEnum 257)).de .native [0] = .ok (.inl (), []) := by
  constructor <;> rfl

/-- **C01**, finding: `OracleId` is written `as u32` without a check, so `OracleId::invalid()`
(`usize::MAX`) serializes successfully and is read back as a different id. -/
theorem C01_oracleId_truncates :
    ∃ bs, serOracleId (2 ^ 64 - 1) 4 = .ok bs ∧ deOracleId bs = .ok (2 ^ 32 - 1, []) :=
  ⟨[255, 255, 255, 255], rfl, rfl⟩

/-- **C01** for `OracleId`: ids that fit in 32 bits round-trip. -/
theorem C01_oracleId (x cap : Nat) (hx : x < 2 ^ 32) (bs s : List UInt8)
    (h : serOracleId x cap = .ok bs) : deOracleId (bs ++ s) = .ok (x, s) := by
  have hw := writes_uint 4 (x % 2 ^ 32) cap
  rw [serOracleId, hw] at h
  split at h
  · simp at h
  · simp only [Except.ok.injEq] at h
    rw [← h, Nat.mod_eq_of_lt hx]
    exact reads_uint' (n := 4) (by omega) s

/-- **C02**, limitation: reading is not injective on bytes; any non-zero byte is read as `true`. -/
theorem C02_bool_malleable : Ty.bool.de .native [2] = .ok (true, []) ∧
    Ty.bool.ser .native true 1 = .ok [1] := ⟨rfl, rfl⟩

/-! ## Concrete cases -/

/-- `enum { A(usize), B { x: u32, y: Vec<Option<u16>> }, C }`, as in the documentation of the derive
macro. -/
def myEnum : Ty :=
  .enum (.cons (.cons .usize .nil) (.cons (.cons (.uint 4) (.cons (.vec (.opt (.uint 2))) .nil))
    (.cons .nil .nil)))

example : myEnum.Supported := by
  simp [myEnum, Ty.Supported, Variants.Supported, Fields.Supported, Variants.count]

/-- `B { x: 42, y: [Some(1337), None] }`. -/
def myValue : myEnum.Val := .inr (.inl ((42#32 : BitVec 32), ([some (1337#16 : BitVec 16), none] : List (Option (BitVec 16))), ()))

example : myEnum.ser .native myValue 100 = .ok [1, 42, 0, 0, 0, 2, 0, 0, 0, 1, 57, 5, 0] := by
  rfl

example : myEnum.de .native [1, 42, 0, 0, 0, 2, 0, 0, 0, 1, 57, 5] = .error .notEnoughBytes := by
  rfl

example : myEnum.ser .native myValue 5 = .error .writeBufferFull := by rfl

example : ¬ Ty.usize.Fits (2 ^ 32 : Nat) := by
  show ¬ (2 ^ 32 ≤ u32Max); decide

end Verif.Ser
