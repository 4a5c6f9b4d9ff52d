import Verif.Field.ModelAes

/-!
# Byte serialization (model)

`crates/utils/src/serialization.rs`, the derive macros of `crates/macros/src/lib.rs`, and the field
instances of `crates/field`. A buffer to read is the list of its remaining bytes; a buffer to write
has a number of bytes still available (`remaining_mut`). The serializable Rust types are described by
a universe of type codes `Ty`; `Ty.Val` gives their values.
-/

namespace Verif.Ser
open Verif.Field

/-- `SerializationError`, `serialization.rs:33-53` (the variants reachable here). -/
inductive Err
  | writeBufferFull
  | notEnoughBytes
  | unknownEnumVariant (index : UInt8)
  | fromUtf8Error
  | usizeTooLarge (size : Nat)
  deriving DecidableEq, Repr

/-- `SerializationMode`, `serialization.rs:26-31`. -/
inductive Mode
  | native
  | canonicalTower
  deriving DecidableEq

/-! ## Primitive reads and writes -/

/-- A serializer: given the space left, the bytes written. -/
abbrev W := Nat → Except Err (List UInt8)

/-- A deserializer: the value and the bytes left unread. -/
abbrev R (α : Type) := List UInt8 → Except Err (α × List UInt8)

/-- `assert_enough_space_for` then `put_slice`, `serialization.rs:416-425`. -/
def put (bs : List UInt8) : W := fun cap =>
  if cap < bs.length then .error .writeBufferFull else .ok bs

/-- `assert_enough_data_for` then `copy_to_slice`, `serialization.rs:427-433`. -/
def take (n : Nat) : R (List UInt8) := fun b =>
  if b.length < n then .error .notEnoughBytes else .ok (b.take n, b.drop n)

/-- Two writes into the same buffer, the first error ends the call (`?`). -/
def W.seq (a b : W) : W := fun cap => do
  let x ← a cap
  let y ← b (cap - x.length)
  .ok (x ++ y)

/-- Nothing written: `Ok(())`. -/
def W.done : W := fun _ => .ok []

/-- Sequential reads from the same buffer. -/
def R.bind {α β : Type} (a : R α) (f : α → R β) : R β := fun s => do
  let (x, s') ← a s
  f x s'

def R.pure {α : Type} (x : α) : R α := fun b => .ok (x, b)

def R.fail {α : Type} (e : Err) : R α := fun _ => .error e

/-- `Result::map` of the value read. -/
def R.map {α β : Type} (f : α → β) (a : R α) : R β := a.bind fun x => R.pure (f x)

/-- `put_u{8,16,32,64,128}_le`: the `n` low bytes, least significant first. -/
def leBytes : Nat → Nat → List UInt8
  | 0, _ => []
  | n + 1, x => UInt8.ofNat (x % 256) :: leBytes n (x / 256)

/-- `get_u{8,16,32,64,128}_le`. -/
def ofLeBytes : List UInt8 → Nat
  | [] => 0
  | b :: bs => b.toNat + 256 * ofLeBytes bs

/-- `u8, u16, u32, u64, u128`: `serialization.rs:94-217`, for a width of `n` bytes. -/
def serUint (n : Nat) (x : Nat) : W := put (leBytes n x)

def deUint (n : Nat) : R Nat := (take n).map ofLeBytes

/-- `usize`, `serialization.rs:68-92`: as `u32`, failing when it does not fit. -/
def serUsize (x : Nat) : W := fun cap =>
  if x ≤ 4294967295 then serUint 4 x cap else .error (.usizeTooLarge x)

def deUsize : R Nat := deUint 4

/-- `bool`, `serialization.rs:219-236`. -/
def serBool (b : Bool) : W := serUint 1 (if b then 1 else 0)

def deBool : R Bool := (deUint 1).map (fun x => x != 0)

/-- `&str`/`String`, `serialization.rs:260-296`; `from_utf8` is Lean's UTF-8 validation. -/
def serStr (s : String) : W :=
  (serUsize s.toByteArray.data.toList.length).seq (put s.toByteArray.data.toList)

def deStr : R String :=
  deUsize.bind fun len => (take len).bind fun bs =>
    match String.fromUTF8? ⟨⟨bs⟩⟩ with
    | some s => R.pure s
    | none => R.fail .fromUtf8Error

/-- The items of a slice one after the other, `serialization.rs:305-306`. -/
def serItems {α : Type} (ser : α → W) : List α → W
  | [] => W.done
  | x :: xs => (ser x).seq (serItems ser xs)

/-- `(0..len).map(|_| deserialize).collect()`, `serialization.rs:329-331`. -/
def deItems {α : Type} (de : R α) : Nat → R (List α)
  | 0 => R.pure []
  | n + 1 => de.bind fun x => (deItems de n).map (fun xs => x :: xs)

/-- `Vec<T>`, `serialization.rs:298-333`. -/
def serVec {α : Type} (ser : α → W) (xs : List α) : W := (serUsize xs.length).seq (serItems ser xs)

def deVec {α : Type} (de : R α) : R (List α) := deUsize.bind (deItems de)

/-- `Option<T>`, `serialization.rs:335-367`. -/
def serOpt {α : Type} (ser : α → W) : Option α → W
  | some v => (serBool true).seq (ser v)
  | none => serBool false

def deOpt {α : Type} (de : R α) : R (Option α) :=
  deBool.bind fun t => if t then de.map some else R.pure none

/-- `(U, V)`, `serialization.rs:369-390`. -/
def serPair {α β : Type} (sa : α → W) (sb : β → W) (p : α × β) : W := (sa p.1).seq (sb p.2)

def dePair {α β : Type} (da : R α) (db : R β) : R (α × β) :=
  da.bind fun a => db.map fun b => (a, b)

/-- `GenericArray<u8, N>`, `serialization.rs:392-414`. -/
def deArray (n : Nat) : R { l : List UInt8 // l.length = n } := fun b =>
  if h : b.length < n then .error .notEnoughBytes
  else .ok (⟨b.take n, by simp; omega⟩, b.drop n)

/-- `SmallU<N>`, `underlier/small_uint.rs:246-263`: one byte, masked when read. -/
def serSmall {w : Nat} (x : BitVec w) : W := serUint 1 x.toNat

def deSmall (w : Nat) : R (BitVec w) := (deUint 1).map (BitVec.ofNat w)

/-- `AESTowerField{8,16,32,64,128}b`, `aes_field.rs:307-349`: in canonical mode the element is
converted to the canonical tower; `2^n` bytes. -/
def serAes (m : Mode) {n : Nat} (x : U (3 + n)) : W :=
  match m with
  | .native => serUint (2 ^ n) x.toNat
  | .canonicalTower => serUint (2 ^ n) (Aes.toBinary x).toNat

def deAes (m : Mode) (n : Nat) : R (U (3 + n)) :=
  match m with
  | .native => (deUint (2 ^ n)).map (BitVec.ofNat _)
  | .canonicalTower => (deUint (2 ^ n)).map fun v => Aes.ofBinary (BitVec.ofNat _ v)

/-! ## Type codes -/

mutual
/-- The serializable types. `uint n`: unsigned integers of `n` bytes, and the canonical tower fields
of 8 bits and more (`binary_field.rs:771-801`, the underlier's bytes). `small w`: `SmallU<w>` and the
tower fields of fewer than 8 bits. `aes n`: the AES tower fields. `struct`, `enum`: derived. -/
inductive Ty
  | uint (bytes : Nat)
  | usize
  | bool
  | phantom
  | str
  | vec (t : Ty)
  | opt (t : Ty)
  | pair (a b : Ty)
  | bytes (n : Nat)
  | small (w : Nat)
  | aes (n : Nat)
  | struct (fs : Fields)
  | enum (vs : Variants)

/-- The fields of a struct or of a variant, in declaration order. -/
inductive Fields
  | nil
  | cons (t : Ty) (fs : Fields)

/-- The variants of an enum, in declaration order. -/
inductive Variants
  | nil
  | cons (fs : Fields) (vs : Variants)
end

mutual
/-- The values of a type. -/
def Ty.Val : Ty → Type
  | .uint n => BitVec (8 * n)
  | .usize => Nat
  | .bool => Bool
  | .phantom => Unit
  | .str => String
  | .vec t => List t.Val
  | .opt t => Option t.Val
  | .pair a b => a.Val × b.Val
  | .bytes n => { l : List UInt8 // l.length = n }
  | .small w => BitVec w
  | .aes n => U (3 + n)
  | .struct fs => fs.Val
  | .enum vs => vs.Val

def Fields.Val : Fields → Type
  | .nil => Unit
  | .cons t fs => t.Val × fs.Val

def Variants.Val : Variants → Type
  | .nil => Empty
  | .cons fs vs => fs.Val ⊕ vs.Val
end

mutual
/-- `SerializeBytes::serialize`. -/
def Ty.ser (m : Mode) : (t : Ty) → t.Val → W
  | .uint n, x => serUint n (BitVec.toNat x)
  | .usize, x => serUsize x
  | .bool, x => serBool x
  | .phantom, _ => W.done
  | .str, x => serStr x
  | .vec t, x => serVec (t.ser m) x
  | .opt t, x => serOpt (t.ser m) x
  | .pair a b, x => serPair (a.ser m) (b.ser m) x
  | .bytes _, x => put x.val
  | .small w, x => serSmall (w := w) x
  | .aes _, x => serAes m x
  | .struct fs, x => fs.ser m x
  | .enum vs, x => vs.ser m 0 x

/-- Derived `serialize` of a struct: the fields in order, `macros/src/lib.rs:28-33`. -/
def Fields.ser (m : Mode) : (fs : Fields) → fs.Val → W
  | .nil, _ => W.done
  | .cons t fs, (x, y) => (t.ser m x).seq (fs.ser m y)

/-- Derived `serialize` of an enum: `i as u8`, then the fields, `macros/src/lib.rs:34-72`. `i` is the
index of the first variant of the list. -/
def Variants.ser (m : Mode) : (vs : Variants) → Nat → vs.Val → W
  | .nil, _, x => nomatch x
  | .cons fs _, i, .inl x => (serUint 1 (i % 256)).seq (fs.ser m x)
  | .cons _ vs, i, .inr x => vs.ser m (i + 1) x
end

mutual
/-- `DeserializeBytes::deserialize`. -/
def Ty.de (m : Mode) : (t : Ty) → R t.Val
  | .uint n => (deUint n).map (BitVec.ofNat (8 * n))
  | .usize => deUsize
  | .bool => deBool
  | .phantom => R.pure ()
  | .str => deStr
  | .vec t => deVec (t.de m)
  | .opt t => deOpt (t.de m)
  | .pair a b => dePair (a.de m) (b.de m)
  | .bytes n => deArray n
  | .small w => deSmall w
  | .aes n => deAes m n
  | .struct fs => fs.de m
  | .enum vs => (deUint 1).bind fun idx => vs.de m 0 idx

/-- Derived `deserialize` of a struct, `macros/src/lib.rs:185-192`. -/
def Fields.de (m : Mode) : (fs : Fields) → R fs.Val
  | .nil => R.pure ()
  | .cons t fs => (t.de m).bind fun x => (fs.de m).map fun y => (x, y)

/-- The `match variant_index` of a derived `deserialize`, `macros/src/lib.rs:193-246`; arms are tried
in order. -/
def Variants.de (m : Mode) : (vs : Variants) → Nat → Nat → R vs.Val
  | .nil, _, idx => R.fail (.unknownEnumVariant (UInt8.ofNat idx))
  | .cons fs vs, i, idx =>
    if i % 256 = idx then (fs.de m).map Sum.inl else (vs.de m (i + 1) idx).map Sum.inr
end

/-- `OracleId`, `core/src/oracle/oracle_id.rs:35-57`: `as u32`, without a range check. -/
def serOracleId (x : Nat) : W := serUint 4 (x % 2 ^ 32)

def deOracleId : R Nat := deUint 4

end Verif.Ser
