import Verif.Utils.ModelSerialization

/-!
# The Fiat–Shamir challenger (model)

`crates/core/src/fiat_shamir/hasher_challenger.rs`. A hash function in progress is the list of the
bytes it has absorbed since it was last reset: `Digest::update` appends, `finalize_reset` returns the
digest of the bytes and empties the list. The default methods of the `bytes` crate through which the
buffers are used (`put_slice`, `copy_to_slice`, `get_u8`) are written out, because the code relies on
how they call `chunk`, `advance`, `chunk_mut` and `advance_mut`.

A loop carries a bound on its number of turns; running out of it is `none`, as is a panic. The
theorems show that this never happens.
-/

namespace Verif.Transcript
open Verif.Ser (leBytes)

abbrev Bytes := List UInt8

/-- The hash function `H`: `Digest::output_size`, `BlockSizeUser::block_size`, and the digest of the
bytes absorbed. -/
structure HashFn where
  hash : Bytes → Bytes
  out : Nat
  block : Nat
  hash_length : ∀ x, (hash x).length = out
  out_pos : 0 < out
  block_pos : 0 < block
  out_lt : out < 2 ^ 64

/-- `HasherSampler`, `hasher_challenger.rs:13-19`. -/
structure Sampler where
  index : Nat
  buffer : Bytes
  hasher : Bytes
  deriving DecidableEq

/-- `HasherObserver`, `hasher_challenger.rs:21-27`. -/
structure Observer where
  index : Nat
  buffer : Bytes
  hasher : Bytes
  deriving DecidableEq

/-- `HasherChallenger`, `hasher_challenger.rs:29-36`. -/
inductive Challenger
  | observer (o : Observer)
  | sampler (s : Sampler)
  deriving DecidableEq

variable (H : HashFn)

/-- `HasherChallenger::new`, `hasher_challenger.rs:42-51`. -/
def Challenger.new (initial : Bytes) : Challenger :=
  .sampler { hasher := [] ++ initial, index := 0, buffer := initial }

/-- `Default`, `hasher_challenger.rs:54-61`. -/
def Challenger.default : Challenger := Challenger.new (H.hash [])

/-- `HasherSampler::into_observer`, `hasher_challenger.rs:97-105`: `usize::to_le_bytes` is 8 bytes. -/
def Sampler.intoObserver (s : Sampler) : Observer :=
  { hasher := s.hasher ++ leBytes 8 s.index, index := 0, buffer := List.replicate H.block 0 }

/-- `HasherSampler::fill_buffer`, `hasher_challenger.rs:112-120`. -/
def Sampler.fillBuffer (s : Sampler) : Sampler :=
  { hasher := [] ++ H.hash s.hasher, buffer := H.hash s.hasher, index := 0 }

/-- `HasherObserver::flush`, `hasher_challenger.rs:141-144`. -/
def Observer.flush (o : Observer) : Observer :=
  { o with hasher := o.hasher ++ o.buffer.take o.index, index := 0 }

/-- `HasherObserver::into_sampler`, `hasher_challenger.rs:127-134`. -/
def Observer.intoSampler (o : Observer) : Sampler :=
  { hasher := o.flush.hasher, index := H.out, buffer := List.replicate H.out 0 }

/-- `Challenger::observer`, `hasher_challenger.rs:65-76`. -/
def Challenger.toObserver : Challenger → Observer
  | .observer o => o
  | .sampler s => s.intoObserver H

/-- `Challenger::sampler`, `hasher_challenger.rs:79-90`. -/
def Challenger.toSampler : Challenger → Sampler
  | .sampler s => s
  | .observer o => o.intoSampler H

/-! ## Reading: `Buf for HasherSampler` -/

/-- `chunk`, `hasher_challenger.rs:155-157`. -/
def Sampler.chunk (s : Sampler) : Bytes := s.buffer.drop s.index

/-- The loop of `advance`, `hasher_challenger.rs:165-173`. -/
def Sampler.advanceLoop : Nat → Sampler → Nat → Option Sampler
  | 0, _, _ => none
  | fuel + 1, s, cnt =>
    if cnt = 0 then some s
    else
      let remaining := min (H.out - s.index) cnt
      if remaining = 0 then Sampler.advanceLoop fuel (s.fillBuffer H) cnt
      else Sampler.advanceLoop fuel { s with index := s.index + remaining } (cnt - remaining)

/-- `advance`, `hasher_challenger.rs:159-174`. -/
def Sampler.advance (s : Sampler) (cnt : Nat) : Option Sampler :=
  let s := if s.index = H.out then s.fillBuffer H else s
  Sampler.advanceLoop H (2 * cnt + 2) s cnt

/-- The loop of `Buf::copy_to_slice` (`bytes`): copies what `chunk` shows, at most `n` bytes, and
advances by as much, until `n` bytes are copied. An empty chunk leads to `advance(0)`. -/
def Sampler.copyLoop : Nat → Sampler → Nat → Bytes → Option (Bytes × Sampler)
  | 0, _, _, _ => none
  | fuel + 1, s, n, acc =>
    if n = 0 then some (acc, s)
    else
      let src := s.chunk
      let cnt := min src.length n
      (s.advance H cnt).bind fun s' =>
        Sampler.copyLoop fuel s' (n - cnt) (acc ++ src.take cnt)

/-- `Buf::copy_to_slice` into a slice of `n` bytes. -/
def Sampler.copyToSlice (s : Sampler) (n : Nat) : Option (Bytes × Sampler) :=
  Sampler.copyLoop H (2 * n + 2) s n []

/-- `Buf::get_u8` (`bytes`): `chunk()[0]`, then `advance(1)`; the index panics on an empty chunk. -/
def Sampler.getU8 (s : Sampler) : Option (UInt8 × Sampler) :=
  s.chunk[0]?.bind fun b => (s.advance H 1).map fun s' => (b, s')

/-- `Buf::get_u16_le`, …, `get_u128_le` (`bytes`), up to the interpretation of the `n` bytes: if the
chunk holds `n` bytes they are taken from it and the buffer advances, otherwise `copy_to_slice`. -/
def Sampler.getUint (s : Sampler) (n : Nat) : Option (Bytes × Sampler) :=
  if n ≤ s.chunk.length then (s.advance H n).map fun s' => (s.chunk.take n, s')
  else s.copyToSlice H n

/-! ## Writing: `BufMut for HasherObserver` -/

/-- `advance_mut`, `hasher_challenger.rs:185-194`. -/
def Observer.advanceLoop : Nat → Observer → Nat → Option Observer
  | 0, _, _ => none
  | fuel + 1, o, cnt =>
    if cnt = 0 then some o
    else
      let remaining := min (H.block - o.index) cnt
      let o' := { o with index := o.index + remaining }
      Observer.advanceLoop fuel (if o'.index = H.block then o'.flush else o') (cnt - remaining)

/-- `advance_mut`, `hasher_challenger.rs:185-194`. -/
def Observer.advanceMut (o : Observer) (cnt : Nat) : Option Observer :=
  Observer.advanceLoop H (cnt + 1) o cnt

/-- Writing `bs` at the start of `chunk_mut()`, `hasher_challenger.rs:196-199`. -/
def Observer.writeChunk (o : Observer) (bs : Bytes) : Observer :=
  { o with buffer := o.buffer.take o.index ++ bs ++ o.buffer.drop (o.index + bs.length) }

/-- The loop of `BufMut::put_slice` (`bytes`): copies as much as `chunk_mut` takes and advances. -/
def Observer.putLoop : Nat → Observer → Bytes → Option Observer
  | 0, _, _ => none
  | fuel + 1, o, src =>
    if src = [] then some o
    else
      let cnt := min src.length (o.buffer.length - o.index)
      ((o.writeChunk (src.take cnt)).advanceMut H cnt).bind fun o' =>
        Observer.putLoop fuel o' (src.drop cnt)

/-- `BufMut::put_slice`. -/
def Observer.putSlice (o : Observer) (src : Bytes) : Option Observer :=
  Observer.putLoop H (src.length + 1) o src

/-! ## The challenger as its users drive it -/

/-- `challenger.observer().put_slice(bs)`. -/
def Challenger.observe (c : Challenger) (bs : Bytes) : Option Challenger :=
  ((c.toObserver H).putSlice H bs).map .observer

/-- `challenger.sampler().copy_to_slice(&mut [0; n])`. -/
def Challenger.sample (c : Challenger) (n : Nat) : Option (Bytes × Challenger) :=
  ((c.toSampler H).copyToSlice H n).map fun r => (r.1, .sampler r.2)

/-- One use of a challenger. -/
inductive Use
  | observe (bs : Bytes)
  | sample (n : Nat)
  deriving DecidableEq

/-- A sequence of uses: the bytes returned by each sample, in order, and the final state. -/
def Challenger.run (c : Challenger) : List Use → Option (List Bytes × Challenger)
  | [] => some ([], c)
  | .observe bs :: us => (c.observe H bs).bind fun c' => Challenger.run c' us
  | .sample n :: us => (c.sample H n).bind fun r =>
      (Challenger.run r.2 us).map fun q => (r.1 :: q.1, q.2)

end Verif.Transcript
