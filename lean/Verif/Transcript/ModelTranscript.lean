import Verif.Transcript.ModelChallenger

/-!
# Prover and verifier transcripts (model)

`crates/core/src/transcript/mod.rs`. The proof tape is a byte list. A verifier's tape is the list of
its unread bytes (`Bytes` is contiguous, so `chunk()` shows all of them).

Two things the code leaves open are parameters, so that the theorems hold whatever they are: how much
room `BytesMut::chunk_mut` offers at a time, and how a serializer or deserializer cuts a value into
single `put`/`get` calls.
-/

namespace Verif.Transcript
open Verif.Ser (Ty Mode leBytes ofLeBytes)

/-- The environment of a transcript. `room n` is the length of `BytesMut::chunk_mut()` when `n` bytes
are written: it reserves space when there is none, so it is never empty. `cutW`, `cutR` cut the bytes
of one value into the pieces of single `put` and `get` calls. -/
structure Env where
  room : Nat → Nat
  room_pos : ∀ n, 0 < room n
  cutW : Bytes → List Bytes
  cutW_flatten : ∀ bs, (cutW bs).flatten = bs
  cutR : Bytes → List Bytes
  cutR_flatten : ∀ bs, (cutR bs).flatten = bs

/-- `transcript::Error`, `transcript/error.rs`. -/
inductive Error
  | transcriptNotEmpty (remaining : Nat)
  | notEnoughBytes
  | serialization (e : Verif.Ser.Err)
  deriving DecidableEq

/-- How a call can fail: a returned error, or a panic. -/
inductive Fail
  | err (e : Error)
  | panic
  deriving DecidableEq

/-- `ProverTranscript`, `mod.rs:32-36` with `FiatShamirBuf`, `mod.rs:49-53`. -/
structure Prover where
  tape : Bytes
  chal : Challenger
  debug : Bool

/-- `VerifierTranscript`, `mod.rs:43-47`. -/
structure Verifier where
  tape : Bytes
  chal : Challenger
  debug : Bool

variable (H : HashFn) (E : Env)

/-- `ProverTranscript::new` and `set_debug`, `mod.rs:107-112`, `164-166`. -/
def Prover.new (debug : Bool) : Prover := { tape := [], chal := .default H, debug }

/-- `VerifierTranscript::new` and `set_debug`, `mod.rs:212-220`, `233-235`. -/
def Verifier.new (tape : Bytes) (debug : Bool) : Verifier := { tape, chal := .default H, debug }

/-- `ProverTranscript::finalize`, `mod.rs:128-158`, without the dump to a file. -/
def Prover.finalize (p : Prover) : Bytes := p.tape

/-- `VerifierTranscript::finalize`, `mod.rs:224-231`. -/
def Verifier.finalize (v : Verifier) : Except Fail Unit :=
  if v.tape ≠ [] then .error (.err (.transcriptNotEmpty v.tape.length)) else .ok ()

/-- A panic of the model's challenger. -/
def orPanic {α : Type} : Option α → Except Fail α
  | some x => .ok x
  | none => .error .panic

/-- `message` or `decommitment`. -/
inductive Chan
  | message
  | decommitment
  deriving DecidableEq

/-! ## Writing -/

/-- `put_slice` on `FiatShamirBuf`, `mod.rs:75-100`: the default loop of `bytes`, with `advance_mut`
observing the bytes just written. -/
def Prover.putLoop : Nat → Prover → Bytes → Except Fail Prover
  | 0, _, _ => .error .panic
  | fuel + 1, p, src =>
    if src = [] then .ok p
    else do
      let cnt := min src.length (E.room p.tape.length)
      let c ← orPanic (p.chal.observe H (src.take cnt))
      Prover.putLoop fuel { p with tape := p.tape ++ src.take cnt, chal := c } (src.drop cnt)

/-- `put_slice` on `self.message()` (`mod.rs:200-208`) or on `self.decommitment()`, the tape alone
(`mod.rs:190-195`). -/
def Prover.put (p : Prover) (ch : Chan) (bs : Bytes) : Except Fail Prover :=
  match ch with
  | .message => Prover.putLoop H E (bs.length + 1) p bs
  | .decommitment => .ok { p with tape := p.tape ++ bs }

/-- The single writes of one value. -/
def Prover.putAll (ch : Chan) : Prover → List Bytes → Except Fail Prover
  | p, [] => .ok p
  | p, b :: bs => do Prover.putAll ch (← p.put H E ch b) bs

/-- `usize::MAX`. -/
def usizeMax : Nat := 2 ^ 64 - 1

/-- `TranscriptWriter::write`, `mod.rs:377-383`; `remaining_mut` of a `BytesMut` is `usize::MAX`
minus its length; a serialization error is an `expect` failure. -/
def Prover.write (p : Prover) (ch : Chan) (t : Ty) (x : t.Val) : Except Fail Prover :=
  match t.ser .canonicalTower x (usizeMax - p.tape.length) with
  | .error _ => .error .panic
  | .ok bs => Prover.putAll H E ch p (E.cutW bs)

/-- `write_slice`, `mod.rs:385-393`. `write_scalar`, `write_scalar_iter`, `write_scalar_slice`,
`write_packed`, `write_packed_iter` and `write_packed_slice` (`mod.rs:401-431`) are the same loop over
the scalars. -/
def Prover.writeSlice (ch : Chan) (t : Ty) : Prover → List t.Val → Except Fail Prover
  | p, [] => .ok p
  | p, x :: xs => do Prover.writeSlice ch t (← p.write H E ch t x) xs

/-- `write_bytes`, `mod.rs:395-399`; `write_u64` (`mod.rs:515-517`) is `write_bytes` of 8 bytes. -/
def Prover.writeBytes (p : Prover) (ch : Chan) (bs : Bytes) : Except Fail Prover := p.put H E ch bs

/-- `write_debug`, `mod.rs:433-437`. -/
def Prover.writeDebug (p : Prover) (ch : Chan) (msg : Bytes) : Except Fail Prover :=
  if p.debug then p.writeBytes H E ch msg else .ok p

/-! ## `observe()`, the same for both sides -/

/-- The single writes of one value into `challenger.observer()`. -/
def observeAll : Challenger → List Bytes → Except Fail Challenger
  | c, [] => .ok c
  | c, b :: bs => do observeAll (← orPanic (c.observe H b)) bs

/-- `observe().write(x)`, `mod.rs:172-180`, `241-249`: `observer()` is called whether or not anything
is written; `remaining_mut` is `usize::MAX`. -/
def observeValue (c : Challenger) (t : Ty) (x : t.Val) : Except Fail Challenger := do
  let c ← orPanic (c.observe H [])
  match t.ser .canonicalTower x usizeMax with
  | .error _ => .error .panic
  | .ok bs => observeAll H c (E.cutW bs)

/-- `observe().write_bytes(bs)`. -/
def observeBytes (c : Challenger) (bs : Bytes) : Except Fail Challenger := do
  let c ← orPanic (c.observe H [])
  orPanic (c.observe H bs)

/-! ## Reading -/

/-- `advance` on `FiatShamirBuf`, `mod.rs:64-72`, for each single read of a value; a read of no bytes
does not call it. On the tape alone nothing is observed. -/
def Verifier.advanceAll (ch : Chan) : Verifier → List Bytes → Except Fail Verifier
  | v, [] => .ok v
  | v, b :: bs =>
    if b = [] then Verifier.advanceAll ch v bs
    else if v.tape.length < b.length then .error .panic
    else
      match ch with
      | .message => do
        let c ← orPanic (v.chal.observe H (v.tape.take b.length))
        Verifier.advanceAll ch { v with tape := v.tape.drop b.length, chal := c } bs
      | .decommitment =>
        Verifier.advanceAll ch { v with tape := v.tape.drop b.length } bs

/-- `TranscriptReader::read`, `mod.rs:299-302`. After an error the transcript is not used again in
this model (the verifier returns the error). -/
def Verifier.read (v : Verifier) (ch : Chan) (t : Ty) : Except Fail (t.Val × Verifier) :=
  match t.de .canonicalTower v.tape with
  | .error e => .error (.err (.serialization e))
  | .ok (x, rest) => do
    let v ← Verifier.advanceAll H ch v (E.cutR (v.tape.take (v.tape.length - rest.length)))
    .ok (x, v)

/-- `read_vec`, `mod.rs:304-310`; `read_scalar`, `read_scalar_slice_into`, `read_scalar_slice`,
`read_packed` and `read_packed_slice` (`mod.rs:321-355`) are the same loop over the scalars. -/
def Verifier.readVec (ch : Chan) (t : Ty) : Verifier → Nat → Except Fail (List t.Val × Verifier)
  | v, 0 => .ok ([], v)
  | v, n + 1 => do
    let r ← v.read H E ch t
    let q ← Verifier.readVec ch t r.2 n
    .ok (r.1 :: q.1, q.2)

/-- `read_bytes`, `mod.rs:312-319`; `read_u64` (`mod.rs:509-513`) is `read_bytes` of 8 bytes. -/
def Verifier.readBytes (v : Verifier) (ch : Chan) (n : Nat) : Except Fail (Bytes × Verifier) :=
  if v.tape.length < n then .error (.err .notEnoughBytes)
  else do
    let v' ← Verifier.advanceAll H ch v [v.tape.take n]
    .ok (v.tape.take n, v')

/-- `read_debug`, `mod.rs:357-364`. -/
def Verifier.readDebug (v : Verifier) (ch : Chan) (msg : Bytes) : Except Fail Verifier :=
  if v.debug then
    match v.readBytes H ch msg.length with
    | .error _ => .error .panic
    | .ok (bs, v') => if bs = msg then .ok v' else .error .panic
  else .ok v

/-! ## Sampling -/

/-- The field types that can be sampled, `CanSample<F: TowerField>`: a tower field of fewer than 8
bits, of `n` bytes, or an AES tower field of `2^n` bytes. -/
inductive Scalar
  | small (w : Nat)
  | tower (bytes : Nat)
  | aes (n : Nat)
  deriving DecidableEq

/-- The serialized type. -/
def Scalar.ty : Scalar → Ty
  | .small w => .small w
  | .tower n => .uint n
  | .aes n => .aes n

/-- The number of bytes of a scalar. -/
def Scalar.bytes : Scalar → Nat
  | .small _ => 1
  | .tower n => n
  | .aes n => 2 ^ n

/-- `sample`, `mod.rs:453-457`, `465-469`: `deserialize` from the sampler. A one-byte scalar is read
with `get_u8`, a longer one with `get_u16_le`, … (`serialization.rs:94-217`). -/
def sampleScalar (c : Challenger) (f : Scalar) : Except Fail (f.ty.Val × Challenger) := do
  let r ← orPanic (if f.bytes = 1 then ((c.toSampler H).getU8 H).map fun r => ([r.1], r.2)
    else (c.toSampler H).getUint H f.bytes)
  match f.ty.de .canonicalTower r.1 with
  | .error _ => .error .panic
  | .ok (x, _) => .ok (x, .sampler r.2)

/-- `sample_bits_reader`, `mod.rs:472-488`. -/
def sampleBits (c : Challenger) (bits : Nat) : Except Fail (Nat × Challenger) := do
  let bits := min bits 32
  let r ← orPanic (c.sample H 4)
  let unmasked := ofLeBytes r.1
  let mask := if bits < 32 then 1 <<< bits - 1 else 2 ^ 32 - 1
  .ok (mask &&& unmasked, r.2)

/-! ## Protocols -/

/-- One step of a protocol, as the prover performs it. -/
inductive Step
  | write (ch : Chan) (t : Ty) (x : t.Val)
  | writeSlice (ch : Chan) (t : Ty) (xs : List t.Val)
  | writeBytes (ch : Chan) (bs : Bytes)
  | writeDebug (ch : Chan) (msg : Bytes)
  | observe (t : Ty) (x : t.Val)
  | observeBytes (bs : Bytes)
  | sample (f : Scalar)
  | sampleBits (bits : Nat)

/-- The matching step, as the verifier performs it: what it reads it does not know, only its type and
length. What it observes and the debug marks it knows. -/
inductive VStep
  | read (ch : Chan) (t : Ty)
  | readVec (ch : Chan) (t : Ty) (n : Nat)
  | readBytes (ch : Chan) (n : Nat)
  | readDebug (ch : Chan) (msg : Bytes)
  | observe (t : Ty) (x : t.Val)
  | observeBytes (bs : Bytes)
  | sample (f : Scalar)
  | sampleBits (bits : Nat)

/-- What one side sees: a value sent, or a challenge. -/
inductive Event
  | value (t : Ty) (x : t.Val)
  | values (t : Ty) (xs : List t.Val)
  | bytes (bs : Bytes)
  | challenge (f : Scalar) (x : f.ty.Val)
  | bits (x : Nat)

/-- The prover performs one step. -/
def Prover.step (p : Prover) : Step → Except Fail (List Event × Prover)
  | .write ch t x => do .ok ([.value t x], ← p.write H E ch t x)
  | .writeSlice ch t xs => do .ok ([.values t xs], ← Prover.writeSlice H E ch t p xs)
  | .writeBytes ch bs => do .ok ([.bytes bs], ← p.writeBytes H E ch bs)
  | .writeDebug ch msg => do .ok ([], ← p.writeDebug H E ch msg)
  | .observe t x => do
    let c ← observeValue H E p.chal t x
    .ok ([], { p with chal := c })
  | .observeBytes bs => do
    let c ← observeBytes H p.chal bs
    .ok ([], { p with chal := c })
  | .sample f => do
    let r ← sampleScalar H p.chal f
    .ok ([.challenge f r.1], { p with chal := r.2 })
  | .sampleBits bits => do
    let r ← Verif.Transcript.sampleBits H p.chal bits
    .ok ([.bits r.1], { p with chal := r.2 })

/-- The verifier performs one step. -/
def Verifier.step (v : Verifier) : VStep → Except Fail (List Event × Verifier)
  | .read ch t => do
    let r ← v.read H E ch t
    .ok ([.value t r.1], r.2)
  | .readVec ch t n => do
    let r ← Verifier.readVec H E ch t v n
    .ok ([.values t r.1], r.2)
  | .readBytes ch n => do
    let r ← v.readBytes H ch n
    .ok ([.bytes r.1], r.2)
  | .readDebug ch msg => do .ok ([], ← v.readDebug H ch msg)
  | .observe t x => do
    let c ← observeValue H E v.chal t x
    .ok ([], { v with chal := c })
  | .observeBytes bs => do
    let c ← Verif.Transcript.observeBytes H v.chal bs
    .ok ([], { v with chal := c })
  | .sample f => do
    let r ← sampleScalar H v.chal f
    .ok ([.challenge f r.1], { v with chal := r.2 })
  | .sampleBits bits => do
    let r ← Verif.Transcript.sampleBits H v.chal bits
    .ok ([.bits r.1], { v with chal := r.2 })

/-- The prover performs a sequence of steps. -/
def Prover.run : Prover → List Step → Except Fail (List Event × Prover)
  | p, [] => .ok ([], p)
  | p, s :: ss => do
    let r ← p.step H E s
    let q ← Prover.run r.2 ss
    .ok (r.1 ++ q.1, q.2)

/-- The verifier performs a sequence of steps. -/
def Verifier.run : Verifier → List VStep → Except Fail (List Event × Verifier)
  | v, [] => .ok ([], v)
  | v, s :: ss => do
    let r ← v.step H E s
    let q ← Verifier.run r.2 ss
    .ok (r.1 ++ q.1, q.2)

end Verif.Transcript
