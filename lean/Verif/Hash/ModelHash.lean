import Verif.Hash.SpecSponge

/-! Model of the interfaces to hash functions of crates/hash/src: the buffer that serialization writes to
(serialization.rs), the digests of many strings at once (multi_digest.rs) and the Vision hashers (vision/digest.rs).

A panic is `none`.  Lengths of slices are explicit: a slice out of range and a copy between slices of different lengths
are panics. -/

set_option linter.dupNamespace false

namespace Verif.Hash

/-! ### Slices -/

/-- `&data[a..b]`. -/
def slice (data : Bytes) (a b : Nat) : Option Bytes :=
  if a ≤ b ∧ b ≤ data.length then some ((data.drop a).take (b - a)) else none

/-- `data[a..b].copy_from_slice(src)`. -/
def copyAt (data : Bytes) (a b : Nat) (src : Bytes) : Option Bytes :=
  if a ≤ b ∧ b ≤ data.length ∧ src.length = b - a then some (data.take a ++ src ++ data.drop b) else none

/-! ### The Vision hasher -/

variable {E : Type}

/-- `VisionHasherDigest`, crates/hash/src/vision/digest.rs:47-53. -/
structure Hasher (E : Type) where
  state : Fin 24 → E
  buffer : Bytes
  filled : Nat

/-- `VisionHasherDigest::default` and `reset`, crates/hash/src/vision/digest.rs:55-63 and 148-154. -/
def Hasher.new (P : Sponge E) : Hasher E := ⟨fun _ => P.zero, List.replicate 64 0, 0⟩

/-- `VisionHasherDigest::permute`, crates/hash/src/vision/digest.rs:66-86; the 24 words of the three packed elements are
the state, and a word is transformed on its own. -/
def permute (P : Sponge E) (s : Fin 24 → E) (data : Bytes) : Option (Fin 24 → E) :=
  if data.length < 64 then none
  else some (P.perm fun i =>
    if i.val < 16 then
      P.toWord (le32 (data.getD (i.val * 4) 0) (data.getD (i.val * 4 + 1) 0) (data.getD (i.val * 4 + 2) 0)
        (data.getD (i.val * 4 + 3) 0))
    else s i)

/-- `fill_padding`, crates/hash/src/vision/digest.rs:163-171: fill with zeros, and set bits of the first and of the last
byte. -/
def fillPadding (data : Bytes) : Option Bytes :=
  if data.length = 0 then none
  else
    let d := List.replicate data.length (0 : BitVec 8)
    let d := d.set 0 (d.getD 0 0 ||| 0x80)
    some (d.set (d.length - 1) (d.getD (d.length - 1) 0 ||| 0x01))

/-- `PADDING_BLOCK`, crates/hash/src/vision/digest.rs:39-44. -/
def paddingBlock : Bytes :=
  let b := (List.replicate 64 (0 : BitVec 8)).set 0 0x80
  b.set 63 (b.getD 63 0 ||| 0x01)

/-- The bytes of the first packed element, crates/hash/src/vision/digest.rs:96-100. -/
def output (P : Sponge E) (s : Fin 24 → E) : Bytes :=
  (List.range 8).flatMap fun i => bytes32 (P.ofWord (s ⟨i % 24, Nat.mod_lt _ (by decide)⟩))

/-- `VisionHasherDigest::finalize_into`, crates/hash/src/vision/digest.rs:88-101. -/
def Hasher.finalize (P : Sponge E) (h : Hasher E) : Option Bytes :=
  if h.filled ≠ 0 then
    (slice h.buffer h.filled h.buffer.length).bind fun rest =>
      (fillPadding rest).bind fun rest =>
        (permute P h.state (h.buffer.take h.filled ++ rest)).bind fun s => some (output P s)
  else (permute P h.state paddingBlock).bind fun s => some (output P s)

/-- The loop over `data.chunks_exact(RATE_AS_U8)`, crates/hash/src/vision/digest.rs:121-124: the state after, and the
remainder. -/
def absorbChunks (P : Sponge E) (s : Fin 24 → E) (data : Bytes) : Option ((Fin 24 → E) × Bytes) :=
  if _h : 64 ≤ data.length then (permute P s (data.take 64)).bind fun s => absorbChunks P s (data.drop 64)
  else some (s, data)
termination_by data.length
decreasing_by rw [List.length_drop]; omega

/-- The end of `update`, crates/hash/src/vision/digest.rs:121-130. -/
def Hasher.updateRest (P : Sponge E) (h : Hasher E) (data : Bytes) : Option (Hasher E) :=
  (absorbChunks P h.state data).bind fun r =>
    if r.2 ≠ [] then (copyAt h.buffer 0 r.2.length r.2).bind fun b => some ⟨r.1, b, r.2.length⟩
    else some { h with state := r.1 }

/-- `VisionHasherDigest::update`, crates/hash/src/vision/digest.rs:106-131. -/
def Hasher.update (P : Sponge E) (h : Hasher E) (data : Bytes) : Option (Hasher E) :=
  if h.filled ≠ 0 then
    let toCopy := min data.length (64 - h.filled)
    (slice data 0 toCopy).bind fun src =>
      (copyAt h.buffer h.filled (h.filled + toCopy) src).bind fun b =>
        let filled := h.filled + toCopy
        if filled = 64 then
          (permute P h.state b).bind fun s => Hasher.updateRest P ⟨s, b, 0⟩ (data.drop toCopy)
        else Hasher.updateRest P ⟨h.state, b, filled⟩ (data.drop toCopy)
  else Hasher.updateRest P h data

/-- `Vision32Compression::compress`, crates/hash/src/vision/compression.rs:12-19. -/
def compress (P : Sponge E) (a b : Bytes) : Option Bytes :=
  ((Hasher.new P).update P a).bind fun h => (h.update P b).bind fun h => h.finalize P

/-! ### 32 Vision hashers at once -/

/-- `VisionHasherDigestByteSliced`, crates/hash/src/vision/digest.rs:173-180.  Word `e` of the state of row `r` is
`state e r`. -/
structure Sliced (E : Type) where
  state : Fin 24 → Fin 32 → E
  buffer : Fin 32 → Bytes
  filled : Nat

/-- `VisionHasherDigestByteSliced::default`, crates/hash/src/vision/digest.rs:182-190. -/
def Sliced.new (P : Sponge E) : Sliced E := ⟨fun _ _ => P.zero, fun _ => List.replicate 64 0, 0⟩

/-- `reset`, crates/hash/src/vision/digest.rs:351-354: the buffer is left as it is. -/
def Sliced.reset (P : Sponge E) (g : Sliced E) : Sliced E := { g with state := fun _ _ => P.zero, filled := 0 }

/-- All of a family of results, or a panic. -/
def allRows {α : Type} (f : Fin 32 → Option α) : Option (Fin 32 → α) :=
  if h : ∀ r, (f r).isSome then some fun r => (f r).get (h r) else none

/-- `VisionHasherDigestByteSliced::permute`, crates/hash/src/vision/digest.rs:193-228.  Simplified: the permutation of
byte-sliced elements is taken to permute every row. -/
def Sliced.permute (P : Sponge E) (s : Fin 24 → Fin 32 → E) (data : Fin 32 → Bytes) : Option (Fin 24 → Fin 32 → E) :=
  if ∃ r, (data r).length ≠ 64 then none
  else
    let s' : Fin 24 → Fin 32 → E := fun e r =>
      if e.val < 16 then
        let offset := e.val / 8 * 32
        let i := e.val % 8
        P.toWord (le32 ((data r).getD (offset + 4 * i) 0) ((data r).getD (offset + 4 * i + 1) 0)
          ((data r).getD (offset + 4 * i + 2) 0) ((data r).getD (offset + 4 * i + 3) 0))
      else s e r
    some fun e r => P.perm (fun e' => s' e' r) e

/-- `VisionHasherDigestByteSliced::finalize`, crates/hash/src/vision/digest.rs:230-264. -/
def Sliced.finalize (P : Sponge E) (g : Sliced E) : Option (Fin 32 → Bytes) :=
  (if g.filled > 0 then
    (allRows fun r => (slice (g.buffer r) g.filled (g.buffer r).length).bind fun rest =>
      (fillPadding rest).bind fun rest => some ((g.buffer r).take g.filled ++ rest)).bind fun b =>
        Sliced.permute P g.state b
  else Sliced.permute P g.state fun _ => paddingBlock).bind fun s =>
    some fun r => (List.range 8).flatMap fun i => bytes32 (P.ofWord (s ⟨i % 24, Nat.mod_lt _ (by decide)⟩ r))

/-- The loop `while offset + RATE_AS_U8 <= data[0].len()`, crates/hash/src/vision/digest.rs:306-314: the state and the
offset after. -/
def Sliced.absorbLoop (P : Sponge E) (data : Fin 32 → Bytes) (s : Fin 24 → Fin 32 → E) (offset : Nat) :
    Option ((Fin 24 → Fin 32 → E) × Nat) :=
  if _h : offset + 64 ≤ (data 0).length then
    (allRows fun r => slice (data r) offset (offset + 64)).bind fun chunk =>
      (Sliced.permute P s chunk).bind fun s => Sliced.absorbLoop P data s (offset + 64)
  else some (s, offset)
termination_by (data 0).length - offset
decreasing_by omega

/-- The end of `update`, crates/hash/src/vision/digest.rs:306-327. -/
def Sliced.updateRest (P : Sponge E) (g : Sliced E) (data : Fin 32 → Bytes) (offset : Nat) : Option (Sliced E) :=
  (Sliced.absorbLoop P data g.state offset).bind fun r =>
    if r.2 < (data 0).length then
      (allRows fun row =>
        if (data row).length < r.2 then none
        else (slice (data row) r.2 (data row).length).bind fun src =>
          copyAt (g.buffer row) 0 ((data row).length - r.2) src).bind fun b =>
            some ⟨r.1, b, (data 0).length - r.2⟩
    else some { g with state := r.1 }

/-- `VisionHasherDigestByteSliced::update`, crates/hash/src/vision/digest.rs:274-328.  `debug` tells whether debug
assertions are checked. -/
def Sliced.update (debug : Bool) (P : Sponge E) (g : Sliced E) (data : Fin 32 → Bytes) : Option (Sliced E) :=
  if debug = true ∧ ∃ r, (data r).length ≠ (data 0).length then none
  else if g.filled > 0 then
    let toCopy := min (data 0).length (64 - g.filled)
    (allRows fun r => (slice (data r) 0 toCopy).bind fun src =>
      copyAt (g.buffer r) g.filled (g.filled + toCopy) src).bind fun b =>
        let filled := g.filled + toCopy
        if filled = 64 then
          (Sliced.permute P g.state b).bind fun s => Sliced.updateRest P ⟨s, b, 0⟩ data toCopy
        else Sliced.updateRest P ⟨g.state, b, filled⟩ data toCopy
  else Sliced.updateRest P g data 0

/-! ### Many strings -/

/-- `MultiDigest<N>`, crates/hash/src/multi_digest.rs:24-63: the methods that are used here. -/
structure Multi (S Out : Type) (N : Nat) where
  new : S
  update : S → (Fin N → Bytes) → Option S
  finalize : S → Option (Fin N → Out)

/-- `MultiDigest` for `VisionHasherDigestByteSliced`, crates/hash/src/vision/digest.rs:267-364. -/
def visionMulti (debug : Bool) (P : Sponge E) : Multi (Sliced E) Bytes 32 :=
  ⟨Sliced.new P, Sliced.update debug P, Sliced.finalize P⟩

variable {S Out : Type} {N : Nat}

/-- `MultiDigest::new_with_prefix`, crates/hash/src/multi_digest.rs:32-36. -/
def Multi.newWithPrefix (M : Multi S Out N) (data : Bytes) : Option S := M.update M.new fun _ => data

/-- The buffers of a worker after the strings of a chunk are serialized, crates/hash/src/multi_digest.rs:124-127: a
buffer without a string is left as it is. -/
def fillBuffers (bufs : Fin N → Bytes) (data : List Bytes) : Fin N → Bytes := fun i => (data[i.val]?).getD (bufs i)

/-- `ParallelMultidigestImpl::digest`, crates/hash/src/multi_digest.rs:113-143, from chunk `c` on, for `n` chunks.  The
items of the source are the strings they serialize to.  `fresh c` tells whether the scheduler starts a new run of chunks
at chunk `c`, with its own clone of the empty buffers; if not, the buffers are those left by the chunk before. -/
def digestChunks (M : Multi S Out N) (self : S) (fresh : Nat → Bool) (source : List Bytes) (outLen : Nat) :
    Nat → Nat → (Fin N → Bytes) → Option (List Out)
  | _, 0, _ => some []
  | c, n + 1, bufs =>
    let bufs := fillBuffers (if fresh c = true then fun _ => [] else bufs) ((source.drop (N * c)).take N)
    (M.update self bufs).bind fun s =>
      (M.finalize s).bind fun res =>
        (digestChunks M self fresh source outLen (c + 1) n bufs).bind fun outs =>
          some (((List.finRange N).map res).take (min N (outLen - N * c)) ++ outs)

/-- `ParallelMultidigestImpl::digest`, crates/hash/src/multi_digest.rs:113-143: the chunks of the source are zipped with
those of the output. -/
def Multi.digest (M : Multi S Out N) (self : S) (fresh : Nat → Bool) (source : List Bytes) (outLen : Nat) :
    Option (List Out) :=
  digestChunks M self fresh source outLen 0 (min ((source.length + N - 1) / N) ((outLen + N - 1) / N)) fun _ => []

/-! ### The buffer of serialization -/

/-- `Digest`: the methods that are used here. -/
structure Digest (S Out : Type) where
  new : S
  update : S → Bytes → Option S
  finalize : S → Option Out
  /-- `BlockSizeUser::block_size` -/
  blockSize : Nat

/-- `Digest` for `VisionHasherDigest`, crates/hash/src/vision/digest.rs:103-161. -/
def visionDigest (P : Sponge E) : Digest (Hasher E) Bytes := ⟨Hasher.new P, Hasher.update P, Hasher.finalize P, 96⟩

/-- `HashBuffer`, crates/hash/src/serialization.rs:17-22. -/
structure HashBuffer (S : Type) where
  digest : S
  block : Bytes
  index : Nat

/-- `HashBuffer::new`, crates/hash/src/serialization.rs:25-31. -/
def HashBuffer.new (D : Digest S Out) (s : S) : HashBuffer S := ⟨s, List.replicate D.blockSize 0, 0⟩

/-- `HashBuffer::flush`, crates/hash/src/serialization.rs:33-36, and `drop`, 62-66. -/
def HashBuffer.flush (D : Digest S Out) (b : HashBuffer S) : Option (HashBuffer S) :=
  (slice b.block 0 b.index).bind fun d => (D.update b.digest d).bind fun s => some { b with digest := s, index := 0 }

/-- `HashBuffer::advance_mut`, crates/hash/src/serialization.rs:44-53; `fuel` bounds the number of iterations and `none`
at its end stands for an endless loop. -/
def HashBuffer.advance (D : Digest S Out) : Nat → HashBuffer S → Nat → Option (HashBuffer S)
  | _, b, 0 => some b
  | 0, _, _ + 1 => none
  | fuel + 1, b, cnt + 1 =>
    let remaining := min (D.blockSize - b.index) (cnt + 1)
    let b := { b with index := b.index + remaining }
    if b.index = D.blockSize then (b.flush D).bind fun b => HashBuffer.advance D fuel b (cnt + 1 - remaining)
    else HashBuffer.advance D fuel b (cnt + 1 - remaining)

/-- `BufMut::put_slice` of the crate `bytes` on this buffer: while bytes are left, copy as many as fit in `chunk_mut`
(crates/hash/src/serialization.rs:55-58), and advance by their number.  `fuel` as above. -/
def HashBuffer.putSlice (D : Digest S Out) : Nat → HashBuffer S → Bytes → Option (HashBuffer S)
  | _, b, [] => some b
  | 0, _, _ :: _ => none
  | fuel + 1, b, x :: src =>
    let cnt := min (b.block.length - b.index) (src.length + 1)
    (copyAt b.block b.index (b.index + cnt) ((x :: src).take cnt)).bind fun block =>
      (HashBuffer.advance D cnt { b with block := block } cnt).bind fun b => b.putSlice D fuel ((x :: src).drop cnt)

/-- The writes of a serialization, in order. -/
def HashBuffer.puts (D : Digest S Out) : HashBuffer S → List Bytes → Option (HashBuffer S)
  | b, [] => some b
  | b, d :: ds => (b.putSlice D d.length d).bind fun b => b.puts D ds

/-- The loop of `hash_serialize`: an item is the writes it makes and whether its serialization fails after them; the
result is the buffer after and whether there was a failure. -/
def serializeItems (D : Digest S Out) : HashBuffer S → List (List Bytes × Bool) → Option (HashBuffer S × Bool)
  | b, [] => some (b, false)
  | b, (ds, fails) :: items => (b.puts D ds).bind fun b => if fails = true then some (b, true) else serializeItems D b items

/-- `hash_serialize`, crates/hash/src/serialization.rs:69-85; `some none` is a failure of the serialization of an item. -/
def hashSerialize (D : Digest S Out) (items : List (List Bytes × Bool)) : Option (Option Out) :=
  (serializeItems D (HashBuffer.new D D.new) items).bind fun r =>
    (r.1.flush D).bind fun b => if r.2 = true then some none else (D.finalize b.digest).bind fun o => some (some o)

/-- `ParallelDigest::digest` for a `Digest`, crates/hash/src/multi_digest.rs:157-170, on the writes of every item; the
hasher `self` may have read a prefix. -/
def parallelDigest (D : Digest S Out) (self : S) (source : List (List Bytes)) (outLen : Nat) : Option (List Out) :=
  (source.take outLen).mapM fun ds =>
    ((HashBuffer.new D self).puts D ds).bind fun b => (b.flush D).bind fun b => D.finalize b.digest

end Verif.Hash
