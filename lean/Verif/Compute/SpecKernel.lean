import Mathlib.Algebra.BigOperators.Group.List.Basic

/-! What launching kernels over chunked buffers should do, after the documentation of `accumulate_kernels` and
`map_kernels`, crates/compute/src/layer.rs:134-236. -/

namespace Verif.Compute.Kernel

variable {F E R : Type}

/-- A mapping of memory into the kernels: `KernelMemMap`, crates/compute/src/layer.rs:592-614.  The data of a mapping is
the list of its scalars. -/
inductive MemMap (F : Type) where
  | chunked (data : List F) (logMin : Nat)
  | chunkedMut (data : List F) (logMin : Nat)
  | scratch (logSize : Nat)

/-- A buffer in a kernel: `KernelBuffer`, crates/compute/src/layer.rs:678-683, by its contents. -/
inductive Buf (F : Type) where
  | ref (data : List F)
  | mutable (data : List F)
deriving DecidableEq

def Buf.data : Buf F → List F
  | .ref d => d
  | .mutable d => d

/-- A kernel: the closure `map` of `accumulate_kernels`.  It sees the logarithm of the number of kernels and its buffers,
and leaves the buffers with new contents and a result. -/
abbrev Kernel (F E R : Type) := Nat → List (Buf F) → List (Buf F) × Except E R

/-- What a kernel cannot change, by the types of its buffers: the contents of a read-only buffer, the length of a mutable
one. -/
def Buf.fixed : Buf F → List F ⊕ Nat
  | .ref d => .inl d
  | .mutable d => .inr d.length

/-- The kernel changes mutable buffers only, and no length. -/
def Typed (k : Kernel F E R) : Prop := ∀ c bufs, (k c bufs).1.map Buf.fixed = bufs.map Buf.fixed

/-- Chunk `i` of `2 ^ c` equal parts. -/
def chunk (c i : Nat) (d : List F) : List F := (d.drop (i * (d.length / 2 ^ c))).take (d.length / 2 ^ c)

/-- What kernel `i` of `2 ^ c` should see of a mapping: its chunk, or zeros. -/
def chunkBuf [Zero F] (c i : Nat) : MemMap F → Buf F
  | .chunked d _ => .ref (chunk c i d)
  | .chunkedMut d _ => .mutable (chunk c i d)
  | .scratch l => .mutable (List.replicate (2 ^ (l - c)) 0)

def chunkBufs [Zero F] (c i : Nat) (maps : List (MemMap F)) : List (Buf F) := maps.map (chunkBuf c i)

/-- The results of the kernels, in the order of the chunks. -/
def results [Zero F] (k : Kernel F E R) (c : Nat) (maps : List (MemMap F)) : List (Except E R) :=
  (List.range (2 ^ c)).map fun i => (k c (chunkBufs c i maps)).2

/-- What the kernels leave in buffer `j`, in the order of the chunks. -/
def outputs [Zero F] (k : Kernel F E R) (c : Nat) (maps : List (MemMap F)) (j : Nat) : List F :=
  (List.range (2 ^ c)).flatMap fun i => (((k c (chunkBufs c i maps)).1[j]?).map Buf.data).getD []

/-- The memory afterwards: mutable buffers have what the kernels left, all else is as before. -/
def after [Zero F] (k : Kernel F E R) (c : Nat) (maps : List (MemMap F)) : List (MemMap F) :=
  maps.mapIdx fun j m => match m with
    | .chunkedMut _ l => .chunkedMut (outputs k c maps j) l
    | m => m

/-- The accumulated value of a list of results: the first error, or the sum of the vectors, where a short vector counts as
one with zeros at its end. -/
def IsTotal [AddCommMonoid F] (rs : List (Except E (List F))) : Except E (List F) → Prop
  | .error e => ∃ pre post, rs = pre ++ .error e :: post ∧ ∀ r ∈ pre, ∃ v, r = .ok v
  | .ok v => ∃ vs : List (List F), rs = vs.map .ok ∧ v.length = (vs.map List.length).foldr max 0 ∧
      ∀ j, v.getD j 0 = (vs.map fun u => u.getD j 0).sum

/-- The outcome of kernels that return nothing: the first error, or success. -/
def FirstError (rs : List (Except E Unit)) : Except E Unit → Prop
  | .error e => ∃ pre post, rs = pre ++ .error e :: post ∧ ∀ r ∈ pre, r = .ok ()
  | .ok _ => ∀ r ∈ rs, r = .ok ()

/-- Buffers with the scratchpads overwritten by zeros. -/
def clear [Zero F] : List (MemMap F) → List (Buf F) → List (Buf F)
  | .scratch _ :: ms, b :: bs => .mutable (List.replicate b.data.length 0) :: clear ms bs
  | _ :: ms, b :: bs => b :: clear ms bs
  | _, _ => []

/-- The kernel reads nothing from a scratchpad that it has not written before: what it returns and what it leaves in the
other buffers do not depend on the contents the scratchpads had. -/
def IgnoresScratch [Zero F] (maps : List (MemMap F)) (k : Kernel F E R) : Prop :=
  ∀ c bufs bufs', bufs.length = maps.length → bufs'.length = maps.length → clear maps bufs = clear maps bufs' →
    (k c bufs).2 = (k c bufs').2 ∧ clear maps (k c bufs).1 = clear maps (k c bufs').1

/-- Halves of a buffer. -/
def Buf.half (right : Bool) : Buf F → Buf F
  | .ref d => .ref (chunk 1 right.toNat d)
  | .mutable d => .mutable (chunk 1 right.toNat d)

/-- Two buffers, one after the other. -/
def Buf.join : Buf F → Buf F → Buf F
  | .ref d, b => .ref (d ++ b.data)
  | .mutable d, b => .mutable (d ++ b.data)

/-- A kernel that works position by position: a run over buffers of even length does to the buffers what two runs over the
halves do, and returns the total of what they return. -/
def Splits [AddCommMonoid F] (maps : List (MemMap F)) (k : Kernel F E (List F)) : Prop :=
  ∀ c bufs, bufs.length = maps.length → (∀ b ∈ bufs, 2 ∣ b.data.length) →
    IsTotal [(k (c + 1) (bufs.map (Buf.half false))).2, (k (c + 1) (bufs.map (Buf.half true))).2] (k c bufs).2 ∧
    clear maps (k c bufs).1 = clear maps (List.zipWith Buf.join (k (c + 1) (bufs.map (Buf.half false))).1
      (k (c + 1) (bufs.map (Buf.half true))).1)

/-- The buffers of a kernel that runs alone over all of the memory. -/
def whole [Zero F] : List (MemMap F) → List (Buf F) := List.map fun m => match m with
  | .chunked d _ => .ref d
  | .chunkedMut d _ => .mutable d
  | .scratch l => .mutable (List.replicate (2 ^ l) 0)

/-- The memory after a kernel left `bufs`. -/
def written (maps : List (MemMap F)) (bufs : List (Buf F)) : List (MemMap F) :=
  maps.mapIdx fun j m => match m with
    | .chunkedMut _ l => .chunkedMut ((bufs[j]?.map Buf.data).getD []) l
    | m => m

/-- The data of the mappings have lengths that are powers of two. -/
def PowersOfTwo (maps : List (MemMap F)) : Prop :=
  ∀ m ∈ maps, match m with
    | .chunked d _ => ∃ n, d.length = 2 ^ n
    | .chunkedMut d _ => ∃ n, d.length = 2 ^ n
    | .scratch _ => True

end Verif.Compute.Kernel
