import Verif.Compute.ModelMemory
import Verif.Compute.SpecKernel

/-! Model of the launch of kernels: `KernelMemMap`, crates/compute/src/layer.rs:592-675, and `accumulate_kernels` and
`map_kernels` of the two layers, crates/compute/src/cpu/layer.rs:91-203 and crates/fast_compute/src/layer.rs:213-390.

`w` is the base-2 logarithm of `ALIGNMENT`.  The outer `none` is a panic.  A kernel is a function of its buffers
(`Kernel`), which leaves out what happens inside one; kernels running at once touch memory of their own only, which the
borrow checker enforces, so that a schedule is the order in which they run and the thread each runs on.  A kernel that
panics is left out. -/

namespace Verif.Compute.Kernel

variable {F E R : Type}

/-- The upper end of the range for one mapping, in the closure of `log_chunks_range`,
crates/compute/src/layer.rs:620-642; `checked_log_2` panics on lengths that are not powers of two. -/
def logChunksEnd (w : Nat) : MemMap F → Option Nat
  | .chunked d m => (strictLog2 d.length).map fun n => n - min (max m w) n
  | .chunkedMut d m => (strictLog2 d.length).map fun n => n - min (max m w) n
  | .scratch l => some l

/-- The closure of `reduce` in `log_chunks_range`, crates/compute/src/layer.rs:643, with the range of the next mapping, whose
start is 0. -/
def rangeStep (w : Nat) (acc : Option (Nat × Nat)) (m : MemMap F) : Option (Nat × Nat) :=
  acc.bind fun r => (logChunksEnd w m).map fun e => (max r.1 0, min r.2 e)

/-- `KernelMemMap::log_chunks_range`, crates/compute/src/layer.rs:617-644; the inner `none` is for no mappings. -/
def logChunksRange (w : Nat) : List (MemMap F) → Option (Option (Nat × Nat))
  | [] => some none
  | m :: ms => (ms.foldl (rangeStep w) ((logChunksEnd w m).map fun e => (0, e))).map some

/-- `count_total_local_buffer_sizes`, crates/compute/src/cpu/layer.rs:556-567. -/
def totalLocal (c : Nat) : List (MemMap F) → Nat
  | [] => 0
  | .scratch l :: ms => 2 ^ (l - c) + totalLocal c ms
  | _ :: ms => totalLocal c ms

/-- The part of a slice from `start` of length `n`. -/
def part (mem : List F) (start n : Nat) : List F := (mem.drop start).take n

/-- Memory after a part of it was written. -/
def overwrite (mem : List F) (start : Nat) (new : List F) : List F :=
  mem.take start ++ new ++ mem.drop (start + new.length)

/-- The range of chunk `i` in data of length `len`, and whether it can be taken.  For the CPU layer,
`DevMem::slice(data, (i << log_chunk_size)..((i + 1) << log_chunk_size))` with `log_chunk_size = log_size - log_chunks`,
crates/compute/src/cpu/layer.rs:100-116.  For the fast layer, item `i` of `slice_chunks(data, len / (1 << log_chunks))`,
crates/compute/src/layer.rs:648-666, where `checked_int_div` wants no remainder, and
`PackedMemory::slice_chunks`, crates/fast_compute/src/memory.rs:84-131, a chunk of whole packed elements or all of it. -/
def chunkRange (w c i len : Nat) : Option (Nat × Nat) :=
  if w = 0 then
    (strictLog2 len).bind fun n =>
      if (i + 1) * 2 ^ (n - c) ≤ len then some (i * 2 ^ (n - c), 2 ^ (n - c)) else none
  else
    let n := len / 2 ^ c
    if 2 ^ c * n ≠ len then none
    else if n = len then if i = 0 then some (0, n) else none
    else if n % 2 ^ w ≠ 0 ∨ len % n ≠ 0 then none
    else if (i + 1) * n ≤ len then some (i * n, n) else none

/-- The buffers of kernel `i`: `map_kernel_mem`, crates/compute/src/cpu/layer.rs:92-125, and `kernel_data`,
crates/fast_compute/src/layer.rs:273-289.  Scratchpads come from a bump allocator over `mem`. -/
def load (w c i : Nat) (mem : List F) : List (MemMap F) → Handle → Option (List (Buf F))
  | [], _ => some []
  | .chunked d _ :: ms, h => (chunkRange w c i d.length).bind fun r =>
      (load w c i mem ms h).map fun bs => .ref (part d r.1 r.2) :: bs
  | .chunkedMut d _ :: ms, h => (chunkRange w c i d.length).bind fun r =>
      (load w c i mem ms h).map fun bs => .mutable (part d r.1 r.2) :: bs
  | .scratch l :: ms, h =>
    if l < c then none
    else match alloc w h (2 ^ (l - c)) with
      | .ok s rest => (load w c i mem ms rest).map fun bs => .mutable (part mem s.start s.len) :: bs
      | _ => none

/-- What the kernel wrote, in the memory the mutable buffers stand for. -/
def store (w c i : Nat) : List (MemMap F) → Handle → List F → List (Buf F) → List (MemMap F) × List F
  | .chunkedMut d l :: ms, h, mem, b :: bs =>
    let (ms, mem) := store w c i ms h mem bs
    match chunkRange w c i d.length with
    | some r => (.chunkedMut (overwrite d r.1 b.data) l :: ms, mem)
    | none => (.chunkedMut d l :: ms, mem)
  | .scratch l :: ms, h, mem, b :: bs =>
    match alloc w h (2 ^ (l - c)) with
    | .ok s rest =>
      let (ms, mem) := store w c i ms rest (overwrite mem s.start b.data) bs
      (.scratch l :: ms, mem)
    | _ => (.scratch l :: ms, mem)
  | m :: ms, h, mem, _ :: bs =>
    let (ms, mem) := store w c i ms h mem bs
    (m :: ms, mem)
  | ms, _, mem, _ => (ms, mem)

/-- The state between kernels: the mapped memory, the scratch memory of each thread, and the results so far. -/
structure State (F E R : Type) where
  maps : List (MemMap F)
  mems : Nat → List F
  done : Nat → Option (Except E R)

/-- The scratch memory of a thread, grown with zeros to `n` scalars, crates/fast_compute/src/layer.rs:261-267. -/
def grow [Zero F] (n : Nat) (mem : List F) : List F := mem ++ List.replicate (n - mem.length) 0

/-- One kernel, `i`, on thread `t`: the bodies of the closures at crates/compute/src/cpu/layer.rs:144-149 and
crates/fast_compute/src/layer.rs:258-292.  The fast layer has `total_alloc` packed elements, `total_alloc << w` scalars. -/
def runKernel [Zero F] (w c : Nat) (k : Kernel F E R) (s : State F E R) (i t : Nat) : Option (State F E R) :=
  let mem := grow (totalLocal c s.maps * 2 ^ w) (s.mems t)
  (load w c i mem s.maps (.slice 0 mem.length)).map fun bufs =>
    let (bufs', r) := k c bufs
    let (maps, mem) := store w c i s.maps (.slice 0 mem.length) mem bufs'
    { maps := maps, mems := Function.update s.mems t mem, done := Function.update s.done i (some r) }

/-- All kernels, in the order of a schedule of (chunk, thread). -/
def runAll [Zero F] (w c : Nat) (k : Kernel F E R) : State F E R → List (Nat × Nat) → Option (State F E R)
  | s, [] => some s
  | s, (i, t) :: sched => (runKernel w c k s i t).bind fun s => runAll w c k s sched

/-- The results in the order of the chunks. -/
def State.results (c : Nat) (s : State F E R) : Option (List (Except E R)) := (List.range (2 ^ c)).mapM s.done

/-- Addition of result vectors, crates/compute/src/cpu/layer.rs:179-185 and crates/fast_compute/src/layer.rs:359-366. -/
def addVec [Add F] : List F → List F → List F
  | a :: as, b :: bs => (a + b) :: addVec as bs
  | [], bs => bs
  | as, [] => as

/-- The closure of `reduce` and `reduce_with`: `Ok(reduce_op(lhs?, rhs?))`, crates/compute/src/cpu/layer.rs:177-186 and
crates/fast_compute/src/layer.rs:294. -/
def combine (op : R → R → R) : Except E R → Except E R → Except E R
  | .error e, _ => .error e
  | .ok _, .error e => .error e
  | .ok a, .ok b => .ok (op a b)

/-- A shape in which rayon's `reduce_with` may combine items: any tree over the items in their order. -/
inductive Tree where
  | leaf
  | node (l r : Tree)

def Tree.leaves : Tree → Nat
  | .leaf => 1
  | .node l r => l.leaves + r.leaves

/-- `reduce_with` along a tree. -/
def Tree.reduce (op : R → R → R) : Tree → List R → Option R
  | .leaf, x :: _ => some x
  | .leaf, [] => none
  | .node l r, xs => (l.reduce op (xs.take l.leaves)).bind fun a =>
      (r.reduce op (xs.drop l.leaves)).map fun b => op a b

/-! ### The CPU layer -/

/-- `CpuLayerExecutor::process_kernels_chunks`, crates/compute/src/cpu/layer.rs:127-152: one thread, the chunks in order,
one zeroed scratch memory, the largest number of chunks.  Without mappings it panics. -/
def cpuChunks [Zero F] (k : Kernel F E R) (maps : List (MemMap F)) : Option (List (MemMap F) × List (Except E R)) :=
  (logChunksRange 0 maps).bind fun range => range.bind fun range =>
    let c := range.2
    (runAll 0 c k ⟨maps, fun _ => List.replicate (totalLocal c maps) 0, fun _ => none⟩
      ((List.range (2 ^ c)).map fun i => (i, 0))).bind fun s => (s.results c).map fun rs => (s.maps, rs)

/-- `accumulate_kernels`, crates/compute/src/cpu/layer.rs:167-188: the memory afterwards and the result. -/
def cpuAccumulate [AddCommMonoid F] (k : Kernel F E (List F)) (maps : List (MemMap F)) :
    Option (List (MemMap F) × Except E (List F)) :=
  (cpuChunks k maps).bind fun p => match p.2 with
    | [] => none
    | r :: rs => some (p.1, rs.foldl (combine addVec) r)

/-- `map_kernels`, crates/compute/src/cpu/layer.rs:190-203: `for_each(drop)`, then `Ok(())`. -/
def cpuMap [Zero F] (k : Kernel F E Unit) (maps : List (MemMap F)) : Option (List (MemMap F) × Except E Unit) :=
  (cpuChunks k maps).map fun p => (p.1, .ok ())

/-! ### The fast layer -/

/-- The number of chunks, crates/fast_compute/src/layer.rs:228-230; `logThreads` is `get_log_max_threads()`. -/
def fastLogChunks (logThreads : Nat) (range : Nat × Nat) : Nat := max (min (logThreads + 1) range.2) range.1

/-- What the environment of the fast layer decides: the number of threads, the order of the chunks and the thread of each,
the shape of the reduction, and what earlier calls left in the scratch memory of each thread. -/
structure Env (F : Type) where
  logThreads : Nat
  order : List (Nat × Nat)
  tree : Tree
  mems : Nat → List F

/-- `FastCpuExecutor::process_kernels_chunks`, crates/fast_compute/src/layer.rs:213-297.  `noRange` is the error for no
mappings. -/
def fastChunks [Zero F] (w : Nat) (noRange : E) (env : Env F) (op : R → R → R) (k : Kernel F E R)
    (maps : List (MemMap F)) : Option (List (MemMap F) × Except E (Option R)) :=
  (logChunksRange w maps).bind fun range => match range with
    | none => some (maps, .error noRange)
    | some range =>
      let c := fastLogChunks env.logThreads range
      (runAll w c k ⟨maps, env.mems, fun _ => none⟩ env.order).bind fun s => (s.results c).bind fun rs =>
        (env.tree.reduce (combine op) rs).map fun r => (s.maps, r.map some)

/-- `accumulate_kernels`, crates/fast_compute/src/layer.rs:347-370. -/
def fastAccumulate [AddCommMonoid F] (w : Nat) (noRange : E) (env : Env F) (k : Kernel F E (List F))
    (maps : List (MemMap F)) : Option (List (MemMap F) × Except E (List F)) :=
  (fastChunks w noRange env addVec k maps).map fun p => (p.1, p.2.map fun o => o.getD [])

/-- `map_kernels`, crates/fast_compute/src/layer.rs:372-384. -/
def fastMap [Zero F] (w : Nat) (noRange : E) (env : Env F) (k : Kernel F E Unit) (maps : List (MemMap F)) :
    Option (List (MemMap F) × Except E Unit) :=
  (fastChunks w noRange env (fun _ _ => ()) k maps).map fun p => (p.1, p.2.map fun _ => ())

end Verif.Compute.Kernel
