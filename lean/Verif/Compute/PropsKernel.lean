import Verif.Compute.LemmasKernelRun
import Mathlib.Data.ZMod.Basic

/-! C75: launching kernels over chunked memory gives the documented result for every number of threads, schedule, shape of
the reduction and history of the scratch memory, on both compute layers. -/

namespace Verif.Compute.Kernel

variable {F E R : Type}

/-- What a schedule of the fast layer can be: each chunk once, in some order and on some thread; a reduction tree over all
of the chunks; thread memories of whole packed elements. -/
structure Env.Valid (w c : Nat) (env : Env F) : Prop where
  order : (env.order.map Prod.fst).Perm (List.range (2 ^ c))
  tree : env.tree.leaves = 2 ^ c
  mems : ∀ t, 2 ^ w ∣ (env.mems t).length

/-- The number of kernels that the layers choose: it is in the range of every mapping, the chunks of data cover it in
order, have the same size, which is a multiple of `ALIGNMENT` and no less than asked for unless there is one chunk; and
a larger number of kernels than the upper end of the range would break this for some mapping. -/
theorem C75_chunks (w : Nat) {maps : List (MemMap F)} (hne : maps ≠ []) (hp : PowersOfTwo maps) :
    ∃ e, logChunksRange w maps = some (some (0, e)) ∧
      (∀ t, fastLogChunks t (0, e) = min (t + 1) e) ∧
      (∀ c ≤ e, ∀ m ∈ maps, match m with
        | .chunked d l => (List.range (2 ^ c)).flatMap (fun i => chunk c i d) = d ∧
            (∀ i < 2 ^ c, (chunk c i d).length * 2 ^ c = d.length) ∧ (c ≠ 0 → 2 ^ max l w ∣ d.length / 2 ^ c)
        | .chunkedMut d l => (List.range (2 ^ c)).flatMap (fun i => chunk c i d) = d ∧
            (∀ i < 2 ^ c, (chunk c i d).length * 2 ^ c = d.length) ∧ (c ≠ 0 → 2 ^ max l w ∣ d.length / 2 ^ c)
        | .scratch l => c ≤ l) ∧
      ∃ m ∈ maps, match m with
        | .chunked d l => d.length / 2 ^ (e + 1) < 2 ^ max l w
        | .chunkedMut d l => d.length / 2 ^ (e + 1) < 2 ^ max l w
        | .scratch l => l < e + 1 := by
  obtain ⟨e, h1, h2, m, hm, h3⟩ := logChunksRange_ok (w := w) hne hp
  refine ⟨e, h1, fun t => by simp [fastLogChunks], ?_, m, hm, ?_⟩
  · have key : ∀ c ≤ e, ∀ (d : List F) (l : Nat), (∃ n, d.length = 2 ^ n ∧ c ≤ n ∧ (w ≤ n - c ∨ c = 0)) →
        (c ≠ 0 → 2 ^ max l w ≤ d.length / 2 ^ c) →
        (List.range (2 ^ c)).flatMap (fun i => chunk c i d) = d ∧
            (∀ i < 2 ^ c, (chunk c i d).length * 2 ^ c = d.length) ∧ (c ≠ 0 → 2 ^ max l w ∣ d.length / 2 ^ c) := by
      rintro c hc d l ⟨n, hn, hcn, _⟩ hco
      refine ⟨chunks_eq hn hcn, fun i hi => by rw [chunk_length hn hcn hi, hn, mul_comm, pow_mul_sub hcn], fun h0 => ?_⟩
      have := hco h0
      rw [hn, div_pow hcn] at this ⊢
      exact Nat.pow_dvd_pow 2 ((Nat.pow_le_pow_iff_right (by omega)).1 this)
    intro c hc m hm
    obtain ⟨hf, hco⟩ := h2 c hc m hm
    cases m with
    | chunked d l => exact key c hc d l hf hco
    | chunkedMut d l => exact key c hc d l hf hco
    | scratch l => exact hf
  · have key : ∀ (d : List F) (l : Nat), (strictLog2 d.length).map (fun n => n - min (max l w) n) = some e →
        d.length / 2 ^ (e + 1) < 2 ^ max l w := by
      intro d l h
      obtain ⟨n, hn, he⟩ := Option.map_eq_some_iff.1 h
      rw [strictLog2_eq] at hn
      rw [hn, Nat.div_lt_iff_lt_mul (Nat.two_pow_pos _), ← pow_add]
      exact Nat.pow_lt_pow_right (by omega) (by omega)
    cases m with
    | chunked d l => exact key d l h3
    | chunkedMut d l => exact key d l h3
    | scratch l =>
      injection h3 with h3
      simp only [h3]; omega

theorem cpuChunks_spec [Zero F] {k : Kernel F E R} {maps : List (MemMap F)} (hne : maps ≠ []) (hp : PowersOfTwo maps)
    (hk : Typed k) (hg : IgnoresScratch maps k) {e : Nat} (he : logChunksRange 0 maps = some (some (0, e))) :
    cpuChunks k maps = some (after k e maps, results k e maps) := by
  obtain ⟨e', h1, h2, _⟩ := logChunksRange_ok (w := 0) hne hp
  rw [he] at h1
  injection h1 with h1; injection h1 with h1; injection h1 with _ h1; subst h1
  obtain ⟨s, r1, r2, r3⟩ := run_spec hk hg (fun m hm => (h2 e (le_refl _) m hm).1)
    (mems := fun _ => List.replicate (totalLocal e maps) 0) (fun _ => by simp)
    (sched := (List.range (2 ^ e)).map fun i => (i, 0)) (by rw [List.map_map]; simp [Function.comp_def])
  rw [cpuChunks, he]
  simp only [Option.bind_some]
  rw [r1, Option.bind_some, r3, r2]
  rfl

theorem fastChunks_spec [Zero F] {w : Nat} {noRange : E} {op : R → R → R} {k : Kernel F E R} {maps : List (MemMap F)}
    (hne : maps ≠ []) (hp : PowersOfTwo maps)
    (hk : Typed k) (hg : IgnoresScratch maps k) {e : Nat} (he : logChunksRange w maps = some (some (0, e))) {env : Env F}
    (hv : env.Valid w (min (env.logThreads + 1) e)) (P : List (Except E R) → Except E R → Prop) (h1 : ∀ r, P [r] r)
    (h2 : ∀ as bs a b, P as a → P bs b → P (as ++ bs) (combine op a b)) :
    ∃ r, fastChunks w noRange env op k maps = some (after k (min (env.logThreads + 1) e) maps, r.map some) ∧
      P (results k (min (env.logThreads + 1) e) maps) r := by
  obtain ⟨e', g1, g2, _⟩ := logChunksRange_ok (w := w) hne hp
  rw [he] at g1
  injection g1 with g1; injection g1 with g1; injection g1 with _ g1; subst g1
  have hc : fastLogChunks env.logThreads (0, e) = min (env.logThreads + 1) e := by simp [fastLogChunks]
  obtain ⟨s, r1, r2, r3⟩ := run_spec hk hg (fun m hm => (g2 (min (env.logThreads + 1) e) (by omega) m hm).1)
    hv.mems hv.order
  obtain ⟨r, t1, t2⟩ := tree_reduce (combine op) P h1 h2 env.tree (results k (min (env.logThreads + 1) e) maps)
    (by rw [hv.tree, results]; simp)
  refine ⟨r, ?_, t2⟩
  rw [fastChunks, he]
  simp only [Option.bind_some, hc]
  rw [r1, Option.bind_some, r3, Option.bind_some, t1, r2]
  rfl

/-- C75, `accumulate_kernels`.  The kernels of both layers see the chunks of their number of kernels; the result is the sum
of what they return, or the first error; mutable memory has what they left.  On the fast layer this is so for every number
of threads, schedule, reduction tree and contents of the scratch memory.

Partial: the documentation promises scratchpads of zeros, and this is for kernels that do not depend on what is in them
(`C75_scratch_not_zero`). -/
theorem C75_accumulate_partial [AddCommMonoid F] {k : Kernel F E (List F)} {maps : List (MemMap F)} (hne : maps ≠ [])
    (hp : PowersOfTwo maps) (hk : Typed k) (hg : IgnoresScratch maps k) :
    (∀ e, logChunksRange 0 maps = some (some (0, e)) →
      ∃ r, cpuAccumulate k maps = some (after k e maps, r) ∧ IsTotal (results k e maps) r) ∧
    ∀ w e noRange env, logChunksRange w maps = some (some (0, e)) → env.Valid w (min (env.logThreads + 1) e) →
      ∃ r, fastAccumulate w noRange env k maps = some (after k (min (env.logThreads + 1) e) maps, r) ∧
        IsTotal (results k (min (env.logThreads + 1) e) maps) r := by
  constructor
  · intro e he
    rw [cpuAccumulate, cpuChunks_spec hne hp hk hg he, Option.bind_some]
    have hl : (results k e maps).length = 2 ^ e := by simp [results]
    have := Nat.two_pow_pos e
    cases hr : results k e maps with
    | nil => rw [hr, List.length_nil] at hl; omega
    | cons r rs => exact ⟨_, rfl, foldl_total rs [r] r (isTotal_single r)⟩
  · intro w e noRange env he hv
    obtain ⟨r, h1, h2⟩ := fastChunks_spec (noRange := noRange) (op := addVec) hne hp hk hg he hv IsTotal isTotal_single
      fun as bs a b => isTotal_append
    refine ⟨r, ?_, h2⟩
    rw [fastAccumulate, h1]
    cases r <;> rfl

/-- C75, the number of kernels does not show: for a kernel that works position by position both layers give what one kernel
gives that runs over all of the memory, in the result and in the memory, whatever the number of threads. -/
theorem C75_thread_count [AddCommMonoid F] {k : Kernel F E (List F)} {maps : List (MemMap F)} (hne : maps ≠ [])
    (hp : PowersOfTwo maps) (hk : Typed k) (hg : IgnoresScratch maps k) (hs : Splits maps k) :
    cpuAccumulate k maps = some (written maps (k 0 (whole maps)).1, (k 0 (whole maps)).2) ∧
    ∀ w e noRange env, logChunksRange w maps = some (some (0, e)) → env.Valid w (min (env.logThreads + 1) e) →
      fastAccumulate w noRange env k maps = some (written maps (k 0 (whole maps)).1, (k 0 (whole maps)).2) := by
  have h0 : chunkBufs 0 0 maps = whole maps := by
    refine List.map_congr_left fun m _ => ?_
    cases m <;> simp [chunkBuf, chunk]
  have hr : total (results k 0 maps) = (k 0 (whole maps)).2 := by
    simp [results, total_single, h0]
  have ha : after k 0 maps = written maps (k 0 (whole maps)).1 := by
    simp only [after, written, outputs, pow_zero, List.range_one, List.flatMap_singleton, h0]
  obtain ⟨c1, c2⟩ := C75_accumulate_partial hne hp hk hg
  constructor
  · obtain ⟨e, e1, e2, _⟩ := logChunksRange_ok (w := 0) hne hp
    obtain ⟨r, r1, r2⟩ := c1 e e1
    obtain ⟨s1, s2⟩ := split_all (w := 0) hk hs e fun c hc m hm => (e2 c hc m hm).1
    rw [r1, isTotal_iff.1 r2, s1, s2, hr, ha]
  · intro w e noRange env he hv
    obtain ⟨e', e1, e2, _⟩ := logChunksRange_ok (w := w) hne hp
    rw [he] at e1
    injection e1 with e1; injection e1 with e1; injection e1 with _ e1; subst e1
    obtain ⟨r, r1, r2⟩ := c2 w e noRange env he hv
    obtain ⟨s1, s2⟩ := split_all (w := w) hk hs (min (env.logThreads + 1) e) fun c hc m hm => (e2 c (by omega) m hm).1
    rw [r1, isTotal_iff.1 r2, s1, s2, hr, ha]

/-- C75, `map_kernels`.  Mutable memory has what the kernels left, on both layers and for every environment; the fast layer
returns the first error.  Partial: as `C75_accumulate_partial`, and the CPU layer never returns an error
(`C75_map_drops_errors`). -/
theorem C75_map_partial [Zero F] {k : Kernel F E Unit} {maps : List (MemMap F)} (hne : maps ≠ [])
    (hp : PowersOfTwo maps) (hk : Typed k) (hg : IgnoresScratch maps k) :
    (∀ e, logChunksRange 0 maps = some (some (0, e)) → cpuMap k maps = some (after k e maps, .ok ())) ∧
    ∀ w e noRange env, logChunksRange w maps = some (some (0, e)) → env.Valid w (min (env.logThreads + 1) e) →
      ∃ r, fastMap w noRange env k maps = some (after k (min (env.logThreads + 1) e) maps, r) ∧
        FirstError (results k (min (env.logThreads + 1) e) maps) r := by
  constructor
  · intro e he
    rw [cpuMap, cpuChunks_spec hne hp hk hg he]
    rfl
  · intro w e noRange env he hv
    obtain ⟨r, h1, h2⟩ := fastChunks_spec (noRange := noRange) (op := fun _ _ => ()) hne hp hk hg he hv FirstError
      firstError_single fun as bs a b => firstError_append
    refine ⟨r, ?_, h2⟩
    rw [fastMap, h1]
    cases r <;> rfl

/-- C75, bad mappings: data of a length that is no power of two is a panic on both layers before any kernel runs; no
mappings are a panic on the CPU layer and an error on the fast one. -/
theorem C75_bad_mappings [AddCommMonoid F] (k : Kernel F E (List F)) (w : Nat) (noRange : E) (env : Env F) :
    (∀ maps : List (MemMap F), ¬ PowersOfTwo maps →
      cpuAccumulate k maps = none ∧ fastAccumulate w noRange env k maps = none) ∧
    cpuAccumulate k [] = none ∧ fastAccumulate w noRange env k [] = some ([], .error noRange) := by
  refine ⟨fun maps h => ?_, rfl, rfl⟩
  have hn : ∀ w, ∃ m ∈ maps, logChunksEnd w m = none := by
    intro w
    simp only [PowersOfTwo, not_forall] at h
    obtain ⟨m, hm, h⟩ := h
    refine ⟨m, hm, ?_⟩
    cases m with
    | chunked d l => simp only [not_exists] at h; rw [logChunksEnd, strictLog2_none.2 h]; rfl
    | chunkedMut d l => simp only [not_exists] at h; rw [logChunksEnd, strictLog2_none.2 h]; rfl
    | scratch l => exact absurd trivial h
  constructor
  · rw [cpuAccumulate, cpuChunks, logChunksRange_panic (hn 0)]; rfl
  · rw [fastAccumulate, fastChunks, logChunksRange_panic (hn w)]; rfl

/-! ### Findings -/

/-- A kernel that returns the first scalar of its scratchpad and leaves a one there. -/
def counter : Kernel (ZMod 2) Unit (List (ZMod 2)) := fun _ bufs => match bufs with
  | [.ref d, .mutable (x :: xs)] => ([.ref d, .mutable (1 :: xs)], .ok [x])
  | bufs => (bufs, .ok [])

/-- C75, finding: scratchpads are not zero.  The second kernel on a thread sees what the first left in its scratchpad, on
both layers, and the first kernel of the fast layer what an earlier call left: the results are not the ones for scratchpads
of zeros. -/
theorem C75_scratch_not_zero :
    let maps : List (MemMap (ZMod 2)) := [.chunked [0, 0] 0, .scratch 1]
    results counter 1 maps = [.ok [0], .ok [0]] ∧
    (cpuAccumulate counter maps).map Prod.snd = some (.ok [1]) ∧
    (fastAccumulate 0 () ⟨0, [(0, 0), (1, 0)], .node .leaf .leaf, fun _ => []⟩ counter maps).map Prod.snd =
      some (.ok [1]) ∧
    (fastAccumulate 0 () ⟨0, [(0, 0), (1, 1)], .node .leaf .leaf, fun _ => []⟩ counter maps).map Prod.snd =
      some (.ok [0]) := by
  refine ⟨rfl, rfl, rfl, rfl⟩

/-- C75, finding: the CPU layer reports success for kernels that fail; the fast layer reports the error. -/
theorem C75_map_drops_errors :
    let k : Kernel (ZMod 2) Unit Unit := fun _ bufs => (bufs, .error ())
    let maps : List (MemMap (ZMod 2)) := [.chunked [0, 0] 0]
    (cpuMap k maps).map Prod.snd = some (.ok ()) ∧
    (fastMap 0 () ⟨0, [(0, 0), (1, 0)], .node .leaf .leaf, fun _ => []⟩ k maps).map Prod.snd = some (.error ()) := by
  refine ⟨rfl, rfl⟩

/-! ### The hypotheses are met -/

/-- Writes threes. -/
def Buf.fill : Buf (ZMod 5) → Buf (ZMod 5)
  | .ref d => .ref d
  | .mutable d => .mutable (d.map fun _ => 3)

/-- A kernel that doubles a mutable buffer, writes a scratchpad and returns sums. -/
def sumKernel : Kernel (ZMod 5) Unit (List (ZMod 5)) := fun _ bufs => match bufs with
  | [.ref d, .mutable m, s] => ([.ref d, .mutable (m.map (· * 2)), s.fill], .ok [d.sum, m.sum])
  | bufs => (bufs, .ok [])

def sumMaps : List (MemMap (ZMod 5)) := [.chunked [1, 2, 3, 4] 0, .chunkedMut [1, 1, 2, 4, 1, 2, 3, 4] 1, .scratch 3]

theorem sumKernel_typed : Typed sumKernel := by
  intro c bufs
  unfold sumKernel
  split
  · rename_i s
    cases s <;> simp [Buf.fixed, Buf.fill]
  · rfl

theorem fill_length (b : Buf (ZMod 5)) : b.fill.data.length = b.data.length := by cases b <;> simp [Buf.fill, Buf.data]

theorem sumKernel_ignores : IgnoresScratch sumMaps sumKernel := by
  intro c bufs bufs' h h' e
  match bufs, bufs', h, h' with
  | [a, b, s], [a', b', s'], _, _ =>
    simp only [sumMaps, clear, List.cons.injEq, Buf.mutable.injEq, and_true] at e
    obtain ⟨rfl, rfl, e⟩ := e
    have e : s.data.length = s'.data.length := by simpa using congrArg List.length e
    cases a <;> cases b <;> simp [sumKernel, sumMaps, clear, fill_length, e]

theorem chunk_halves {d : List (ZMod 5)} (h : 2 ∣ d.length) : chunk 1 0 d ++ chunk 1 1 d = d := by
  have : (d.drop (d.length / 2)).take (d.length / 2) = d.drop (d.length / 2) :=
    List.take_of_length_le (by rw [List.length_drop]; omega)
  simp [chunk, this]

theorem half_join {b : Buf (ZMod 5)} (h : 2 ∣ b.data.length) : (b.half false).join (b.half true) = b := by
  cases b <;> simp only [Buf.half, Buf.join, Buf.data, Bool.toNat_false, Bool.toNat_true] at h ⊢ <;> rw [chunk_halves h]

theorem sumKernel_splits : Splits sumMaps sumKernel := by
  intro c bufs h he
  match bufs, h with
  | [a, b, s], _ =>
    have ha := he a (by simp)
    have hb := he b (by simp)
    have hs := he s (by simp)
    have hls : ((s.half false).fill.join (s.half true).fill).data.length = s.fill.data.length := by
      rw [join_data, List.length_append, fill_length, fill_length, fill_length, ← List.length_append, ← join_data,
        half_join hs]
    have ht : ∀ x y : Except Unit (List (ZMod 5)), IsTotal [x, y] (combine addVec x y) := fun x y =>
      isTotal_append (isTotal_single x) (isTotal_single y)
    have hj := half_join ha
    have hj' := half_join hb
    have hj'' := half_join hs
    have hall : clear sumMaps [a, b, s] = clear sumMaps [(a.half false).join (a.half true),
        (b.half false).join (b.half true), (s.half false).join (s.half true)] := by rw [hj, hj', hj'']
    cases a with
    | mutable a => cases b <;> exact ⟨ht _ _, hall⟩
    | ref a => cases b with
      | ref b => exact ⟨ht _ _, hall⟩
      | mutable b =>
        simp only [Buf.data] at ha hb
        constructor
        · have := ht (.ok [(chunk 1 0 a).sum, (chunk 1 0 b).sum]) (.ok [(chunk 1 1 a).sum, (chunk 1 1 b).sum])
          simp only [combine, addVec, ← List.sum_append, chunk_halves ha, chunk_halves hb] at this
          exact this
        · have : clear sumMaps [.ref a, .mutable (b.map (· * 2)), s.fill] =
              clear sumMaps [.ref (chunk 1 0 a ++ chunk 1 1 a),
                .mutable ((chunk 1 0 b).map (· * 2) ++ (chunk 1 1 b).map (· * 2)),
                (s.half false).fill.join (s.half true).fill] := by
            rw [← List.map_append, chunk_halves ha, chunk_halves hb]
            simp only [sumMaps, clear, hls]
          exact this

example : Env.Valid 0 1 (⟨0, [(1, 3), (0, 7)], .node .leaf .leaf, fun t => List.replicate t 4⟩ : Env (ZMod 5)) :=
  ⟨by decide, rfl, by simp⟩

example : sumMaps ≠ [] ∧ PowersOfTwo sumMaps ∧ logChunksRange 0 sumMaps = some (some (0, 2)) ∧
    logChunksRange 1 sumMaps = some (some (0, 1)) ∧
    (fastAccumulate 0 () ⟨0, [(1, 3), (0, 7)], .node .leaf .leaf, fun t => List.replicate t 4⟩ sumKernel sumMaps).map
      Prod.snd = some (.ok [0, 3]) := by
  refine ⟨by simp [sumMaps], ?_, rfl, rfl, rfl⟩
  intro m hm
  simp only [sumMaps, List.mem_cons, List.not_mem_nil, or_false] at hm
  rcases hm with rfl | rfl | rfl
  · exact ⟨2, rfl⟩
  · exact ⟨3, rfl⟩
  · trivial

example : cpuAccumulate sumKernel sumMaps = some ([.chunked [1, 2, 3, 4] 0, .chunkedMut [2, 2, 4, 3, 2, 4, 1, 3] 1,
    .scratch 3], .ok [0, 3]) := by
  have hp : PowersOfTwo sumMaps := by
    intro m hm
    simp only [sumMaps, List.mem_cons, List.not_mem_nil, or_false] at hm
    rcases hm with rfl | rfl | rfl
    · exact ⟨2, rfl⟩
    · exact ⟨3, rfl⟩
    · trivial
  rw [(C75_thread_count (by simp [sumMaps]) hp sumKernel_typed sumKernel_ignores sumKernel_splits).1]
  rfl

end Verif.Compute.Kernel
