import Verif.M3.LemmasMerkleGen

/-! C77: the Merkle tree gadget proves inclusion. -/

namespace Verif.M3.Merkle

open Verif.M3.Emulate

variable {D : Type} [DecidableEq D]

/-- C77, the tree of the trace: every leaf has a path that verifies against the root, which is the digest of all leaves; a
number of leaves that is no power of two and an index out of range panic. -/
theorem C77_tree [Inhabited D] (compress : D → D → D) (leaves : List D) :
    (∀ n, leaves.length = 2 ^ n → ∃ nodes, treeNew compress leaves = some (n, nodes, nodeOf compress leaves n 0) ∧
      (∀ index leaf, leaves[index]? = some leaf → ∃ path, merklePath n nodes index = some path ∧ path.length = n ∧
        verifyPath compress path (nodeOf compress leaves n 0) leaf index = true) ∧
      ∀ index, 2 ^ n ≤ index → merklePath n nodes index = none) ∧
    ((¬ ∃ n, leaves.length = 2 ^ n) → treeNew compress leaves = none) := by
  constructor
  · intro n hn
    refine ⟨_, treeNew_eq compress hn, ?_, ?_⟩
    · intro index leaf hl
      have hi : index < 2 ^ n := by
        rw [← hn]
        exact (List.getElem?_eq_some_iff.1 hl).1
      refine ⟨_, merklePath_eq compress leaves hi, by simp, ?_⟩
      rw [verifyPath, Bool.and_eq_true, decide_eq_true_eq, decide_eq_true_eq, verifyLoop_climb, Nat.shiftRight_zero]
      refine ⟨by simpa using hi, ?_⟩
      have := nodeOf_climb compress leaves n 0 index hi
      rw [zero_add] at this
      rw [← this]
      congr 1
      rw [nodeOf, hl]
      rfl
    · intro index hi
      rw [merklePath, if_neg (by omega)]
  · intro h
    rw [treeNew]
    simp only
    rw [if_pos fun he => h ⟨_, he⟩]

example : treeNew (fun a b : Nat => 2 * a + 3 * b) [1, 2, 3, 4] = some (2, [1, 2, 3, 4, 8, 18, 70], 70) ∧
    merklePath 2 [1, 2, 3, 4, 8, 18, 70] 2 = some [4, 8] ∧
    verifyPath (fun a b : Nat => 2 * a + 3 * b) [4, 8] 70 3 2 = true := by decide

/-- C77, `verify_path` accepts exactly the openings, and two accepted openings of different leaves at one position give a
collision of the compression function. -/
theorem C77_verify_path (compress : D → D → D) (path : List D) (root leaf : D) (index : Nat) :
    (verifyPath compress path root leaf index = true ↔
      index < 2 ^ path.length ∧ climb compress index leaf path = root) ∧
    ∀ path' leaf', path'.length = path.length → leaf' ≠ leaf → verifyPath compress path root leaf index = true →
      verifyPath compress path' root leaf' index = true →
      ∃ a b c d, (a, b) ≠ (c, d) ∧ compress a b = compress c d := by
  have hiff : ∀ path leaf, verifyPath compress path root leaf index = true ↔
      index < 2 ^ path.length ∧ climb compress index leaf path = root := by
    intro path leaf
    rw [verifyPath, Bool.and_eq_true, decide_eq_true_eq, decide_eq_true_eq, verifyLoop_climb, Nat.shiftRight_zero]
  refine ⟨hiff path leaf, ?_⟩
  intro path' leaf' hlen hne h1 h2
  have e := ((hiff _ _).1 h1).2.trans ((hiff _ _).1 h2).2.symm
  clear h1 h2 hiff
  induction path generalizing index leaf leaf' path' with
  | nil =>
    obtain rfl := List.length_eq_zero_iff.1 hlen
    exact absurd e.symm hne
  | cons s path ih =>
    obtain ⟨s', path', rfl⟩ := List.exists_cons_of_length_eq_add_one hlen
    simp only [climb] at e
    by_cases hi : index % 2 = 0
    · rw [if_pos hi, if_pos hi] at e
      by_cases hc : compress leaf' s' = compress leaf s
      · exact ⟨leaf', s', leaf, s, fun h => hne (congrArg Prod.fst h), hc⟩
      · exact ih _ _ path' _ (by simpa using hlen) hc e
    · rw [if_neg hi, if_neg hi] at e
      by_cases hc : compress s' leaf' = compress s leaf
      · exact ⟨s', leaf', s, leaf, fun h => hne (congrArg Prod.snd h), hc⟩
      · exact ih _ _ path' _ (by simpa using hlen) hc e

/-- C77, soundness of the trace: if the channels balance and every event has the digest of its children, then each leaf of
the boundary is included, at its depth and index, under a root of the boundary with its identifier. -/
theorem C77_validate_sound (compress : D → D → D) (t : Trace D) (hv : t.validate = true)
    (he : ∀ e ∈ t.nodes, e.parent = compress e.left e.right) : ∀ l ∈ t.leaf, ∃ r ∈ t.root, r.rootId = l.rootId ∧
      Included compress r.data l.depth l.index l.data := by
  rw [Trace.validate, Bool.and_eq_true, C49_balanced, C49_balanced] at hv
  obtain ⟨hn, hr⟩ := hv
  have key : ∀ (n : Nat) (l : NodeToken D), l.depth = n →
      Op.push l ∈ t.leaf.map .push ++ t.rootEvents.map RootToken.fire ++ t.nodes.flatMap PathEvent.fire →
      ∃ r ∈ t.root, r.rootId = l.rootId ∧ Included compress r.data l.depth l.index l.data := by
    intro n
    induction n with
    | zero =>
      intro l hl hp
      have hq := List.count_pos_iff.1 (hn l ▸ List.count_pos_iff.2 hp)
      simp only [List.mem_append, List.mem_map, List.mem_flatMap, reduceCtorEq, and_false, exists_false, false_or] at hq
      rcases hq with ⟨re, hre, heq⟩ | ⟨e, hem, hpull⟩
      · simp only [RootToken.fire, Op.pull.injEq] at heq
        have hpull : Op.pull re ∈ t.root.map Op.push ++ t.rootEvents.map Op.pull :=
          List.mem_append_right _ (List.mem_map.2 ⟨re, hre, rfl⟩)
        have := List.count_pos_iff.1 (hr re ▸ List.count_pos_iff.2 hpull)
        simp only [List.mem_append, List.mem_map, Op.push.injEq, exists_eq_right, reduceCtorEq, and_false, exists_false,
          or_false] at this
        exact ⟨re, this, by rw [← heq], by rw [← heq]; exact ⟨by simp, [], rfl, rfl⟩⟩
      · rcases pull_mem_fire hpull with h | h <;> rw [h] at hl <;> simp at hl
    | succ n ih =>
      intro l hl hp
      have hq := List.count_pos_iff.1 (hn l ▸ List.count_pos_iff.2 hp)
      simp only [List.mem_append, List.mem_map, List.mem_flatMap, reduceCtorEq, and_false, exists_false, false_or] at hq
      rcases hq with ⟨re, hre, heq⟩ | ⟨e, hem, hpull⟩
      · simp only [RootToken.fire, Op.pull.injEq] at heq
        rw [← heq] at hl
        simp at hl
      · have hpush : Op.push (⟨e.rootId, e.parent, e.parentDepth, e.parentIndex⟩ : NodeToken D) ∈
            t.leaf.map .push ++ t.rootEvents.map RootToken.fire ++ t.nodes.flatMap PathEvent.fire :=
          List.mem_append_right _ (List.mem_flatMap.2 ⟨e, hem, by simp [PathEvent.fire]⟩)
        have hd : e.parentDepth = n := by
          rcases pull_mem_fire hpull with h | h <;> rw [h] at hl <;> simpa using hl
        obtain ⟨r, hr1, hr2, hr3⟩ := ih _ hd hpush
        rw [he e hem] at hr3
        rcases pull_mem_fire hpull with h | h
        · exact ⟨r, hr1, by rw [h]; exact hr2, by rw [h]; exact included_left hr3⟩
        · exact ⟨r, hr1, by rw [h]; exact hr2, by rw [h]; exact included_right hr3⟩
  intro l hl
  exact key _ l rfl (List.mem_append_left _ (List.mem_append_left _ (List.mem_map.2 ⟨l, hl, rfl⟩)))

example : (⟨[⟨0, 3, 1, 1⟩], [⟨0, 11⟩], [⟨0, 1, 3, 11, 0, 0, false, true⟩], [⟨0, 11⟩]⟩ : Trace Nat).validate = true := by decide

/-- C77, the compression function that the columns of a row compute is the one on bytes, with byte `8 k + j` in row `j` and
column `k`. -/
theorem C77_compress (perm : (Fin 64 → Byte) → (Fin 64 → Byte)) (l r : Fin 32 → Byte) :
    compressRows (fun s => toRows8 (perm (ofRows8 s))) (toRows l) (toRows r) = toRows (compressBytes perm l r) :=
  compress_rows perm l r

/-- C77, soundness of the tables: if the rows satisfy their constraints, the channels balance and no depth overflows, then
each leaf of the boundary is included at its depth under a root of the boundary with its identifier, at its index if the
depth is at most 32, and at an index with these 32 low bits in any case.

Partial: the constraints do not exclude that a depth overflows (`C77_depth_wraps`). -/
theorem C77_tables_sound_partial (perm : Rows8 → Rows8) (t : Tables) (hr : ∀ r ∈ t.rows, r.Holds perm)
    {leaf : List (NodeToken Rows4)} {root : List (RootToken Rows4)} (hn : (t.pushes leaf).Perm t.pulls)
    (hroot : root.Perm t.rootPulls) (hc : ∀ r ∈ t.rows, r.parentDepth ≠ 255) :
    ∀ l ∈ leaf, ∃ r ∈ root, r.rootId = l.rootId ∧
      (∃ idx, idx % 2 ^ 32 = l.index ∧ Included (compressRows perm) r.data l.depth idx l.data) ∧
      (l.depth ≤ 32 → Included (compressRows perm) r.data l.depth l.index l.data) := by
  have hdepth : ∀ r ∈ t.rows, r.childDepth.toNat = r.parentDepth.toNat + 1 := by
    intro r h
    have h1 := (hr r h).depth
    have h2 := hc r h
    have h3 : r.parentDepth.toNat ≠ 255 := fun he => h2 (BitVec.eq_of_toNat_eq he)
    have h4 := r.parentDepth.isLt
    have h5 := r.childDepth.isLt
    cases hco : r.carryOut <;> rw [hco] at h1 <;> simp at h1 <;> omega
  have hpulls : ∀ l ∈ t.pulls, (∃ r ∈ t.rows, l = r.pullLeft ∨ l = r.pullRight) ∨
      ∃ rr ∈ t.roots, l = ⟨rr.1.toNat, rr.2, 0, 0⟩ := by
    intro l hl
    simp only [Tables.pulls, List.mem_append, List.mem_map, List.mem_flatMap, List.mem_cons, List.not_mem_nil,
      or_false] at hl
    simp only [Tables.rows, List.mem_append]
    rcases hl with ((⟨r, h, rfl⟩ | ⟨r, h, rfl⟩) | ⟨r, h, h'⟩) | ⟨r, h, rfl⟩
    · exact .inl ⟨r, by simp [h], .inl rfl⟩
    · exact .inl ⟨r, by simp [h], .inr rfl⟩
    · exact .inl ⟨r, by simp [h], h'⟩
    · exact .inr ⟨r, h, rfl⟩
  have key : ∀ (n : Nat) (l : NodeToken Rows4), l.depth = n → l ∈ t.pushes leaf →
      ∃ r ∈ root, r.rootId = l.rootId ∧
        ∃ idx, idx % 2 ^ 32 = l.index ∧ Included (compressRows perm) r.data l.depth idx l.data := by
    intro n
    induction n with
    | zero =>
      intro l hl hp
      rcases hpulls l (hn.mem_iff.1 hp) with ⟨r, h, he⟩ | ⟨rr, h, rfl⟩
      · have := hdepth r h
        rcases he with rfl | rfl <;> simp [Row.pullLeft, Row.pullRight] at hl <;> omega
      · exact ⟨⟨rr.1.toNat, rr.2⟩, hroot.mem_iff.2 (List.mem_map.2 ⟨rr, h, rfl⟩), rfl, 0, rfl, by simp, [], rfl, rfl⟩
    | succ n ih =>
      intro l hl hp
      rcases hpulls l (hn.mem_iff.1 hp) with ⟨r, h, he⟩ | ⟨rr, h, rfl⟩
      · have hd := hdepth r h
        have hd' : r.push.depth = n := by
          rcases he with rfl | rfl <;> simp only [Row.pullLeft, Row.pullRight] at hl <;> simp only [Row.push] <;> omega
        obtain ⟨rt, h1, h2, idx, h3, h4⟩ := ih r.push hd' (List.mem_append_right _ (List.mem_map.2 ⟨r, h, rfl⟩))
        simp only [Row.push] at h2 h3 h4
        rw [parent_eq (hr r h)] at h4
        rcases he with rfl | rfl
        · refine ⟨rt, h1, h2, 2 * idx, leftIndex_eq r h3, ?_⟩
          simp only [Row.pullLeft, hd]
          exact included_left h4
        · refine ⟨rt, h1, h2, 2 * idx + 1, rightIndex_eq r h3, ?_⟩
          simp only [Row.pullRight, hd]
          exact included_right h4
      · simp at hl
  intro l hl
  obtain ⟨r, h1, h2, idx, h3, h4⟩ := key _ l rfl (List.mem_append_left _ hl)
  refine ⟨r, h1, h2, ⟨idx, h3, h4⟩, fun hd => ?_⟩
  have : idx < 2 ^ 32 := lt_of_lt_of_le h4.1 (Nat.pow_le_pow_right (by omega) hd)
  rw [Nat.mod_eq_of_lt this] at h3
  rwa [← h3]

/-- The hypotheses hold for the right child of a root. -/
example (perm : Rows8 → Rows8) (l r : Rows4) : ∃ t : Tables, (∀ r ∈ t.rows, r.Holds perm) ∧
    (t.pushes [⟨0, r, 1, 1⟩]).Perm t.pulls ∧ [(⟨0, compressRows perm l r⟩ : RootToken Rows4)].Perm t.rootPulls ∧
    ∀ r ∈ t.rows, r.parentDepth ≠ 255 := by
  have h : (⟨0, l, r, joined l r, perm (joined l r), 0, 1, false, 0⟩ : Row).Holds perm := ⟨rfl, rfl, rfl⟩
  refine ⟨⟨[], [⟨0, l, r, joined l r, perm (joined l r), 0, 1, false, 0⟩], [], [(0, compressRows perm l r)]⟩, ?_, ?_, ?_, ?_⟩
  · simpa [Tables.rows] using h
  · simp only [Tables.pushes, Tables.pulls, Tables.rows, List.map_nil, List.nil_append, List.append_nil, List.flatMap_nil,
      List.map_cons, List.singleton_append, Row.push, Row.pullRight, parent_eq h]
    exact List.Perm.of_eq (by simp [Row.rightIndex, Row.leftIndex])
  · exact List.Perm.of_eq rfl
  · simp [Tables.rows]

/-- Finding: depths wrap around, as the carry of the increment is free.  For every digest and every 256 siblings there are
tables that satisfy all constraints and balance the channels for a leaf that is claimed at depth 0, that is to be the root,
while the root is 256 steps above it. -/
theorem C77_depth_wraps (perm : Rows8 → Rows8) (leaf : Rows4) (siblings : Nat → Rows4) :
    ∃ t : Tables, (∀ r ∈ t.rows, r.Holds perm) ∧ (t.pushes [⟨0, leaf, 0, 0⟩]).Perm t.pulls ∧
      [(⟨0, climb (compressRows perm) 0 leaf ((List.range 256).map siblings)⟩ : RootToken Rows4)].Perm t.rootPulls := by
  let cur : Nat → Rows4 := fun k => climb (compressRows perm) 0 leaf ((List.range k).map siblings)
  have hcur : ∀ k, cur (k + 1) = compressRows perm (cur k) (siblings k) := by
    intro k
    simp only [cur]
    rw [List.range_succ, List.map_append, climb_zero_append]
    rfl
  let row : Nat → Row := fun k => ⟨0, cur k, siblings k, joined (cur k) (siblings k), perm (joined (cur k) (siblings k)),
    BitVec.ofNat 8 (255 - k), BitVec.ofNat 8 (256 - k), decide (k = 0), 0⟩
  have hhold : ∀ k < 256, (row k).Holds perm := by
    intro k hk
    refine ⟨rfl, rfl, ?_⟩
    simp only [row, BitVec.toNat_ofNat]
    rcases Nat.eq_zero_or_pos k with rfl | h0
    · rfl
    · rw [decide_eq_false (by omega)]
      simp only [Bool.toNat_false]
      omega
  let tok : Nat → NodeToken Rows4 := fun k => ⟨0, cur k, (256 - k) % 256, 0⟩
  have hpush : ∀ k < 256, (row k).push = tok (k + 1) := by
    intro k hk
    simp only [Row.push, tok, NodeToken.mk.injEq]
    refine ⟨rfl, ?_, ?_, rfl⟩
    · rw [parent_eq (hhold k hk), hcur]
    · simp only [row, BitVec.toNat_ofNat]
      omega
  have hpull : ∀ k < 256, (row k).pullLeft = tok k := by
    intro k hk
    simp only [Row.pullLeft, tok, NodeToken.mk.injEq]
    refine ⟨rfl, rfl, ?_, rfl⟩
    simp only [row, BitVec.toNat_ofNat]
  refine ⟨⟨(List.range 256).map row, [], [], [(0, cur 256)]⟩, ?_, ?_, by simp [Tables.rootPulls, cur]⟩
  · intro r hr
    simp only [Tables.rows, List.append_nil] at hr
    obtain ⟨k, hk, rfl⟩ := List.mem_map.1 hr
    exact hhold k (List.mem_range.1 hk)
  · have gen1 : ∀ n (f : Nat → NodeToken Rows4), f 0 :: (List.range n).map (fun k => f (k + 1)) =
        (List.range (n + 1)).map f := by
      intro n f
      rw [List.range_succ_eq_map, List.map_cons, List.map_map]
      rfl
    have gen2 : ∀ n (f : Nat → NodeToken Rows4), (List.range n).map f ++ [f n] = (List.range (n + 1)).map f := by
      intro n f
      rw [List.range_succ, List.map_append]
      rfl
    have e1 : ((List.range 256).map row).map Row.push = (List.range 256).map fun k => tok (k + 1) := by
      rw [List.map_map]
      exact List.map_congr_left fun k hk => hpush k (List.mem_range.1 hk)
    have e2 : ((List.range 256).map row).map Row.pullLeft = (List.range 256).map tok := by
      rw [List.map_map]
      exact List.map_congr_left fun k hk => hpull k (List.mem_range.1 hk)
    simp only [Tables.pushes, Tables.pulls, Tables.rows, List.append_nil, List.map_nil, List.flatMap_nil, List.map_cons,
      List.singleton_append, e1, e2]
    have h1 := gen1 256 tok
    have h2 := gen2 256 tok
    rw [← h2] at h1
    exact List.Perm.of_eq h1

/-- With a permutation and siblings for which the root is another digest, so that the claim that the tables prove is
false. -/
example : ∃ (perm : Rows8 → Rows8) (leaf root : Rows4) (t : Tables), (∀ r ∈ t.rows, r.Holds perm) ∧
    (t.pushes [⟨0, leaf, 0, 0⟩]).Perm t.pulls ∧ [(⟨0, root⟩ : RootToken Rows4)].Perm t.rootPulls ∧
    ¬ Included (compressRows perm) root 0 0 leaf := by
  obtain ⟨t, h1, h2, h3⟩ := C77_depth_wraps (fun _ _ _ => 1) (fun _ _ => 0) (fun _ _ _ => 0)
  refine ⟨_, _, _, t, h1, h2, h3, ?_⟩
  have gen : ∀ n, climb (compressRows fun _ _ _ => 1) 0 (fun _ _ => 0)
      ((List.range (n + 1)).map fun _ _ _ => (0 : Byte)) 0 0 = 1 := by
    intro n
    rw [List.range_succ, List.map_append, climb_zero_append]
    simp [climb, compressRows, joined]
  rintro ⟨-, ss, hs, hc⟩
  obtain rfl := List.length_eq_zero_iff.1 hs
  have := congrFun (congrFun hc 0) 0
  rw [gen 255] at this
  exact absurd this (by decide)

/-- C77, completeness of the trace: for any paths of leaves of trees with the given roots, in any order and with any
repetitions, the trace is made, its boundaries are exactly the leaves and roots of the paths, every event has the digest of
its children and the channels balance. -/
theorem C77_generate [Inhabited D] (compress : D → D → D) (trees : List (List D)) (roots : List D) (paths : List (Path D))
    (h : ∀ p ∈ paths, FromTree compress trees roots p) : ∃ t, generate compress roots paths = some t ∧ t.validate = true ∧
      (∀ e ∈ t.nodes, e.parent = compress e.left e.right) ∧
      (∀ l, l ∈ t.leaf ↔ ∃ p ∈ paths, l = ⟨p.rootId, p.leaf, p.nodes.length, p.index⟩) ∧
      ∀ r, r ∈ t.root ↔ ∃ p ∈ paths, r.rootId = p.rootId ∧ roots[p.rootId]? = some r.data := by
  have hp := fun p hp => fromTree_path (h p hp)
  obtain ⟨s, h1, h2⟩ := generate_inv compress (treeNode_step compress trees) paths [] ⟨[], [], [], []⟩ hp
    ⟨List.nodup_nil, by simp, List.nodup_nil, by simp, rfl, [], ⟨List.nodup_nil, fun k => by simp [entry, Filled.get]⟩, by simp⟩
  rw [List.nil_append] at h2
  refine ⟨_, by rw [generate, h1]; rfl, gen_balanced (fun p h => (hp p h).1) h2,
    fun e he => (gen_events compress (treeNode_step compress trees) (fun p h => (hp p h).1) h2 e he).1, fun l => ?_, fun r => ?_⟩
  · rw [h2.leaf]
    refine exists_congr fun p => and_congr_right fun hm => ?_
    rw [(hp p hm).1.nodes, List.length_map, List.length_range]
  · rw [h2.root]
    refine exists_congr fun p => and_congr_right fun hm => ?_
    rw [(hp p hm).2, Option.some.injEq]
    obtain ⟨a, b⟩ := r
    simp only [RootToken.mk.injEq]
    exact and_congr_right fun _ => eq_comm

/-- Two paths of one tree of four leaves: they share the root event. -/
example : FromTree (fun a b : Nat => 2 * a + 3 * b) [[1, 2, 3, 4]] [70] ⟨0, 2, 3, [4, 8]⟩ ∧
    ((generate (fun a b : Nat => 2 * a + 3 * b) [70] [⟨0, 2, 3, [4, 8]⟩, ⟨0, 1, 2, [1, 18]⟩]).map fun t =>
      (t.nodes.length, t.validate)) = some (3, true) :=
  ⟨⟨[1, 2, 3, 4], 2, [1, 2, 3, 4, 8, 18, 70], 70, rfl, by decide, rfl, rfl, by decide⟩, by decide⟩

/-- Finding: valid paths of different lengths under one root can make a trace that does not validate: the inner node that
one path starts from is pushed by the boundary and by the event of the other path, but pulled once. -/
theorem C77_generate_mixed_lengths : ∃ (compress : Nat → Nat → Nat) (root : Nat) (p q : Path Nat),
    (∀ x ∈ [p, q], x.rootId = 0 ∧ verifyPath compress x.nodes root x.leaf x.index = true) ∧
    (generate compress [root] [p, q]).map Trace.validate = some false :=
  ⟨fun a b => 2 * a + 3 * b, 70, ⟨0, 2, 3, [4, 8]⟩, ⟨0, 1, 18, [8]⟩, by decide, by decide⟩

/-- C77, completeness of the tables: for any paths of leaves of trees with at most `2 ^ 32` leaves and fewer than 256 roots,
the tables are filled from the trace, their rows satisfy the constraints for the permutation and the channels balance with
the boundaries, which are the leaves and roots of the paths. -/
theorem C77_tables_complete (perm : (Fin 64 → Byte) → (Fin 64 → Byte)) (trees : List (List (Fin 32 → Byte)))
    (roots : List (Fin 32 → Byte)) (paths : List (Path (Fin 32 → Byte)))
    (h : ∀ p ∈ paths, FromTree (compressBytes perm) trees roots p ∧ p.rootId < 256 ∧ p.nodes.length ≤ 32) :
    ∃ t tables, generate (compressBytes perm) roots paths = some t ∧ fillTables perm t = some tables ∧
      (∀ r ∈ tables.rows, r.Holds fun s => toRows8 (perm (ofRows8 s))) ∧
      (tables.pushes (leafBoundaries t)).Perm tables.pulls ∧ (rootBoundaries t).Perm tables.rootPulls ∧
      (∀ l, l ∈ leafBoundaries t ↔ ∃ p ∈ paths, l = ⟨p.rootId, toRows p.leaf, p.nodes.length, p.index⟩) ∧
      ∀ r, r ∈ rootBoundaries t ↔ ∃ p ∈ paths, ∃ d, roots[p.rootId]? = some d ∧ r = ⟨p.rootId, toRows d⟩ := by
  have hp := fun p hp => fromTree_path (h p hp).1
  obtain ⟨s, h1, h2⟩ := generate_inv (compressBytes perm) (treeNode_step (compressBytes perm) trees) paths []
    ⟨[], [], [], []⟩ hp
    ⟨List.nodup_nil, by simp, List.nodup_nil, by simp, rfl, [], ⟨List.nodup_nil, fun k => by simp [entry, Filled.get]⟩, by simp⟩
  rw [List.nil_append] at h2
  have hlen : ∀ p ∈ paths, p.nodes.length = treeDepth trees p.rootId := fun p hm => by
    rw [(hp p hm).1.nodes, List.length_map, List.length_range]
  obtain ⟨tables, t1, t2, t3, t4⟩ := fill_balanced (perm := perm) (gen_balanced (fun p h => (hp p h).1) h2)
    (fun e he => by
      obtain ⟨e1, e2, e3, e4, p, hm, e5⟩ := gen_events _ (treeNode_step (compressBytes perm) trees) (fun p h => (hp p h).1) h2 e he
      have hd := (h p hm).2.2
      rw [hlen p hm, e5] at hd
      have : 2 ^ (e.parentDepth + 1) ≤ 2 ^ 32 := Nat.pow_le_pow_right (by omega) (by omega)
      rw [pow_succ] at this
      exact ⟨e1, e2, by omega, by omega, e5 ▸ (h p hm).2.1⟩)
    (fun r hr => by
      rw [h2.rootEvents] at hr
      obtain ⟨p, hm, rfl⟩ := (h2.root r).1 hr
      exact (h p hm).2.1)
  refine ⟨_, tables, by rw [generate, h1]; rfl, t1, t2, t3, t4, fun l => ?_, fun r => ?_⟩
  · simp only [leafBoundaries, List.mem_map, h2.leaf]
    constructor
    · rintro ⟨x, ⟨p, hm, rfl⟩, rfl⟩
      exact ⟨p, hm, by rw [hlen p hm]⟩
    · rintro ⟨p, hm, rfl⟩
      exact ⟨_, ⟨p, hm, rfl⟩, by rw [hlen p hm]⟩
  · simp only [rootBoundaries, List.mem_map, h2.root]
    constructor
    · rintro ⟨x, ⟨p, hm, rfl⟩, rfl⟩
      exact ⟨p, hm, _, (hp p hm).2, rfl⟩
    · rintro ⟨p, hm, d, hd, rfl⟩
      rw [(hp p hm).2, Option.some.injEq] at hd
      exact ⟨_, ⟨p, hm, rfl⟩, by rw [← hd]⟩

/-- The hypotheses hold for each leaf of a tree with two leaves, for any permutation. -/
example (perm : (Fin 64 → Byte) → (Fin 64 → Byte)) (a b : Fin 32 → Byte) :
    FromTree (compressBytes perm) [[a, b]] [compressBytes perm a b] ⟨0, 1, b, [a]⟩ := by
  refine ⟨[a, b], 1, _, _, rfl, treeNew_eq _ rfl, rfl, rfl, ?_⟩
  rw [merklePath_eq _ _ (show 1 < 2 ^ 1 by decide)]
  simp [List.range_succ, nodeOf]

end Verif.M3.Merkle
