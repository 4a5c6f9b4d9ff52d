import Verif.Hash.LemmasGroestl
import Verif.Hash.LemmasGroestlHash

/-! C78: Grøstl-256. -/

set_option linter.dupNamespace false

namespace Verif.Hash.Groestl

variable {S : Type}

/-! ### The functions -/

/-- The portable permutations, which look up a table, are those of Grøstl. -/
theorem C78_permutations (b : Bytes) : stateToBytes (p (stateFromBytes b)) = toBytes (permP (ofBytes b)) ∧
    stateToBytes (q (stateFromBytes b)) = toBytes (permQ (ofBytes b)) := by
  rw [stateToBytes_ok, stateToBytes_ok, p_ok, q_ok, stateFromBytes_ok]
  exact ⟨rfl, rfl⟩

/-- So are the compression function of the portable implementation and that of the trait. -/
theorem C78_compress (h m : Bytes) : stateToBytes (compressWords (stateFromBytes h) m) = toBytes (compress (ofBytes h) m) ∧
    stateToBytes (compressDefault (stateFromBytes h) m) = toBytes (compress (ofBytes h) m) := by
  rw [stateToBytes_ok, stateToBytes_ok, compressWords_ok, compressDefault_ok, stateFromBytes_ok]
  exact ⟨rfl, rfl⟩

theorem flatMap_length {α β : Type} (f : α → List β) (n : Nat) (h : ∀ a, (f a).length = n) : ∀ l : List α, (l.flatMap f).length = l.length * n
  | [] => by simp
  | a :: l => by rw [List.flatMap_cons, List.length_append, h, flatMap_length f n h l, List.length_cons, Nat.add_mul]; omega

theorem toBytes_length (s : State) : (toBytes s).length = 64 :=
  flatMap_length _ 8 (fun _ => by rw [List.length_map, List.length_finRange]) _

/-- Bytes become a state and back. -/
theorem C78_state_bytes (b : Bytes) (hb : b.length = 64) : stateToBytes (stateFromBytes b) = b := by
  rw [stateToBytes_ok, stateFromBytes_ok, toBytes]
  have h : ∀ n : Nat, n ≤ 8 → ((List.range n).flatMap fun j => (List.range 8).map fun i => b.getD (8 * j + i) 0) = b.take (8 * n) := by
    intro n
    induction n with
    | zero => intro _; simp
    | succ n ih =>
      intro hn
      rw [List.range_succ (n := n), List.flatMap_append, ih (by omega), show 8 * (n + 1) = 8 * n + 8 by omega, List.take_add]
      congr 1
      rw [List.flatMap_singleton]
      refine List.ext_getElem? fun k => ?_
      rw [List.getElem?_map, List.getElem?_take, List.getElem?_drop]
      by_cases hk : k < 8
      · rw [if_pos hk, List.getElem?_range hk, Option.map_some, List.getD_eq_getElem?_getD,
          List.getElem?_eq_getElem (by omega), Option.getD_some]
      · rw [if_neg hk, List.getElem?_eq_none (by rw [List.length_range]; omega)]; rfl
  have h8 := h 8 le_rfl
  rw [List.take_of_length_le (by omega)] at h8
  exact h8

/-- The compression of two digests is the output transformation, and gives a digest. -/
theorem C78_compress_digests (a b : Bytes) (ha : a.length = 32) (hb : b.length = 32) :
    byteCompression a b = some (compress2 a b) ∧ (compress2 a b).length = 32 := by
  rw [byteCompression, if_pos ⟨ha, hb⟩]
  constructor
  · dsimp only
    rw [stateToBytes_ok, xorState_ok, p_ok, stateFromBytes_ok]; rfl
  · rw [compress2, output, List.length_drop, toBytes_length]

/-! ### The hasher -/

/-- A string given in any pieces gets its Grøstl-256 hash. -/
theorem C78_hasher (ds : List Bytes) :
    (ds.foldl (fun h d => Core.update portable h d) (Core.new portable)).finalize portable = groestl256 ds.flatten := by
  have H : ∀ (ds : List Bytes) (h : Core Words) (m : Bytes), Rep portable h m →
      (ds.foldl (fun h d => Core.update portable h d) h).finalize portable = groestl256 (m ++ ds.flatten) := by
    intro ds
    induction ds with
    | nil => intro h m hr; rw [List.foldl_nil, rep_finalize hr, List.flatten_nil, List.append_nil]; exact portable_ok m
    | cons d ds ih =>
      intro h m hr
      rw [List.foldl_cons, ih _ _ (rep_update hr d), List.flatten_cons, List.append_assoc]
  exact H ds _ [] (groestl_computes portable).new

/-- So it is a digest for the buffer of serialization and the digests of many strings (`C73_buffer`, `C73_hash_serialize`,
`C73_parallel_digest`). -/
theorem C78_digest : ∃ R, (groestlDigest portable).Computes groestl256 R := by
  have h : (fun m => hashOf portable m) = groestl256 := funext portable_ok
  exact ⟨Rep portable, h ▸ groestl_computes portable⟩

/-- A hash has 32 bytes. -/
theorem C78_output_length (m : Bytes) : (groestl256 m).length = 32 := by
  rw [groestl256, merkleDamgard, output, List.length_drop, toBytes_length]

/-- The padded string is the string and full blocks. -/
theorem C78_padding_blocks (m : Bytes) : (m ++ pad m.length).length % 64 = 0 ∧ (m ++ pad m.length).length < m.length + 73 ∧
    (blocks (m ++ pad m.length)).flatten = m ++ pad m.length := by
  have hl : (m ++ pad m.length).length = m.length + 9 + (119 - m.length % 64) % 64 := by
    simp only [pad, List.length_append, List.length_cons, List.length_replicate, be64_length]; omega
  have hb : (m.drop (64 * (m.length / 64))).length < 64 := by rw [List.length_drop]; omega
  have hm : ∀ n (l : Bytes), l.length = 64 * n → ∃ bs : List Bytes, (∀ b ∈ bs, b.length = 64) ∧ l = bs.flatten := by
    intro n
    induction n with
    | zero => intro l hl; exact ⟨[], by simp, List.eq_nil_of_length_eq_zero (by omega)⟩
    | succ n ih =>
      intro l hl
      obtain ⟨bs, h1, h2⟩ := ih (l.drop 64) (by rw [List.length_drop]; omega)
      refine ⟨l.take 64 :: bs, ?_, by rw [List.flatten_cons, ← h2, List.take_append_drop]⟩
      intro b hb
      rcases List.mem_cons.1 hb with rfl | hb
      · rw [List.length_take]; omega
      · exact h1 b hb
  have h0 : (m ++ pad m.length).length % 64 = 0 := by omega
  refine ⟨h0, by omega, ?_⟩
  obtain ⟨bs, h1, h2⟩ := hm ((m ++ pad m.length).length / 64) (m ++ pad m.length) (by omega)
  rw [h2, (blocks_flatten bs h1).2]

theorem zeros_inj {α : Type} {z x : α} (hx : x ≠ z) : ∀ (a b : Nat) (l l' : List α),
    List.replicate a z ++ x :: l = List.replicate b z ++ x :: l' → l = l'
  | 0, 0, _, _, h => by simpa using h
  | 0, b + 1, l, l', h => by
    rw [List.replicate_succ, List.replicate_zero, List.nil_append, List.cons_append] at h
    exact absurd (List.cons.inj h).1 hx
  | a + 1, 0, l, l', h => by
    rw [List.replicate_succ, List.replicate_zero, List.nil_append, List.cons_append] at h
    exact absurd (List.cons.inj h).1.symm hx
  | a + 1, b + 1, l, l', h => by
    rw [List.replicate_succ, List.replicate_succ, List.cons_append, List.cons_append] at h
    exact zeros_inj hx a b l l' (List.cons.inj h).2

/-- Different strings are different when padded. -/
theorem C78_padding_injective (m m' : Bytes) (h : m ++ pad m.length = m' ++ pad m'.length) : m = m' := by
  unfold pad at h
  rw [← List.append_assoc, ← List.append_assoc] at h
  have h := (List.append_inj_left' h rfl)
  have h := congrArg List.reverse h
  rw [List.reverse_append, List.reverse_append, List.reverse_cons, List.reverse_cons, List.reverse_replicate,
    List.reverse_replicate, List.append_assoc, List.append_assoc] at h
  exact List.reverse_inj.1 (zeros_inj (by decide) _ _ _ _ h)

/-! ### Four strings at once -/

/-- Four strings in any pieces, which in each step have the length of the piece of the first string or are empty: nothing
panics, and a string all of whose pieces have the lengths of those of the first gets its hash. -/
theorem C78_multi (I : Impl S) (ds : List (Fin 4 → Bytes))
    (hd : ∀ d ∈ ds, ∀ r, (d r).length = (d 0).length ∨ (d r).length = 0) :
    ∃ g outs, ((ds.foldlM (fun g d => Multi4.update I g d) (Multi4.new I)).bind fun g => g.finalize I) = some (g, outs) ∧
      ∀ r, (∀ d ∈ ds, (d r).length = (d 0).length) →
        outs r = merkleDamgard I.iv I.compress I.output (ds.map fun d => d r).flatten := by
  have H : ∀ (ds : List (Fin 4 → Bytes)) (g0 : Multi4 S), (∀ d ∈ ds, ∀ r, (d r).length = (d 0).length ∨ (d r).length = 0) →
      Well g0 → ∃ g outs, ((ds.foldlM (fun g d => Multi4.update I g d) g0).bind fun g => g.finalize I) = some (g, outs) ∧
        ∀ r m, Lane I g0 r m → (∀ d ∈ ds, (d r).length = (d 0).length) →
          outs r = hashOf I (m ++ (ds.map fun d => d r).flatten) := by
    intro ds
    induction ds with
    | nil =>
      intro g0 _ hw
      obtain ⟨g', outs, f1, -, -, -, f2⟩ := multi_finalize I hw
      refine ⟨g', outs, f1, fun r m hl _ => ?_⟩
      rw [List.map_nil, List.flatten_nil, List.append_nil, f2 r m hl]
    | cons d ds ih =>
      intro g0 hd hw
      obtain ⟨g1, u1, u2, u3⟩ := multi_update I hw (hd d List.mem_cons_self)
      obtain ⟨g, outs, h1, h2⟩ := ih g1 (fun d hd' => hd d (List.mem_cons_of_mem _ hd')) u2
      refine ⟨g, outs, ?_, fun r m hl hr => ?_⟩
      · rw [List.foldlM_cons, u1]; exact h1
      · rw [h2 r _ (u3 r m (hr d List.mem_cons_self) hl) fun d hd' => hr d (List.mem_cons_of_mem _ hd'), List.map_cons,
          List.flatten_cons, List.append_assoc]
  obtain ⟨g, outs, h1, h2⟩ := H ds (Multi4.new I) hd (well_new I)
  exact ⟨g, outs, h1, fun r hr => by rw [h2 r [] (lane_new I r) hr, List.nil_append]⟩

/-- Other lengths are refused. -/
theorem C78_multi_panics (I : Impl S) (g : Multi4 S) (d : Fin 4 → Bytes) (r : Fin 4) (h : (d r).length ≠ (d 0).length)
    (h0 : (d r).length ≠ 0) : g.update I d = none := by
  rw [Multi4.update, if_pos fun h' => (h' r).elim h h0]

/-- Any number of strings of one length, on every schedule: each gets its hash, after the prefix. -/
theorem C78_parallel (I : Impl S) (pre : Bytes) (fresh : Nat → Bool) (source : List Bytes) (l : Nat)
    (hl : ∀ d ∈ source, d.length = l) :
    (((groestlMulti I).newWithPrefix pre).bind fun self => (groestlMulti I).digest self fresh source source.length) =
      some (source.map fun d => merkleDamgard I.iv I.compress I.output (pre ++ d)) := by
  obtain ⟨self, u1, u2, u3⟩ := multi_update I (well_new I) (data := fun _ => pre) fun _ => Or.inl rfl
  rw [Multi.newWithPrefix, show (groestlMulti I).update (groestlMulti I).new (fun _ => pre) = some self from u1,
    Option.bind_some, Multi.digest, Nat.min_self]
  have := digestChunks_all I u2 (p := pre) (fun r => by simpa using u3 r [] rfl (lane_new I r)) (fresh := fresh) hl
    ((source.length + 4 - 1) / 4) 0 (fun _ => []) (by omega) (by omega) (fun _ => Or.inr rfl)
  rwa [Nat.mul_zero, List.drop_zero] at this

/-- A hasher that has read nothing can be reset.  Missing: any other, as the next theorem shows. -/
theorem C78_multi_reset_partial (I : Impl S) (d : Fin 4 → Bytes) (hd : ∀ r, (d r).length = (d 0).length) :
    (((Multi4.new I).reset I).update I d).bind (fun g => (g.finalize I).map Prod.snd) =
      some fun r => merkleDamgard I.iv I.compress I.output (d r) := by
  obtain ⟨g, u1, u2, u3⟩ := multi_update I (well_new I) (data := d) fun r => Or.inl (hd r)
  obtain ⟨g', outs, f1, -, -, -, f2⟩ := multi_finalize I u2
  rw [show (Multi4.new I).reset I = Multi4.new I from rfl, u1, Option.bind_some, f1, Option.map_some]
  congr 1
  funext r
  exact f2 r _ (u3 r [] (hd r) (lane_new I r))

/-- But `reset` keeps the number of blocks and the bytes of an incomplete block: after `finalize_into_reset` of a new hasher,
the digests of four empty strings are those of a string of two blocks, the first of which is missing. -/
theorem C78_multi_reset (I : Impl S) : ∃ g outs outs', (Multi4.new I).finalize I = some (g, outs) ∧
    (g.reset I).finalize I = some outs' ∧
    (∀ r, outs r = I.output (I.compress I.iv (0x80 :: List.replicate 55 0 ++ be64 1)) ∧
      outs r = merkleDamgard I.iv I.compress I.output []) ∧
    ∀ r, outs'.2 r = I.output (I.compress I.iv (0x80 :: List.replicate 55 0 ++ be64 2)) := by
  obtain ⟨g, outs, f1, f2, f3, f4, f5⟩ := multi_finalize I (well_new I)
  have hw : Well (g.reset I) := ⟨by
    show g.unfinished < 64
    rw [f2]; exact (well_new I).1, fun r => by
    show (g.block r).length = 64
    rw [f3]; exact (well_new I).2 r⟩
  obtain ⟨g', outs', k1, -, -, -, k5⟩ := multi_finalize (S := S) { I with iv := I.iv } hw
  refine ⟨g, outs, (g', outs'), f1, k1, fun r => ?_, fun r => ?_⟩
  · rw [f5 r [] (lane_new I r)]
    exact ⟨rfl, rfl⟩
  · have hu : (g.reset I).unfinished = 0 := f2
    have hc : (g.reset I).consumed = 1 := f4
    have hst : (g.reset I).state = fun _ => I.iv := rfl
    unfold Multi4.finalize at k1
    rw [hu, if_neg (by decide)] at k1
    simp only [show (0 : Nat) < 56 by decide, decide_true, if_true, hc] at k1
    rw [all4_ok (v := fun _ => 0x80 :: List.replicate 55 0 ++ be64 2) ?_] at k1
    · rw [Option.bind_some, Option.bind_some, Option.some.injEq, Prod.mk.injEq] at k1
      rw [← k1.2]
      show I.output (I.compress ((g.reset I).state r) _) = _
      rw [hst]
    · intro r'
      rw [slice_ok (Nat.zero_le _) (Nat.zero_le _), Option.bind_some, List.drop_zero, Nat.sub_zero, List.take_zero]
      rfl

/-! ### Concrete cases -/

/-- The S-box of the specification inverts: `inv` is the inverse. -/
example (a : BitVec 8) (h : a ≠ 0) : mul a (inv a) = 1 := sbox_inv a h
example : sbox 0 = 0x63 ∧ sbox 0x53 = 0xed ∧ mul 0x57 0x83 = 0xc1 := by decide +kernel

/-- An implementation that keeps all blocks. -/
def toyImpl : Impl Bytes := ⟨[], fun s b => s ++ b, id⟩

/-- 70 bytes in three pieces. -/
example : ([[1, 2, 3], List.replicate 64 9, [4, 5, 6]].foldl (fun h d => Core.update portable h d)
    (Core.new portable)).finalize portable = groestl256 ([1, 2, 3] ++ List.replicate 64 9 ++ [4, 5, 6]) :=
  C78_hasher [[1, 2, 3], List.replicate 64 9, [4, 5, 6]]

/-- The number of blocks is one for 55 bytes and two for 56. -/
example : pad 55 = 0x80 :: be64 1 ∧ pad 56 = 0x80 :: List.replicate 63 0 ++ be64 2 := by decide +kernel

/-- Digests of 32 bytes. -/
example : ∃ d, byteCompression (List.replicate 32 1) (List.replicate 32 2) = some d ∧ d.length = 32 :=
  ⟨_, C78_compress_digests _ _ List.length_replicate List.length_replicate⟩

/-- Five strings on four hashers, on every schedule. -/
example (fresh : Nat → Bool) : (((groestlMulti portable).newWithPrefix [7]).bind fun self =>
    (groestlMulti portable).digest self fresh (List.replicate 5 [1, 2]) 5) =
      some (List.replicate 5 (groestl256 [7, 1, 2])) := by
  have := C78_parallel portable [7] fresh (List.replicate 5 [1, 2]) 2 (fun d hd => by rw [(List.mem_replicate.1 hd).2]; rfl)
  rw [List.length_replicate, List.map_replicate, portable_ok] at this
  exact this

/-- A step in which the last string is empty. -/
example : ∃ g outs, (([fun r => if r = 3 then [] else [1, 2]].foldlM (fun g d => Multi4.update toyImpl g d)
    (Multi4.new toyImpl)).bind fun g => g.finalize toyImpl) = some (g, outs) ∧
      outs 0 = merkleDamgard toyImpl.iv toyImpl.compress toyImpl.output [1, 2] := by
  obtain ⟨g, outs, h1, h2⟩ := C78_multi toyImpl [fun r => if r = 3 then [] else [1, 2]] (fun d hd r => by
    rw [List.mem_singleton.1 hd]
    revert r
    decide)
  refine ⟨g, outs, h1, ?_⟩
  rw [h2 0 fun _ _ => rfl, List.map_singleton, List.flatten_singleton]
  rfl

/-- The digests after a reset are others. -/
example : toyImpl.output (toyImpl.compress toyImpl.iv (0x80 :: List.replicate 55 0 ++ be64 1)) ≠
    toyImpl.output (toyImpl.compress toyImpl.iv (0x80 :: List.replicate 55 0 ++ be64 2)) := by decide +kernel

end Verif.Hash.Groestl
