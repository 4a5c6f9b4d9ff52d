import Verif.Hash.LemmasDigest

/-! C73: the Vision hashers, hashing of many strings at once and hashing of what serialization writes. -/

set_option linter.dupNamespace false

namespace Verif.Hash

variable {E S Out : Type} {N : Nat}

/-! ### The Vision hasher -/

/-- A string may be given in any pieces: after `update` with each of them, `finalize` gives the hash of their
concatenation. -/
theorem C73_hasher (P : Sponge E) (ds : List Bytes) :
    ((ds.foldlM (fun (h : Hasher E) d => h.update P d) (Hasher.new P)).bind fun h => h.finalize P) = some (hash P ds.flatten) := by
  suffices H : ∀ (ds : List Bytes) (h : Hasher E) (m : Bytes), Rep P h m →
      ((ds.foldlM (fun (h : Hasher E) d => h.update P d) h).bind fun h => h.finalize P) = some (hash P (m ++ ds.flatten)) from
    H ds _ [] (rep_new P)
  intro ds
  induction ds with
  | nil => intro h m hr; rw [List.flatten_nil, List.append_nil]; exact rep_finalize hr
  | cons d ds ih =>
    intro h m hr
    obtain ⟨h', u1, u2⟩ := rep_update hr d
    rw [List.foldlM_cons, u1]
    have := ih h' _ u2
    rw [List.append_assoc] at this
    exact this

/-- The compression of two strings is the hash of their concatenation. -/
theorem C73_compress (P : Sponge E) (a b : Bytes) : compress P a b = some (hash P (a ++ b)) := by
  obtain ⟨h1, u1, u2⟩ := rep_update (rep_new P) a
  obtain ⟨h2, v1, v2⟩ := rep_update u2 b
  rw [compress, u1, Option.bind_some, v1, Option.bind_some]
  exact rep_finalize v2

/-- A hash is 32 bytes. -/
theorem C73_output_length (P : Sponge E) (m : Bytes) : (hash P m).length = 32 := by
  simp [hash, bytes32, List.finRange, List.ofFn, Fin.foldr, Fin.foldr.loop]

theorem padding_head (n : Nat) : ∃ b, (padding n)[0]? = some b ∧ b.msb = true := by
  unfold padding
  split
  · exact ⟨_, rfl, rfl⟩
  · exact ⟨_, rfl, rfl⟩

theorem padding_tail (n k : Nat) (b : BitVec 8) (h : (padding n)[k + 1]? = some b) : b.msb = false := by
  unfold padding at h
  split at h
  · simp at h
  · rw [List.cons_append, List.getElem?_cons_succ] at h
    rcases List.mem_append.1 (List.mem_of_getElem? h) with h | h
    · rw [(List.mem_replicate.1 h).2]; rfl
    · rw [List.mem_singleton.1 h]; rfl

/-- Different strings are different after padding, and the padded string is made of whole blocks: the string can be told
from the blocks. -/
theorem C73_padding_injective (m m' : Bytes) (h : m ++ padding m.length = m' ++ padding m'.length) : m = m' := by
  have key : ∀ m m' : Bytes, m ++ padding m.length = m' ++ padding m'.length → ¬ m.length < m'.length := by
    intro m m' h hlt
    obtain ⟨b, h1, h2⟩ := padding_head m'.length
    have e := congrArg (fun l : Bytes => l[m'.length]?) h
    rw [List.getElem?_append_right le_rfl, Nat.sub_self, h1, List.getElem?_append_right hlt.le,
      show m'.length - m.length = m'.length - m.length - 1 + 1 by omega] at e
    exact absurd h2 (by rw [padding_tail _ _ _ e]; simp)
  have hlen : m.length = m'.length := le_antisymm (not_lt.1 (key m' m h.symm)) (not_lt.1 (key m m' h))
  exact (List.append_inj h hlen).1

theorem C73_padding_blocks (m : Bytes) : (m ++ padding m.length).length % 64 = 0 ∧ (padding m.length).length ≤ 64 ∧
    (blocks (m ++ padding m.length)).flatten = m ++ padding m.length := by
  have h1 : (padding m.length).length = 64 - m.length % 64 := by
    rw [padding_mod, padding_length _ (Nat.mod_lt _ (by omega))]
  have h2 : (m ++ padding m.length).length % 64 = 0 := by rw [List.length_append, h1]; omega
  refine ⟨h2, by omega, ?_⟩
  generalize m ++ padding m.length = l at h2
  have : ∀ n (l : Bytes), l.length = 64 * n → ((List.range n).map fun k => (l.drop (64 * k)).take 64).flatten = l := by
    intro n
    induction n with
    | zero => intro l hl; rw [List.eq_nil_of_length_eq_zero (l := l) (by omega)]; rfl
    | succ n ih =>
      intro l hl
      rw [List.range_succ_eq_map, List.map_cons, List.map_map, List.flatten_cons]
      refine Eq.trans (congrArg _ (Eq.trans (congrArg _ (List.map_congr_left fun k _ => ?_))
        (ih (l.drop 64) (by rw [List.length_drop]; omega)))) (List.take_append_drop 64 l)
      show (l.drop (64 * (k + 1))).take 64 = _
      rw [List.drop_drop, show 64 * (k + 1) = 64 + 64 * k by omega]
  rw [blocks]
  exact this _ l (by omega)

/-! ### 32 strings at once -/

/-- 32 strings given in any pieces, of equal lengths in each step: every row gets the hash of its string. -/
theorem C73_sliced (debug : Bool) (P : Sponge E) (ds : List (Fin 32 → Bytes)) (hd : ∀ d ∈ ds, ∀ r, (d r).length = (d 0).length) :
    ((ds.foldlM (fun g d => Sliced.update debug P g d) (Sliced.new P)).bind fun g => g.finalize P) =
      some fun r => hash P (ds.map fun d => d r).flatten := by
  have hM := sliced_computes debug P
  suffices H : ∀ (ds : List (Fin 32 → Bytes)) (g : Sliced E) (m : Fin 32 → Bytes),
      (∀ d ∈ ds, ∀ r, (d r).length = (d 0).length) → (∀ r, Rep P (g.row r) (m r)) →
      ((ds.foldlM (fun g d => Sliced.update debug P g d) g).bind fun g => g.finalize P) =
        some fun r => hash P (m r ++ (ds.map fun d => d r).flatten) from H ds _ (fun _ => []) hd hM.new
  intro ds
  induction ds with
  | nil => intro g m _ hr; simp only [List.map_nil, List.flatten_nil, List.append_nil]; exact hM.finalize g m hr
  | cons d ds ih =>
    intro g m hd hr
    obtain ⟨g', u1, u2⟩ := hM.update g m d _ hr (hd d List.mem_cons_self)
    have := ih g' _ (fun d hd' => hd d (List.mem_cons_of_mem _ hd')) u2
    rw [List.foldlM_cons, show Sliced.update debug P g d = some g' from u1]
    refine this.trans ?_
    simp only [List.append_assoc, List.map_cons, List.flatten_cons]

/-- A hasher that is reset reads as a new one does, although the buffer keeps what was in it. -/
theorem C73_sliced_reset (debug : Bool) (P : Sponge E) (ds : List (Fin 32 → Bytes)) (g : Sliced E)
    (hd : ∀ d ∈ ds, ∀ r, (d r).length = (d 0).length)
    (hg : ds.foldlM (fun g d => Sliced.update debug P g d) (Sliced.new P) = some g) (d : Fin 32 → Bytes)
    (hd' : ∀ r, (d r).length = (d 0).length) :
    ((Sliced.update debug P (g.reset P) d).bind fun g => g.finalize P) = some fun r => hash P (d r) := by
  have hM := sliced_computes debug P
  have hb : ∀ (ds : List (Fin 32 → Bytes)) (g0 : Sliced E) (m : Fin 32 → Bytes),
      (∀ d ∈ ds, ∀ r, (d r).length = (d 0).length) → (∀ r, Rep P (g0.row r) (m r)) →
      ds.foldlM (fun g d => Sliced.update debug P g d) g0 = some g → ∃ m' : Fin 32 → Bytes, ∀ r, Rep P (g.row r) (m' r) := by
    intro ds
    induction ds with
    | nil =>
      intro g0 m _ hr h
      obtain rfl : g0 = g := by simpa using h
      exact ⟨m, hr⟩
    | cons d ds ih =>
      intro g0 m hd hr h
      obtain ⟨g', u1, u2⟩ := hM.update g0 m d _ hr (hd d List.mem_cons_self)
      rw [List.foldlM_cons, show Sliced.update debug P g0 d = some g' from u1] at h
      exact ih g' _ (fun d hd' => hd d (List.mem_cons_of_mem _ hd')) u2 h
  obtain ⟨m', hm'⟩ := hb ds _ (fun _ => []) hd hM.new hg
  have hr : ∀ r, Rep P ((g.reset P).row r) [] := fun r =>
    ⟨show 0 < 64 by decide, (hm' r).2.1, [], by simp, by simp [Sliced.reset, Sliced.row], rfl⟩
  obtain ⟨g', u1, u2⟩ := hM.update (g.reset P) (fun _ => []) d _ hr hd'
  rw [show Sliced.update debug P (g.reset P) d = some g' from u1, Option.bind_some]
  exact hM.finalize g' _ u2

/-! ### Many strings -/

/-- `ParallelMultidigestImpl` over a multi-digest that computes the hash `h`: if the strings have equal lengths and their
number is a multiple of `N`, then for every schedule each gets its hash, after the prefix. -/
theorem C73_parallel {M : Multi S Out N} {h : Bytes → Out} {R : S → (Fin N → Bytes) → Prop} (hM : M.Computes h R)
    (p : Bytes) (fresh : Nat → Bool) (source : List Bytes) (l : Nat) (hl : ∀ d ∈ source, d.length = l)
    (hN : 0 < N) (hdvd : N ∣ source.length) :
    ((M.newWithPrefix p).bind fun self => M.digest self fresh source source.length) =
      some (source.map fun d => h (p ++ d)) := by
  obtain ⟨self, u1, u2⟩ := hM.update M.new _ (fun _ => p) p.length hM.new fun _ => rfl
  rw [Multi.newWithPrefix, u1, Option.bind_some, Multi.digest, Nat.min_self]
  obtain ⟨q, hq⟩ := hdvd
  have hdiv : (source.length + N - 1) / N = q := by
    rw [hq, Nat.add_sub_assoc (by omega), Nat.mul_add_div hN, Nat.div_eq_of_lt (by omega), Nat.add_zero]
  have := digestChunks_ok hM (p := p) (by simpa using u2) (fresh := fresh) hl ((source.length + N - 1) / N) 0 (fun _ => [])
    (by rw [hdiv, hq, Nat.zero_add]) (fun c' _ hc' => Or.inl (by
      rw [hdiv] at hc'
      rw [hq]
      exact Nat.mul_le_mul_left N (by omega))) (fun hpos => Or.inl (by
      rw [hdiv] at hpos
      rw [hq]
      exact Nat.mul_le_mul_left N (by omega)))
  rwa [Nat.mul_zero, List.drop_zero] at this

/-- For other numbers of strings it holds of the schedules that do not start a run at the last chunk: for example, without
threads, if there are at least `N` strings. -/
theorem C73_parallel_rest_partial {M : Multi S Out N} {h : Bytes → Out} {R : S → (Fin N → Bytes) → Prop}
    (hM : M.Computes h R) (p : Bytes) (fresh : Nat → Bool) (source : List Bytes) (l : Nat)
    (hl : ∀ d ∈ source, d.length = l) (hN : 0 < N) (hle : N ≤ source.length) (hfresh : fresh (source.length / N) = false) :
    ((M.newWithPrefix p).bind fun self => M.digest self fresh source source.length) =
      some (source.map fun d => h (p ++ d)) := by
  obtain ⟨self, u1, u2⟩ := hM.update M.new _ (fun _ => p) p.length hM.new fun _ => rfl
  rw [Multi.newWithPrefix, u1, Option.bind_some, Multi.digest, Nat.min_self]
  have hdm := Nat.div_add_mod source.length N
  have hmlt := Nat.mod_lt source.length hN
  have hup : (source.length + N - 1) / N ≤ source.length / N + 1 := by
    rw [← Nat.add_div_right _ hN]
    exact Nat.div_le_div_right (by omega)
  have hge : source.length ≤ N * ((source.length + N - 1) / N) := by
    have := Nat.div_add_mod (source.length + N - 1) N
    have := Nat.mod_lt (source.length + N - 1) hN
    omega
  have := digestChunks_ok hM (p := p) (by simpa using u2) (fresh := fresh) hl ((source.length + N - 1) / N) 0 (fun _ => [])
    (by rw [Nat.zero_add]; exact hge) (fun c' _ hc' => by
      by_cases hc : c' < source.length / N
      · left
        have : N * (c' + 1) ≤ N * (source.length / N) := Nat.mul_le_mul_left N (by omega)
        omega
      · right
        rw [show c' = source.length / N by omega]
        exact hfresh) (fun _ => Or.inl (by omega))
  rwa [Nat.mul_zero, List.drop_zero] at this

/-- But a run of chunks that starts at an incomplete chunk panics with the Vision hashers when the strings have 64 bytes
or more: the buffers without a string are empty.  So the outcome depends on the schedule, and with fewer than 32 strings
it is always a panic. -/
theorem C73_parallel_panics (debug : Bool) (P : Sponge E) (p : Bytes) (fresh : Nat → Bool) (source : List Bytes)
    (hl : ∀ d ∈ source, 64 ≤ d.length) (hmod : source.length % 32 ≠ 0) (hfresh : fresh (source.length / 32) = true) :
    (((visionMulti debug P).newWithPrefix p).bind fun self =>
      (visionMulti debug P).digest self fresh source source.length) = none := by
  have hM := sliced_computes debug P
  obtain ⟨self, u1, u2⟩ := hM.update _ _ (fun _ => p) p.length hM.new fun _ => rfl
  rw [Multi.newWithPrefix, u1, Option.bind_some, Multi.digest, Nat.min_self]
  refine digestChunks_none (c' := source.length / 32) (fun bufs => ?_) _ _ _ (Nat.zero_le _) (by omega)
  rw [if_pos hfresh]
  set data := fillBuffers (N := 32) (fun _ => []) ((source.drop (32 * (source.length / 32))).take 32) with hdata
  have hlen : ((source.drop (32 * (source.length / 32))).take 32).length = source.length % 32 := by
    rw [List.length_take, List.length_drop]; omega
  have h0 : 64 ≤ (data 0).length := by
    rw [hdata, fillBuffers, List.getElem?_eq_getElem (by rw [hlen]; exact Nat.pos_of_ne_zero hmod), Option.getD_some]
    exact hl _ (List.mem_of_mem_drop (List.mem_of_mem_take (List.getElem_mem _)))
  have h31 : data 31 = [] := by
    rw [hdata, fillBuffers, List.getElem?_eq_none (by rw [hlen]; show _ ≤ 31; omega), Option.getD_none]
  show Sliced.update debug P self data = none
  unfold Sliced.update
  split
  · rfl
  · have hf : self.filled < 64 := (u2 0).1
    by_cases hpos : self.filled > 0
    · rw [if_pos hpos]
      dsimp only
      rw [allRows_none (r := 31) (by rw [h31, slice, if_neg (by simp only [List.length_nil]; omega), Option.bind_none]),
        Option.bind_none]
    · rw [if_neg hpos, Sliced.updateRest, Sliced.absorbLoop, dif_pos (by omega),
        allRows_none (r := 31) (by rw [h31, slice, if_neg (by simp)]), Option.bind_none, Option.bind_none]

/-- `ParallelDigest` for a digest: each item gets the hash of the prefix and of its writes, whatever their sizes are. -/
theorem C73_parallel_digest {D : Digest S Out} {h : Bytes → Out} {R : S → Bytes → Prop} (hD : D.Computes h R)
    (p : Bytes) (source : List (List Bytes)) :
    ((D.update D.new p).bind fun self => parallelDigest D self source source.length) =
      some (source.map fun ds => h (p ++ ds.flatten)) := by
  obtain ⟨self, u1, u2⟩ := hD.update D.new [] p hD.new
  rw [u1, Option.bind_some, parallelDigest, List.take_length]
  induction source with
  | nil => rfl
  | cons ds source ih =>
    obtain ⟨b, p1, p2⟩ := puts_ok hD ds _ _ (buffered_new hD u2)
    obtain ⟨b', f1, f2⟩ := drop_ok hD p2
    rw [List.mapM_cons, p1, Option.bind_some, f1, Option.bind_some, hD.finalize _ _ f2, ih]
    rfl

/-! ### Serialization -/

/-- What is written to the buffer of serialization in any pieces, of any sizes, is read by the digest once the buffer is
dropped, no matter what the size of the blocks is. -/
theorem C73_buffer {D : Digest S Out} {h : Bytes → Out} {R : S → Bytes → Prop} (hD : D.Computes h R) (s : S) (m : Bytes)
    (hs : R s m) (ds : List Bytes) :
    ((((HashBuffer.new D s).puts D ds).bind fun b => b.flush D).bind fun b => D.finalize b.digest) =
      some (h (m ++ ds.flatten)) := by
  obtain ⟨b, p1, p2⟩ := puts_ok hD ds _ _ (buffered_new hD hs)
  obtain ⟨b', f1, f2⟩ := drop_ok hD p2
  rw [p1, Option.bind_some, f1, Option.bind_some, hD.finalize _ _ f2]

/-- `hash_serialize` gives the hash of all that the items write, in order, unless the serialization of one of them fails;
then it fails. -/
theorem C73_hash_serialize {D : Digest S Out} {h : Bytes → Out} {R : S → Bytes → Prop} (hD : D.Computes h R)
    (items : List (List Bytes × Bool)) :
    ((∃ i ∈ items, i.2 = true) → hashSerialize D items = some none) ∧
      ((∀ i ∈ items, i.2 = false) → hashSerialize D items = some (some (h (items.map fun i => i.1.flatten).flatten))) := by
  obtain ⟨b, e, m', s1, s2, s3, s4⟩ := serializeItems_ok hD items _ [] (buffered_new hD hD.new)
  obtain ⟨b', f1, f2⟩ := drop_ok hD s2
  rw [hashSerialize, s1, Option.bind_some, f1, Option.bind_some]
  refine ⟨fun hi => if_pos (s3.2 hi), fun hi => ?_⟩
  have he : e = false := by
    cases e with
    | false => rfl
    | true =>
      obtain ⟨i, h1, h2⟩ := s3.1 rfl
      rw [hi i h1] at h2
      simp at h2
  rw [if_neg (by simp [he]), hD.finalize _ _ f2, Option.bind_some, s4 he, List.nil_append]

/-- The Vision hashers are such digests. -/
theorem C73_vision (debug : Bool) (P : Sponge E) : (∃ R, (visionDigest P).Computes (hash P) R) ∧
    ∃ R, (visionMulti debug P).Computes (hash P) R :=
  ⟨⟨_, vision_computes P⟩, _, sliced_computes debug P⟩

/-! ### Concrete cases -/

/-- A sponge whose permutation does something: it adds up the words. -/
def toySponge : Sponge (BitVec 32) :=
  ⟨0, id, id, fun s i => s i + s (i + 1) + 7⟩

/-- A string of 70 bytes in three pieces. -/
example : (([[1, 2, 3], List.replicate 64 9, [4, 5, 6]].foldlM (fun (h : Hasher (BitVec 32)) d => h.update toySponge d)
    (Hasher.new toySponge)).bind fun h => h.finalize toySponge) =
      some (hash toySponge ([1, 2, 3] ++ List.replicate 64 9 ++ [4, 5, 6])) := C73_hasher toySponge _

/-- The hash depends on the string. -/
example : hash toySponge [1] ≠ hash toySponge [2] ∧ hash toySponge [] ≠ hash toySponge [0] := by decide +kernel

/-- 64 strings of 64 bytes get their hashes for every schedule; for 33 strings it depends on the schedule: without threads
they do, with a run that starts at the second chunk there is a panic. -/
example (fresh : Nat → Bool) : ((visionMulti true toySponge).newWithPrefix []).bind
    (fun self => (visionMulti true toySponge).digest self fresh (List.replicate 64 (List.replicate 64 5)) 64) =
      some (List.replicate 64 (hash toySponge (List.replicate 64 5))) := by
  have := C73_parallel (sliced_computes true toySponge) [] fresh (List.replicate 64 (List.replicate 64 5)) 64
    (fun d hd => by rw [(List.mem_replicate.1 hd).2, List.length_replicate]) (by decide) (by rw [List.length_replicate]; decide)
  rw [List.length_replicate, List.map_replicate] at this
  exact this

example : (((visionMulti true toySponge).newWithPrefix []).bind fun self =>
      (visionMulti true toySponge).digest self (fun c => c = 0) (List.replicate 33 (List.replicate 64 5)) 33) =
        some (List.replicate 33 (hash toySponge (List.replicate 64 5))) ∧
    (((visionMulti true toySponge).newWithPrefix []).bind fun self =>
      (visionMulti true toySponge).digest self (fun _ => true) (List.replicate 33 (List.replicate 64 5)) 33) = none := by
  constructor
  · have := C73_parallel_rest_partial (sliced_computes true toySponge) [] (fun c => c = 0)
      (List.replicate 33 (List.replicate 64 5)) 64
      (fun d hd => by rw [(List.mem_replicate.1 hd).2, List.length_replicate]) (by decide)
      (by rw [List.length_replicate]; decide) (by rw [List.length_replicate]; decide)
    rw [List.length_replicate, List.map_replicate] at this
    exact this
  · have := C73_parallel_panics true toySponge [] (fun _ => true) (List.replicate 33 (List.replicate 64 5))
      (fun d hd => by rw [(List.mem_replicate.1 hd).2, List.length_replicate]) (by rw [List.length_replicate]; decide) rfl
    rw [List.length_replicate] at this
    exact this

set_option maxRecDepth 8000 in
/-- Items of other sizes than the block, and one that fails. -/
example : hashSerialize (visionDigest toySponge) [([[1], [2, 3]], false), ([List.replicate 200 7], false)] =
      some (some (hash toySponge ([1, 2, 3] ++ List.replicate 200 7))) ∧
    hashSerialize (visionDigest toySponge) [([[1]], false), ([[2]], true)] = some none :=
  ⟨(C73_hash_serialize (vision_computes toySponge) _).2 (by simp),
    (C73_hash_serialize (vision_computes toySponge) _).1 (by simp)⟩

end Verif.Hash
