import Verif.Hash.LemmasHash
import Verif.Hash.SpecDigest

/-! Hashing of many strings, and of what serialization writes. -/

set_option linter.dupNamespace false

namespace Verif.Hash

variable {S Out : Type} {N : Nat}

theorem vision_computes {E : Type} (P : Sponge E) : (visionDigest P).Computes (hash P) (Rep P) :=
  ⟨show 0 < 96 by decide, rep_new P, fun _ _ d h => rep_update h d, fun _ _ h => rep_finalize h⟩

theorem sliced_computes {E : Type} (debug : Bool) (P : Sponge E) :
    (visionMulti debug P).Computes (hash P) fun g m => ∀ r, Rep P (g.row r) (m r) := by
  refine ⟨fun r => rep_new P, fun g m d n h hd => ?_, fun g m h => ?_⟩
  · obtain ⟨g', h1, h2⟩ := update_row P debug hd (g := g) (fun r => (h r).2.1) (h 0).1
    refine ⟨g', h1, fun r => ?_⟩
    obtain ⟨h', k1, k2⟩ := rep_update (h r) (d r)
    rw [h2 r] at k1
    injection k1 with k1
    rw [k1]
    exact k2
  · obtain ⟨out, h1, h2⟩ := finalize_row P (g := g) (fun r => (h r).2.1) (h 0).1
    refine h1.trans (congrArg some (funext fun r => ?_))
    have := h2 r
    rw [rep_finalize (h r)] at this
    injection this with this
    exact this.symm

/-! ### Chunks of strings -/

theorem fillBuffers_length {bufs : Fin N → Bytes} {data : List Bytes} {l : Nat} (hd : ∀ d ∈ data, d.length = l)
    (hb : data.length = N ∨ ∀ i, (bufs i).length = l) (i : Fin N) : (fillBuffers bufs data i).length = l := by
  unfold fillBuffers
  rcases h : data[i.val]? with _ | d
  · rcases hb with hb | hb
    · exact absurd (List.getElem?_eq_none_iff.1 h) (by have := i.isLt; omega)
    · exact hb i
  · exact hd d (List.mem_of_getElem? h)

theorem chunk_out (f : Bytes → Out) (source : List Bytes) (c : Nat) (bufs : Fin N → Bytes) :
    ((List.finRange N).map fun r => f (fillBuffers bufs ((source.drop (N * c)).take N) r)).take
      (min N (source.length - N * c)) = ((source.drop (N * c)).take N).map f := by
  refine List.ext_getElem? fun k => ?_
  by_cases hk : k < min N (source.length - N * c)
  · have hN : k < N := by omega
    rw [List.getElem?_take_of_lt hk, List.getElem?_map, List.getElem?_map, List.getElem?_eq_getElem (by simpa using hN),
      List.getElem?_eq_getElem (by rw [List.length_take, List.length_drop]; omega), Option.map_some, Option.map_some]
    congr 2
    rw [fillBuffers]
    simp only [List.getElem_finRange, Fin.val_cast]
    rw [List.getElem?_eq_getElem (by rw [List.length_take, List.length_drop]; omega), Option.getD_some]
  · rw [List.getElem?_eq_none (by rw [List.length_take]; omega),
      List.getElem?_eq_none (by rw [List.length_map, List.length_take, List.length_drop]; omega)]

theorem digestChunks_ok {M : Multi S Out N} {h : Bytes → Out} {R : S → (Fin N → Bytes) → Prop} (hM : M.Computes h R)
    {self : S} {p : Bytes} (hs : R self fun _ => p) {fresh : Nat → Bool} {source : List Bytes} {l : Nat}
    (hl : ∀ d ∈ source, d.length = l) : ∀ (n c : Nat) (bufs : Fin N → Bytes), source.length ≤ N * (c + n) →
      (∀ c', c ≤ c' → c' < c + n → N * (c' + 1) ≤ source.length ∨ fresh c' = false) →
      (0 < n → N * (c + 1) ≤ source.length ∨ ∀ i, (bufs i).length = l) →
      digestChunks M self fresh source source.length c n bufs = some ((source.drop (N * c)).map fun d => h (p ++ d))
  | 0, c, bufs, h1, _, _ => by rw [digestChunks, List.drop_eq_nil_of_le (by simpa using h1), List.map_nil]
  | n + 1, c, bufs, h1, h2, h3 => by
    rw [digestChunks]
    set b := fillBuffers (if fresh c = true then fun _ => [] else bufs) ((source.drop (N * c)).take N) with hb
    have hbl : ∀ i, (b i).length = l := fillBuffers_length
      (fun d hd => hl d (List.mem_of_mem_drop (List.mem_of_mem_take hd))) (by
        rcases h2 c le_rfl (by omega) with h | h
        · left
          rw [List.length_take, List.length_drop]
          rw [Nat.mul_add] at h
          omega
        · rw [h]
          rcases h3 (by omega) with h' | h'
          · left
            rw [List.length_take, List.length_drop]
            rw [Nat.mul_add] at h'
            omega
          · right
            simpa using h')
    obtain ⟨s', u1, u2⟩ := hM.update self _ b l hs hbl
    rw [u1, Option.bind_some, hM.finalize _ _ u2, Option.bind_some,
      digestChunks_ok hM hs hl n (c + 1) b (by rw [show c + 1 + n = c + (n + 1) by omega]; exact h1)
        (fun c' k1 k2 => h2 c' (by omega) (by omega)) (fun _ => Or.inr hbl), Option.bind_some]
    rw [hb, chunk_out (fun d => h (p ++ d)), ← List.map_append, Nat.mul_add, Nat.mul_one, ← List.drop_drop,
      List.take_append_drop]

theorem digestChunks_none {M : Multi S Out N} {self : S} {fresh : Nat → Bool} {source : List Bytes} {outLen c' : Nat}
    (h : ∀ bufs, M.update self (fillBuffers (if fresh c' = true then fun _ => [] else bufs)
      ((source.drop (N * c')).take N)) = none) :
    ∀ (n c : Nat) (bufs : Fin N → Bytes), c ≤ c' → c' < c + n →
      digestChunks M self fresh source outLen c n bufs = none
  | 0, c, bufs, h1, h2 => by omega
  | n + 1, c, bufs, h1, h2 => by
    rw [digestChunks]
    by_cases hc : c = c'
    · rw [hc, h, Option.bind_none]
    · simp only [digestChunks_none h n (c + 1) _ (show c + 1 ≤ c' by omega) (show c' < c + 1 + n by omega),
        Option.bind_none, Option.bind_fun_none]

/-! ### The buffer of serialization -/

variable {D : Digest S Out} {h : Bytes → Out} {R : S → Bytes → Prop}

/-- What the digest has read and what is in the block make up `m`. -/
def Buffered (D : Digest S Out) (R : S → Bytes → Prop) (b : HashBuffer S) (m : Bytes) : Prop :=
  b.index < D.blockSize ∧ b.block.length = D.blockSize ∧ ∃ m0, R b.digest m0 ∧ m = m0 ++ b.block.take b.index

theorem buffered_new (hD : D.Computes h R) {s : S} {m : Bytes} (hs : R s m) : Buffered D R (HashBuffer.new D s) m :=
  ⟨hD.pos, List.length_replicate, m, hs, by simp [HashBuffer.new]⟩

theorem flush_ok (hD : D.Computes h R) {b : HashBuffer S} {m0 : Bytes} (h1 : b.index ≤ D.blockSize)
    (h2 : b.block.length = D.blockSize) (h3 : R b.digest m0) :
    ∃ b', b.flush D = some b' ∧ b'.index = 0 ∧ b'.block = b.block ∧ R b'.digest (m0 ++ b.block.take b.index) := by
  unfold HashBuffer.flush
  rw [slice_ok (Nat.zero_le _) (by omega), Option.bind_some, List.drop_zero, Nat.sub_zero]
  obtain ⟨s', u1, u2⟩ := hD.update _ _ (b.block.take b.index) h3
  rw [u1, Option.bind_some]
  exact ⟨_, rfl, rfl, rfl, u2⟩

theorem advance_ok (hD : D.Computes h R) {b : HashBuffer S} {m0 : Bytes} {cnt : Nat} (h1 : b.index < D.blockSize)
    (hc : cnt ≤ D.blockSize - b.index) (h2 : b.block.length = D.blockSize) (h3 : R b.digest m0) :
    ∃ b', HashBuffer.advance D cnt b cnt = some b' ∧ Buffered D R b' (m0 ++ b.block.take (b.index + cnt)) := by
  cases cnt with
  | zero => exact ⟨b, rfl, h1, h2, m0, h3, rfl⟩
  | succ cnt =>
    rw [HashBuffer.advance]
    dsimp only
    rw [Nat.min_eq_right hc, Nat.sub_self]
    by_cases hb : b.index + (cnt + 1) = D.blockSize
    · rw [if_pos hb]
      obtain ⟨b', f1, f2, f3, f4⟩ := flush_ok hD (b := { b with index := b.index + (cnt + 1) }) hb.le h2 h3
      rw [f1, Option.bind_some]
      refine ⟨b', by cases cnt <;> rfl, by rw [f2]; exact hD.pos, by rw [f3]; exact h2, _, f4, ?_⟩
      rw [f2, List.take_zero, List.append_nil]
    · rw [if_neg hb]
      exact ⟨{ b with index := b.index + (cnt + 1) }, by cases cnt <;> rfl, by dsimp only; omega, h2, m0, h3, rfl⟩

theorem putSlice_ok (hD : D.Computes h R) : ∀ (fuel : Nat) (b : HashBuffer S) (m src : Bytes), src.length ≤ fuel →
    Buffered D R b m → ∃ b', b.putSlice D fuel src = some b' ∧ Buffered D R b' (m ++ src)
  | fuel, b, m, [], _, hb => ⟨b, by rw [HashBuffer.putSlice], by rwa [List.append_nil]⟩
  | 0, b, m, x :: src, hf, _ => by simp at hf
  | fuel + 1, b, m, x :: src, hf, hb => by
    obtain ⟨h1, h2, m0, h3, h4⟩ := hb
    rw [HashBuffer.putSlice]
    rw [← List.length_cons (a := x) (as := src)]
    set c := min (b.block.length - b.index) (x :: src).length with hc
    have hpos : 0 < c := by rw [hc, List.length_cons]; omega
    obtain ⟨blk, c1, c2, c3⟩ := copyAt_ok (d := b.block) (src := (x :: src).take c) (a := b.index) (b := b.index + c)
      (by omega) (by omega) (by rw [List.length_take]; omega)
    rw [c1, Option.bind_some]
    obtain ⟨b1, a1, a2⟩ := advance_ok hD (b := { b with block := blk }) (cnt := c) h1 (by dsimp only; omega)
      (c2.trans h2) h3
    rw [a1, Option.bind_some]
    obtain ⟨b', p1, p2⟩ := putSlice_ok hD fuel b1 _ ((x :: src).drop c)
      (by rw [List.length_drop]; omega) a2
    refine ⟨b', p1, ?_⟩
    rw [show (({ b with block := blk } : HashBuffer S).block.take (({ b with block := blk } : HashBuffer S).index + c)) =
      b.block.take b.index ++ (x :: src).take c from c3, List.append_assoc, List.append_assoc, List.take_append_drop,
      ← List.append_assoc, ← h4] at p2
    exact p2

theorem puts_ok (hD : D.Computes h R) : ∀ (ds : List Bytes) (b : HashBuffer S) (m : Bytes), Buffered D R b m →
    ∃ b', b.puts D ds = some b' ∧ Buffered D R b' (m ++ ds.flatten)
  | [], b, m, hb => ⟨b, rfl, by rwa [List.flatten_nil, List.append_nil]⟩
  | d :: ds, b, m, hb => by
    obtain ⟨b1, p1, p2⟩ := putSlice_ok hD d.length b m d le_rfl hb
    obtain ⟨b', q1, q2⟩ := puts_ok hD ds b1 _ p2
    refine ⟨b', by rw [HashBuffer.puts, p1, Option.bind_some, q1], ?_⟩
    rwa [List.append_assoc, ← List.flatten_cons] at q2

theorem drop_ok (hD : D.Computes h R) {b : HashBuffer S} {m : Bytes} (hb : Buffered D R b m) :
    ∃ b', b.flush D = some b' ∧ R b'.digest m := by
  obtain ⟨h1, h2, m0, h3, h4⟩ := hb
  obtain ⟨b', f1, -, -, f4⟩ := flush_ok hD h1.le h2 h3
  exact ⟨b', f1, by rw [h4]; exact f4⟩

theorem serializeItems_ok (hD : D.Computes h R) : ∀ (items : List (List Bytes × Bool)) (b : HashBuffer S) (m : Bytes),
    Buffered D R b m → ∃ b' e m', serializeItems D b items = some (b', e) ∧ Buffered D R b' m' ∧
      (e = true ↔ ∃ i ∈ items, i.2 = true) ∧ (e = false → m' = m ++ (items.map fun i => i.1.flatten).flatten)
  | [], b, m, hb => ⟨b, false, m, rfl, hb, by simp, fun _ => by simp⟩
  | (ds, fails) :: items, b, m, hb => by
    obtain ⟨b1, p1, p2⟩ := puts_ok hD ds b m hb
    rw [serializeItems, p1, Option.bind_some]
    cases fails with
    | true => exact ⟨b1, true, _, by simp, p2, by simp, by simp⟩
    | false =>
      obtain ⟨b', e, m', q1, q2, q3, q4⟩ := serializeItems_ok hD items b1 _ p2
      refine ⟨b', e, m', by simpa using q1, q2, by simpa using q3, fun he => ?_⟩
      rw [q4 he, List.map_cons, List.flatten_cons, List.append_assoc]

end Verif.Hash
