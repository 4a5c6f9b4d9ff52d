import Verif.Hash.SpecGroestl
import Verif.Hash.ModelGroestl
import Verif.Hash.LemmasDigest

/-! The Grøstl hashers compute the hash of what they have read. -/

set_option linter.dupNamespace false

namespace Verif.Hash.Groestl

variable {S : Type}

/-- The hash over an implementation. -/
abbrev hashOf (I : Impl S) (m : Bytes) : Bytes := merkleDamgard I.iv I.compress I.output m

/-! ### The last blocks -/

/-- The blocks that end a string of `k` blocks and the rest `b`. -/
def lastBlocks (b : Bytes) (k : Nat) : List Bytes :=
  if b.length < 56 then [b ++ 0x80 :: List.replicate (55 - b.length) 0 ++ be64 (k + 1)]
  else [b ++ 0x80 :: List.replicate (63 - b.length) 0, List.replicate 56 0 ++ be64 (k + 2)]

theorem be64_length (n : Nat) : (be64 n).length = 8 := rfl

theorem lastBlocks_length {b : Bytes} (hb : b.length < 64) (k : Nat) : ∀ x ∈ lastBlocks b k, x.length = 64 := by
  intro x hx
  unfold lastBlocks at hx
  split at hx
  · rw [List.mem_singleton.1 hx]
    simp only [List.length_append, List.length_cons, List.length_replicate, be64_length]; omega
  · rcases List.mem_cons.1 hx with rfl | hx
    · simp only [List.length_append, List.length_cons, List.length_replicate]; omega
    · rw [List.mem_singleton.1 hx]
      simp only [List.length_append, List.length_replicate, be64_length]

theorem lastBlocks_flatten {b : Bytes} (hb : b.length < 64) (k : Nat) :
    (lastBlocks b k).flatten = b ++ pad (64 * k + b.length) := by
  unfold lastBlocks pad
  have hm : (64 * k + b.length) % 64 = b.length := by omega
  rw [hm]
  split
  · rw [show (119 - b.length) % 64 = 55 - b.length by omega,
      show (64 * k + b.length + 9 + (55 - b.length)) / 64 = k + 1 by omega, List.flatten_singleton, List.append_assoc]
  · rw [show (119 - b.length) % 64 = (63 - b.length) + 56 by omega,
      show (64 * k + b.length + 9 + (63 - b.length + 56)) / 64 = k + 2 by omega, ← List.replicate_append_replicate]
    simp

theorem hashOf_ok (I : Impl S) {bs : List Bytes} {b : Bytes} (hbs : ∀ x ∈ bs, x.length = 64) (hb : b.length < 64) :
    hashOf I (bs.flatten ++ b) = I.output ((lastBlocks b bs.length).foldl I.compress (bs.foldl I.compress I.iv)) := by
  rw [hashOf, merkleDamgard, List.append_assoc, List.length_append, (blocks_flatten bs hbs).1, ← lastBlocks_flatten hb,
    ← List.flatten_append, (blocks_flatten _ _).2, List.foldl_append]
  intro x hx
  rcases List.mem_append.1 hx with hx | hx
  · exact hbs x hx
  · exact lastBlocks_length hb _ x hx

/-! ### One string -/

/-- The hasher has read `m`. -/
def Rep (I : Impl S) (h : Core S) (m : Bytes) : Prop :=
  h.buffer.length < 64 ∧ ∃ bs : List Bytes, (∀ b ∈ bs, b.length = 64) ∧ m = bs.flatten ++ h.buffer ∧
    h.state = bs.foldl I.compress I.iv ∧ h.blocksLen = bs.length

theorem absorbBlocks_ok (I : Impl S) : ∀ (n : Nat) (s : S) (k : Nat) (data : Bytes), data.length ≤ n →
    ∃ (bs : List Bytes), (∀ b ∈ bs, b.length = 64) ∧ (absorbBlocks I s k data).buffer.length < 64 ∧
      data = bs.flatten ++ (absorbBlocks I s k data).buffer ∧ (absorbBlocks I s k data).state = bs.foldl I.compress s ∧
      (absorbBlocks I s k data).blocksLen = k + bs.length
  | n, s, k, data, hn => by
    rw [absorbBlocks]
    by_cases h : 64 ≤ data.length
    · have h64 : (data.take 64).length = 64 := by rw [List.length_take]; omega
      cases n with
      | zero => omega
      | succ n =>
        obtain ⟨bs, h1, h2, h3, h4, h5⟩ := absorbBlocks_ok I n (I.compress s (data.take 64)) (k + 1) (data.drop 64)
          (by rw [List.length_drop]; omega)
        rw [dif_pos h]
        refine ⟨data.take 64 :: bs, ?_, h2, ?_, ?_, ?_⟩
        · intro b hb
          rcases List.mem_cons.1 hb with rfl | hb
          · exact h64
          · exact h1 b hb
        · rw [List.flatten_cons, List.append_assoc, ← h3, List.take_append_drop]
        · rw [h4, List.foldl_cons]
        · rw [h5, List.length_cons]; omega
    · rw [dif_neg h]
      exact ⟨[], by simp, by simpa using h, rfl, rfl, rfl⟩

theorem rep_update {I : Impl S} {h : Core S} {m : Bytes} (hr : Rep I h m) (d : Bytes) : Rep I (h.update I d) (m ++ d) := by
  obtain ⟨_, bs, h2, h3, h4, h5⟩ := hr
  obtain ⟨bs', k1, k2, k3, k4, k5⟩ := absorbBlocks_ok I _ h.state h.blocksLen (h.buffer ++ d) le_rfl
  refine ⟨k2, bs ++ bs', ?_, ?_, ?_, ?_⟩
  · intro b hb
    rcases List.mem_append.1 hb with hb | hb
    · exact h2 b hb
    · exact k1 b hb
  · rw [List.flatten_append, List.append_assoc]
    show _ = bs.flatten ++ (bs'.flatten ++ (absorbBlocks I h.state h.blocksLen (h.buffer ++ d)).buffer)
    rw [← k3, h3, List.append_assoc]
  · rw [List.foldl_append, ← h4]; exact k4
  · rw [List.length_append, ← h5]; exact k5

theorem rep_finalize {I : Impl S} {h : Core S} {m : Bytes} (hr : Rep I h m) : h.finalize I = hashOf I m := by
  obtain ⟨h1, bs, h2, rfl, h4, h5⟩ := hr
  rw [hashOf_ok I h2 h1, ← h4, ← h5, Core.finalize, lastBlocks, len64Padding]
  by_cases hb : h.buffer.length < 56
  · rw [if_neg (by omega), if_pos hb, if_neg (by omega), show 64 - h.buffer.length - 1 - 8 = 55 - h.buffer.length by omega]
    rfl
  · rw [if_pos (by omega), if_neg hb, if_pos (by omega), show 64 - h.buffer.length - 1 = 63 - h.buffer.length by omega]
    rfl

theorem groestl_computes (I : Impl S) : (groestlDigest I).Computes (hashOf I) (Rep I) :=
  ⟨show 0 < 64 by decide, ⟨show 0 < 64 by decide, [], by simp, rfl, rfl, rfl⟩, fun _ _ d h => ⟨_, rfl, rep_update h d⟩,
    fun _ _ h => congrArg some (rep_finalize h)⟩

/-! ### Four strings -/

theorem all4_ok {α : Type} {f : Fin 4 → Option α} {v : Fin 4 → α} (h : ∀ r, f r = some (v r)) : all4 f = some v := by
  unfold all4
  rw [dif_pos fun r => by rw [h r]; rfl]
  congr 1
  funext r
  simp only [h r, Option.get_some]

/-- The hasher `r` of the four has read `m`. -/
def Lane (I : Impl S) (g : Multi4 S) (r : Fin 4) (m : Bytes) : Prop :=
  ∃ bs : List Bytes, (∀ b ∈ bs, b.length = 64) ∧ m = bs.flatten ++ (g.block r).take g.unfinished ∧
    g.state r = bs.foldl I.compress I.iv ∧ g.consumed = bs.length

/-- The lengths are right. -/
def Well (g : Multi4 S) : Prop := g.unfinished < 64 ∧ ∀ r, (g.block r).length = 64

theorem exists_all4 {α : Type} {f : Fin 4 → Option α} {Q : Fin 4 → α → Prop} (h : ∀ r, ∃ v, f r = some v ∧ Q r v) :
    ∃ v, all4 f = some v ∧ ∀ r, Q r (v r) := by
  choose v h1 h2 using h
  exact ⟨v, all4_ok h1, h2⟩

theorem absorbLoop_ok (I : Impl S) {data : Fin 4 → Bytes} (hd : ∀ r, (data r).length = (data 0).length ∨ (data r).length = 0) :
    ∀ (n : Nat) (g : Multi4 S) (i : Nat), (data 0).length - i ≤ n → i ≤ (data 0).length → ∃ (g' : Multi4 S) (i' : Nat),
      Multi4.absorbLoop I data g i = some (g', i') ∧ g'.block = g.block ∧ g'.unfinished = g.unfinished ∧ i' ≤ (data 0).length ∧
      (data 0).length - i' < 64 ∧ i ≤ i' ∧ (i' - i) % 64 = 0 ∧
      ∀ r, (data r).length = (data 0).length → ∃ bs : List Bytes, (∀ b ∈ bs, b.length = 64) ∧
        (data r).drop i = bs.flatten ++ (data r).drop i' ∧ g'.state r = bs.foldl I.compress (g.state r) ∧
        g'.consumed = g.consumed + bs.length
  | n, g, i, hn, hi => by
    rw [Multi4.absorbLoop]
    by_cases h : i + 64 ≤ (data 0).length
    · cases n with
      | zero => omega
      | succ n =>
        obtain ⟨chunk, c1, c2⟩ := exists_all4 (f := fun r => if (data r).length = 0 then some (List.replicate 64 0) else
            slice (data r) i (i + 64)) (Q := fun r v => (data r).length = (data 0).length → v = ((data r).drop i).take 64)
          fun r => by
            by_cases h0 : (data r).length = 0
            · exact ⟨_, if_pos h0, fun he => by omega⟩
            · have he := (hd r).resolve_right h0
              exact ⟨_, (if_neg h0).trans (slice_ok (by omega) (by omega)), fun _ => by rw [Nat.add_sub_cancel_left]⟩
        obtain ⟨g', i', e1, e2, e3, e4, e5, e6, e7, e8⟩ := absorbLoop_ok I hd n (g.consume I chunk) (i + 64) (by omega) h
        rw [dif_pos h, c1, Option.bind_some, e1]
        refine ⟨g', i', rfl, e2, e3, e4, e5, by omega, by omega, fun r hr => ?_⟩
        obtain ⟨bs, b1, b2, b3, b4⟩ := e8 r hr
        refine ⟨chunk r :: bs, ?_, ?_, ?_, ?_⟩
        · intro b hb
          rcases List.mem_cons.1 hb with rfl | hb
          · rw [c2 r hr, List.length_take, List.length_drop]; omega
          · exact b1 b hb
        · rw [List.flatten_cons, List.append_assoc, ← b2, c2 r hr, ← List.drop_drop, List.take_append_drop]
        · rw [b3, List.foldl_cons]; rfl
        · rw [b4, List.length_cons]
          show g.consumed + 1 + _ = _
          omega
    · rw [dif_neg h]
      exact ⟨g, i, rfl, rfl, rfl, hi, by omega, le_rfl, by omega, fun r _ => ⟨[], by simp, rfl, rfl, rfl⟩⟩

theorem multi_update (I : Impl S) {g : Multi4 S} (hw : Well g) {data : Fin 4 → Bytes}
    (hd : ∀ r, (data r).length = (data 0).length ∨ (data r).length = 0) :
    ∃ g', g.update I data = some g' ∧ Well g' ∧
      ∀ r m, (data r).length = (data 0).length → Lane I g r m → Lane I g' r (m ++ data r) := by
  obtain ⟨w1, w2⟩ := hw
  unfold Multi4.update
  rw [if_neg (not_not.2 hd)]
  dsimp only
  by_cases hs : (data 0).length + g.unfinished < 64
  · rw [if_pos hs, Nat.mod_eq_of_lt hs]
    obtain ⟨b, b1, b2⟩ := exists_all4 (f := fun r => if (data r).length = 0 then some (g.block r) else
        copyAt (g.block r) g.unfinished ((data 0).length + g.unfinished) (data r))
      (Q := fun r v => v.length = 64 ∧ ((data r).length = (data 0).length →
        v.take ((data 0).length + g.unfinished) = (g.block r).take g.unfinished ++ data r)) fun r => by
      by_cases h0 : (data r).length = 0
      · refine ⟨_, if_pos h0, w2 r, fun he => ?_⟩
        rw [← he, h0, Nat.zero_add, List.eq_nil_of_length_eq_zero h0, List.append_nil]
      · have he := (hd r).resolve_right h0
        obtain ⟨d', k1, k2, k3⟩ := copyAt_ok (d := g.block r) (src := data r) (a := g.unfinished)
          (b := (data 0).length + g.unfinished) (by omega) (by rw [w2]; omega) (by omega)
        exact ⟨d', (if_neg h0).trans k1, k2.trans (w2 r), fun _ => k3⟩
    rw [b1, Option.bind_some]
    refine ⟨_, rfl, ⟨hs, fun r => (b2 r).1⟩, fun r m hr hl => ?_⟩
    obtain ⟨bs, l1, l2, l3, l4⟩ := hl
    exact ⟨bs, l1, by rw [l2, List.append_assoc]; exact congrArg _ ((b2 r).2 hr).symm, l3, l4⟩
  · rw [if_neg hs]
    have first : ∃ (g1 : Multi4 S) (i : Nat), (if g.unfinished ≠ 0 then
        (all4 fun r => if (data r).length = 0 then some (g.block r)
          else (slice (data r) 0 (64 - g.unfinished)).bind fun src => copyAt (g.block r) g.unfinished 64 src).bind fun b =>
            some (g.consume I b, 64 - g.unfinished)
        else some (g, 0)) = some (g1, i) ∧ g1.block = g.block ∧ i ≤ (data 0).length ∧ (g.unfinished + i) % 64 = 0 ∧
        ∀ r m, (data r).length = (data 0).length → Lane I g r m → ∃ bs : List Bytes, (∀ b ∈ bs, b.length = 64) ∧
          m ++ (data r).take i = bs.flatten ∧ g1.state r = bs.foldl I.compress I.iv ∧ g1.consumed = bs.length := by
      by_cases h0 : g.unfinished = 0
      · rw [if_neg (not_not.2 h0)]
        refine ⟨g, 0, rfl, rfl, Nat.zero_le _, by omega, fun r m _ hl => ?_⟩
        obtain ⟨bs, l1, l2, l3, l4⟩ := hl
        exact ⟨bs, l1, by rw [l2, h0]; simp, l3, l4⟩
      · rw [if_pos h0]
        obtain ⟨b, b1, b2⟩ := exists_all4 (f := fun r => if (data r).length = 0 then some (g.block r) else
            (slice (data r) 0 (64 - g.unfinished)).bind fun src => copyAt (g.block r) g.unfinished 64 src)
          (Q := fun r v => (data r).length = (data 0).length →
            v.length = 64 ∧ v = (g.block r).take g.unfinished ++ (data r).take (64 - g.unfinished)) fun r => by
          by_cases hz : (data r).length = 0
          · exact ⟨_, if_pos hz, fun he => by omega⟩
          · have he := (hd r).resolve_right hz
            obtain ⟨d', k1, k2, k3⟩ := copyAt_ok (d := g.block r) (src := ((data r).drop 0).take (64 - g.unfinished - 0))
              (a := g.unfinished) (b := 64) (by omega) (by rw [w2]) (by
                rw [List.length_take, List.drop_zero]; omega)
            refine ⟨d', ?_, fun _ => ⟨k2.trans (w2 r), ?_⟩⟩
            · rw [if_neg hz, slice_ok (by omega) (by omega), Option.bind_some, k1]
            · rw [List.take_of_length_le (by rw [k2, w2])] at k3
              rw [k3, List.drop_zero, Nat.sub_zero]
        rw [b1, Option.bind_some]
        refine ⟨_, _, rfl, rfl, by omega, by omega, fun r m hr hl => ?_⟩
        obtain ⟨bs, l1, l2, l3, l4⟩ := hl
        obtain ⟨c1, c2⟩ := b2 r hr
        refine ⟨bs ++ [b r], ?_, ?_, ?_, ?_⟩
        · intro x hx
          rcases List.mem_append.1 hx with hx | hx
          · exact l1 x hx
          · rw [List.mem_singleton.1 hx, c1]
        · rw [l2, List.flatten_append, List.flatten_singleton, c2, List.append_assoc]
        · rw [List.foldl_append, ← l3]; rfl
        · rw [List.length_append, ← l4]; rfl
    obtain ⟨g1, i, f1, f2, f3, f4, f5⟩ := first
    rw [f1, Option.bind_some]
    obtain ⟨g2, i2, e1, e2, e3, e4, e5, e6, e7, e8⟩ := absorbLoop_ok I hd _ g1 i le_rfl f3
    dsimp only
    rw [e1, Option.bind_some]
    have hrest : ((data 0).length + g.unfinished) % 64 = (data 0).length - i2 := by omega
    rw [hrest]
    obtain ⟨b, b1, b2⟩ := exists_all4 (f := fun r => if (data r).length = 0 then some (g2.block r) else
        (slice (data r) i2 (data r).length).bind fun src => copyAt (g2.block r) 0 ((data 0).length - i2) src)
      (Q := fun r v => v.length = 64 ∧ ((data r).length = (data 0).length →
        v.take ((data 0).length - i2) = (data r).drop i2)) fun r => by
      have hb : (g2.block r).length = 64 := by rw [e2, f2, w2]
      by_cases hz : (data r).length = 0
      · exact ⟨_, if_pos hz, hb, fun he => by omega⟩
      · have he := (hd r).resolve_right hz
        obtain ⟨d', k1, k2, k3⟩ := copyAt_ok (d := g2.block r) (src := ((data r).drop i2).take ((data r).length - i2))
          (a := 0) (b := (data 0).length - i2) (by omega) (by omega) (by rw [List.length_take, List.length_drop]; omega)
        refine ⟨d', ?_, k2.trans hb, fun _ => ?_⟩
        · rw [if_neg hz, slice_ok (by omega) le_rfl, Option.bind_some, k1]
        · rw [k3, List.take_zero, List.nil_append, List.take_of_length_le (by rw [List.length_drop])]
    dsimp only
    rw [b1, Option.bind_some]
    refine ⟨_, rfl, ⟨e5, fun r => (b2 r).1⟩, fun r m hr hl => ?_⟩
    obtain ⟨bs, l1, l2, l3, l4⟩ := f5 r m hr hl
    obtain ⟨bs', m1, m2, m3, m4⟩ := e8 r hr
    refine ⟨bs ++ bs', ?_, ?_, ?_, ?_⟩
    · intro x hx
      rcases List.mem_append.1 hx with hx | hx
      · exact l1 x hx
      · exact m1 x hx
    · show m ++ data r = _ ++ (b r).take ((data 0).length - i2)
      rw [(b2 r).2 hr, List.flatten_append, List.append_assoc, ← m2, ← l2, List.append_assoc, List.take_append_drop]
    · rw [List.foldl_append, ← l3]; exact m3
    · rw [List.length_append, ← l4]; exact m4

theorem copy_front {b : Bytes} (h : b.length ≤ 64) :
    copyAt (List.replicate 64 0) 0 b.length b = some (b ++ List.replicate (64 - b.length) 0) := by
  rw [copyAt, if_pos ⟨Nat.zero_le _, by rw [List.length_replicate]; exact h, rfl⟩, List.take_zero, List.nil_append,
    List.drop_replicate]

theorem multi_finalize (I : Impl S) {g : Multi4 S} (hw : Well g) : ∃ g' outs, g.finalize I = some (g', outs) ∧
    g'.unfinished = g.unfinished ∧ g'.block = g.block ∧
    g'.consumed = g.consumed + (if g.unfinished < 56 then 1 else 2) ∧ ∀ r m, Lane I g r m → outs r = hashOf I m := by
  obtain ⟨w1, w2⟩ := hw
  unfold Multi4.finalize
  rw [if_neg (by omega)]
  have hset : ∀ b : Bytes, b.length < 64 → (b ++ List.replicate (64 - b.length) 0).set b.length 0x80 =
      b ++ 0x80 :: List.replicate (63 - b.length) (0 : BitVec 8) := by
    intro b hb
    rw [List.set_append_right _ _ le_rfl, Nat.sub_self, show 64 - b.length = (63 - b.length) + 1 by omega,
      List.replicate_succ, List.set_cons_zero]
  have hlen : ∀ r, ((g.block r).take g.unfinished).length = g.unfinished := fun r => by
    rw [List.length_take, w2]; omega
  by_cases hf : g.unfinished < 56
  · simp only [hf, decide_true, if_true]
    rw [all4_ok (v := fun r => (g.block r).take g.unfinished ++ 0x80 :: List.replicate (55 - g.unfinished) 0 ++ be64 (g.consumed + 1)) ?_]
    · rw [Option.bind_some, Option.bind_some]
      refine ⟨_, _, rfl, rfl, rfl, rfl, fun r m hl => ?_⟩
      obtain ⟨bs, l1, l2, l3, l4⟩ := hl
      rw [l2, hashOf_ok I l1 (by rw [hlen]; omega), lastBlocks, hlen, if_pos hf, ← l3, ← l4]
      rfl
    · intro r
      have hl := hlen r
      rw [slice_ok (Nat.zero_le _) (by rw [w2]; omega), Option.bind_some, List.drop_zero, Nat.sub_zero]
      have h1 := copy_front (b := (g.block r).take g.unfinished) (by omega)
      have h2 := hset ((g.block r).take g.unfinished) (by omega)
      rw [hl] at h1 h2
      rw [h1, Option.bind_some, h2, copyAt, if_pos ⟨by omega, by
        simp only [List.length_append, List.length_cons, List.length_replicate, hl]; omega, rfl⟩]
      congr 1
      rw [List.drop_eq_nil_of_le (by simp only [List.length_append, List.length_cons, List.length_replicate, hl]; omega),
        List.append_nil]
      congr 1
      rw [List.take_append, hl, List.take_of_length_le (by omega), show 56 - g.unfinished = (55 - g.unfinished) + 1 by omega,
        List.take_succ_cons, List.take_replicate, Nat.min_eq_left (by omega)]
  · simp only [hf, decide_false, Bool.false_eq_true, if_false]
    rw [all4_ok (v := fun r => (g.block r).take g.unfinished ++ 0x80 :: List.replicate (63 - g.unfinished) 0) ?_]
    · rw [Option.bind_some, copyAt, if_pos ⟨by omega, by rw [List.length_replicate], rfl⟩, Option.bind_some, Option.bind_some]
      refine ⟨_, _, rfl, rfl, rfl, rfl, fun r m hl => ?_⟩
      obtain ⟨bs, l1, l2, l3, l4⟩ := hl
      rw [l2, hashOf_ok I l1 (by rw [hlen]; omega), lastBlocks, hlen, if_neg hf, ← l3, ← l4]
      rfl
    · intro r
      have hl := hlen r
      rw [slice_ok (Nat.zero_le _) (by rw [w2]; omega), Option.bind_some, List.drop_zero, Nat.sub_zero]
      have h1 := copy_front (b := (g.block r).take g.unfinished) (by omega)
      have h2 := hset ((g.block r).take g.unfinished) (by omega)
      rw [hl] at h1 h2
      rw [h1, Option.bind_some, h2]

theorem lane_new (I : Impl S) (r : Fin 4) : Lane I (Multi4.new I) r [] :=
  ⟨[], by simp, by simp [Multi4.new], rfl, rfl⟩

theorem well_new (I : Impl S) : Well (Multi4.new I) := ⟨show 0 < 64 by decide, fun _ => List.length_replicate⟩

/-! ### Many strings -/

/-- Every number of strings and every schedule. -/
theorem digestChunks_all (I : Impl S) {self : Multi4 S} (hw : Well self) {p : Bytes} (hs : ∀ r, Lane I self r p)
    {fresh : Nat → Bool} {source : List Bytes} {l : Nat} (hl : ∀ d ∈ source, d.length = l) :
    ∀ (n c : Nat) (bufs : Fin 4 → Bytes), 4 * (c + n) < source.length + 4 → source.length ≤ 4 * (c + n) →
      (∀ r, (bufs r).length = l ∨ (bufs r).length = 0) →
      digestChunks (groestlMulti I) self fresh source source.length c n bufs =
        some ((source.drop (4 * c)).map fun d => hashOf I (p ++ d))
  | 0, c, bufs, _, h, _ => by
    rw [digestChunks, List.drop_eq_nil_of_le (by omega)]; rfl
  | n + 1, c, bufs, h0, h, hb => by
    rw [digestChunks]
    set bufs0 : Fin 4 → Bytes := if fresh c = true then fun _ => [] else bufs with hbufs0
    set data := (source.drop (4 * c)).take 4 with hdata
    set fb := fillBuffers bufs0 data with hfb
    have hdl : ∀ d ∈ data, d.length = l := fun d hd => hl d (List.mem_of_mem_drop (List.mem_of_mem_take hd))
    have hdlen : data.length = min 4 (source.length - 4 * c) := by rw [hdata, List.length_take, List.length_drop]
    have hfill : ∀ r, (fb r).length = l ∨ (fb r).length = 0 := by
      intro r
      rw [hfb, fillBuffers]
      rcases hx : data[r.val]? with _ | d
      · rw [Option.getD_none, hbufs0]
        split
        · exact Or.inr rfl
        · exact hb r
      · exact Or.inl (hdl d (List.mem_of_getElem? hx))
    have hin : ∀ r : Fin 4, r.val < data.length → (fb r).length = l := by
      intro r hr
      rw [hfb, fillBuffers, List.getElem?_eq_getElem hr]
      exact hdl _ (List.getElem_mem _)
    have hzero : (fb 0).length = l := hin 0 (by rw [hdlen]; show 0 < _; omega)
    obtain ⟨g', u1, u2, u3⟩ := multi_update I hw (data := fb) (by rw [hzero]; exact hfill)
    obtain ⟨g'', outs, v1, -, -, -, v2⟩ := multi_finalize I u2
    rw [show (groestlMulti I).update self fb = some g' from u1, Option.bind_some,
      show (groestlMulti I).finalize g' = some outs by show (g'.finalize I).map _ = _; rw [v1]; rfl, Option.bind_some,
      digestChunks_all I hw hs hl n (c + 1) fb (by omega) (by omega) hfill, Option.bind_some]
    congr 1
    have h1 : ((List.finRange 4).map outs).take (min 4 (source.length - 4 * c)) = data.map fun d => hashOf I (p ++ d) := by
      have := chunk_out (N := 4) (fun d => hashOf I (p ++ d)) source c bufs0
      rw [← this, ← hdata]
      refine List.ext_getElem? fun k => ?_
      rw [List.getElem?_take, List.getElem?_take]
      by_cases hk : k < min 4 (source.length - 4 * c)
      · rw [if_pos hk, if_pos hk, List.getElem?_map, List.getElem?_map]
        have h4 : k < (List.finRange 4).length := by rw [List.length_finRange]; omega
        rw [List.getElem?_eq_getElem h4, Option.map_some, Option.map_some]
        have hv : ((List.finRange 4)[k]).val = k := by simp
        rw [v2 _ (p ++ fb _) (u3 _ _ (by rw [hzero]; exact hin _ (by rw [hdlen, hv]; exact hk)) (hs _))]
      · rw [if_neg hk, if_neg hk]
    rw [h1, hdata, show 4 * (c + 1) = 4 * c + 4 by omega, ← List.drop_drop, ← List.map_append, List.take_append_drop]

end Verif.Hash.Groestl
