import Verif.Hash.ModelHash

/-! The Vision hashers compute the hash of what they have read. -/

set_option linter.dupNamespace false

namespace Verif.Hash

variable {E : Type}

/-! ### Blocks and padding -/

theorem blocks_flatten : ∀ bs : List Bytes, (∀ b ∈ bs, b.length = 64) → bs.flatten.length = 64 * bs.length ∧ blocks bs.flatten = bs
  | [], _ => ⟨rfl, rfl⟩
  | b :: bs, h => by
    obtain ⟨h1, h2⟩ := blocks_flatten bs fun b hb => h b (List.mem_cons_of_mem _ hb)
    have hb := h b List.mem_cons_self
    refine ⟨by rw [List.flatten_cons, List.length_append, h1, hb, List.length_cons]; omega, ?_⟩
    rw [blocks, List.flatten_cons, List.length_append, h1, hb, show (64 + 64 * bs.length) / 64 = bs.length + 1 by omega,
      List.range_succ_eq_map, List.map_cons, List.map_map]
    rw [blocks, h1, Nat.mul_div_cancel_left _ (by omega)] at h2
    congr 1
    · simp [← hb]
    · refine Eq.trans (List.map_congr_left fun k _ => ?_) h2
      show ((b ++ bs.flatten).drop (64 * (k + 1))).take 64 = _
      rw [show 64 * (k + 1) = b.length + 64 * k by omega, List.drop_append, List.drop_eq_nil_of_le (by omega),
        List.nil_append, Nat.add_sub_cancel_left]

theorem padding_mod (n : Nat) : padding n = padding (n % 64) := by
  unfold padding
  rw [Nat.mod_mod]

theorem padding_length (n : Nat) (h : n < 64) : (padding n).length = 64 - n := by
  unfold padding
  rw [Nat.mod_eq_of_lt h]
  split
  · simp; omega
  · simp; omega

theorem fillPadding_table : ∀ k : Fin 64, fillPadding (List.replicate (k.val + 1) 0) = some (padding (63 - k.val)) := by
  decide +kernel

theorem fillPadding_ok (d : Bytes) (h0 : d.length ≠ 0) (h1 : d.length ≤ 64) : fillPadding d = some (padding (64 - d.length)) := by
  have h := fillPadding_table ⟨d.length - 1, by omega⟩
  dsimp only at h
  rw [show d.length - 1 + 1 = d.length by omega, show 63 - (d.length - 1) = 64 - d.length by omega] at h
  rw [← h]
  unfold fillPadding
  simp only [List.length_replicate]

theorem paddingBlock_ok : paddingBlock = padding 0 := by decide +kernel

/-! ### One hasher -/

theorem permute_ok (P : Sponge E) (s : Fin 24 → E) {b : Bytes} (h : b.length = 64) : permute P s b = some (absorb P s b) := by
  unfold permute absorb
  rw [if_neg (by omega)]
  simp only [Nat.mul_comm 4]

/-- The hasher has read `m`. -/
def Rep (P : Sponge E) (h : Hasher E) (m : Bytes) : Prop :=
  h.filled < 64 ∧ h.buffer.length = 64 ∧ ∃ bs : List Bytes, (∀ b ∈ bs, b.length = 64) ∧
    m = bs.flatten ++ h.buffer.take h.filled ∧ h.state = bs.foldl (absorb P) fun _ => P.zero

theorem rep_new (P : Sponge E) : Rep P (Hasher.new P) [] := ⟨by simp [Hasher.new], by simp [Hasher.new], [], by simp, rfl, rfl⟩

theorem output_ok (P : Sponge E) (s : Fin 24 → E) :
    output P s = (List.finRange 8).flatMap fun i => bytes32 (P.ofWord (s ⟨i.val, by omega⟩)) := rfl

theorem rep_finalize {P : Sponge E} {h : Hasher E} {m : Bytes} (hr : Rep P h m) : h.finalize P = some (hash P m) := by
  obtain ⟨h1, h2, bs, h3, h4, h5⟩ := hr
  have hlen : m.length = 64 * bs.length + h.filled := by
    rw [h4, List.length_append, (blocks_flatten bs h3).1, List.length_take, h2, Nat.min_eq_left h1.le]
  have hmod : m.length % 64 = h.filled := by omega
  have key : ∀ b, b = h.buffer.take h.filled ++ padding h.filled → b.length = 64 ∧
      some (output P (absorb P h.state b)) = some (hash P m) := by
    rintro b rfl
    have hb : (h.buffer.take h.filled ++ padding h.filled).length = 64 := by
      rw [List.length_append, List.length_take, h2, padding_length _ h1]; omega
    refine ⟨hb, ?_⟩
    have : m ++ padding m.length = (bs ++ [h.buffer.take h.filled ++ padding h.filled]).flatten := by
      rw [padding_mod, hmod, List.flatten_append, List.flatten_singleton]
      conv_lhs => rw [h4]
      rw [List.append_assoc]
    rw [hash, this, (blocks_flatten _ _).2, List.foldl_append, ← h5, output_ok]
    · rfl
    · intro b hb'
      rcases List.mem_append.1 hb' with hb' | hb'
      · exact h3 b hb'
      · rw [List.mem_singleton.1 hb']; exact hb
  unfold Hasher.finalize
  by_cases h0 : h.filled = 0
  · obtain ⟨k1, k2⟩ := key paddingBlock (by rw [h0, paddingBlock_ok]; rfl)
    rw [if_neg (by simpa using h0), permute_ok P _ k1, Option.bind_some, k2]
  · rw [if_pos h0, slice, if_pos ⟨by omega, le_rfl⟩, Option.bind_some,
      fillPadding_ok _ (by rw [List.length_take, List.length_drop]; omega) (by rw [List.length_take, List.length_drop]; omega),
      Option.bind_some]
    obtain ⟨k1, k2⟩ := key (h.buffer.take h.filled ++ padding (64 -
      ((h.buffer.drop h.filled).take (h.buffer.length - h.filled)).length)) (by
        congr 2
        rw [List.length_take, List.length_drop]
        omega)
    rw [permute_ok P _ k1, Option.bind_some, k2]

theorem absorbChunks_ok (P : Sponge E) : ∀ (n : Nat) (s : Fin 24 → E) (data : Bytes), data.length ≤ n →
    ∃ (bs : List Bytes) (tail : Bytes), (∀ b ∈ bs, b.length = 64) ∧ tail.length < 64 ∧ data = bs.flatten ++ tail ∧
      absorbChunks P s data = some (bs.foldl (absorb P) s, tail)
  | n, s, data, hn => by
    rw [absorbChunks]
    by_cases h : 64 ≤ data.length
    · have h64 : (data.take 64).length = 64 := by rw [List.length_take]; omega
      cases n with
      | zero => omega
      | succ n =>
        obtain ⟨bs, tail, h1, h2, h3, h4⟩ := absorbChunks_ok P n (absorb P s (data.take 64)) (data.drop 64)
          (by rw [List.length_drop]; omega)
        refine ⟨data.take 64 :: bs, tail, ?_, h2, ?_, ?_⟩
        · intro b hb
          rcases List.mem_cons.1 hb with rfl | hb
          · exact h64
          · exact h1 b hb
        · rw [List.flatten_cons, List.append_assoc, ← h3, List.take_append_drop]
        · rw [dif_pos h, permute_ok P _ h64, Option.bind_some, h4, List.foldl_cons]
    · exact ⟨[], data, by simp, by omega, rfl, by rw [dif_neg h]; rfl⟩

theorem copyAt_ok {d src : Bytes} {a b : Nat} (h1 : a ≤ b) (h2 : b ≤ d.length) (h3 : src.length = b - a) :
    ∃ d', copyAt d a b src = some d' ∧ d'.length = d.length ∧ d'.take b = d.take a ++ src := by
  refine ⟨d.take a ++ src ++ d.drop b, if_pos ⟨h1, h2, h3⟩, ?_, ?_⟩
  · rw [List.length_append, List.length_append, List.length_take, List.length_drop]; omega
  · rw [List.take_append_of_le_length (by rw [List.length_append, List.length_take]; omega),
      List.take_of_length_le (by rw [List.length_append, List.length_take]; omega)]

theorem slice_ok {d : Bytes} {a b : Nat} (h1 : a ≤ b) (h2 : b ≤ d.length) : slice d a b = some ((d.drop a).take (b - a)) :=
  if_pos ⟨h1, h2⟩

theorem updateRest_nil (P : Sponge E) (h : Hasher E) : h.updateRest P [] = some h := by
  unfold Hasher.updateRest
  rw [absorbChunks, dif_neg (by simp), Option.bind_some, if_neg (by simp)]

theorem updateRest_ok {P : Sponge E} {h : Hasher E} {m : Bytes} (hr : Rep P h m) (h0 : h.filled = 0) (data : Bytes) :
    ∃ h', h.updateRest P data = some h' ∧ Rep P h' (m ++ data) := by
  obtain ⟨h1, h2, bs, h3, h4, h5⟩ := hr
  rw [h0, List.take_zero, List.append_nil] at h4
  obtain ⟨cs, tail, k1, k2, k3, k4⟩ := absorbChunks_ok P data.length h.state data le_rfl
  have hall : ∀ b ∈ bs ++ cs, b.length = 64 := fun b hb => (List.mem_append.1 hb).elim (h3 b) (k1 b)
  unfold Hasher.updateRest
  rw [k4, Option.bind_some]
  by_cases ht : tail = []
  · refine ⟨{ h with state := cs.foldl (absorb P) h.state }, if_neg (by simpa using ht), h1, h2, bs ++ cs, hall, ?_, ?_⟩
    · show _ = _ ++ h.buffer.take h.filled
      rw [h0, List.take_zero, List.append_nil, List.flatten_append, h4, k3, ht, List.append_nil]
    · rw [List.foldl_append, ← h5]
  · obtain ⟨b, c1, c2, c3⟩ := copyAt_ok (d := h.buffer) (src := tail) (a := 0) (b := tail.length) (Nat.zero_le _)
      (by omega) (by omega)
    refine ⟨⟨_, b, tail.length⟩, by rw [if_pos ht, c1, Option.bind_some], k2, c2.trans h2, bs ++ cs, hall, ?_, ?_⟩
    · show _ = _ ++ b.take tail.length
      rw [c3, List.take_zero, List.nil_append, List.flatten_append, h4, k3, List.append_assoc]
    · rw [List.foldl_append, ← h5]

theorem rep_update {P : Sponge E} {h : Hasher E} {m : Bytes} (hr : Rep P h m) (data : Bytes) :
    ∃ h', h.update P data = some h' ∧ Rep P h' (m ++ data) := by
  unfold Hasher.update
  by_cases h0 : h.filled = 0
  · rw [if_neg (by simpa using h0)]
    exact updateRest_ok hr h0 data
  · obtain ⟨h1, h2, bs, h3, h4, h5⟩ := hr
    set c := min data.length (64 - h.filled) with hc
    dsimp only
    rw [if_pos h0, slice_ok (Nat.zero_le _) (by omega), Option.bind_some, List.drop_zero, Nat.sub_zero]
    obtain ⟨b, c1, c2, c3⟩ := copyAt_ok (d := h.buffer) (src := data.take c) (a := h.filled) (b := h.filled + c) (by omega)
      (by omega) (by rw [List.length_take]; omega)
    rw [c1, Option.bind_some]
    by_cases hf : h.filled + c = 64
    · rw [if_pos hf, permute_ok P _ (c2.trans h2), Option.bind_some]
      have hb : b = h.buffer.take h.filled ++ data.take c := by
        rw [← c3, List.take_of_length_le (by omega)]
      have hr' : Rep P (⟨absorb P h.state b, b, 0⟩ : Hasher E) (m ++ data.take c) := by
        refine ⟨by simp, c2.trans h2, bs ++ [b], ?_, ?_, ?_⟩
        · intro b' hb'
          rcases List.mem_append.1 hb' with hb' | hb'
          · exact h3 b' hb'
          · rw [List.mem_singleton.1 hb']; exact c2.trans h2
        · rw [List.take_zero, List.append_nil, List.flatten_append, List.flatten_singleton, hb, h4, List.append_assoc]
        · rw [List.foldl_append, ← h5]; rfl
      obtain ⟨h', r1, r2⟩ := updateRest_ok hr' rfl (data.drop c)
      rw [List.append_assoc, List.take_append_drop] at r2
      exact ⟨h', r1, r2⟩
    · have hd : data.length ≤ c := by omega
      rw [if_neg hf, List.drop_eq_nil_of_le hd, updateRest_nil]
      refine ⟨_, rfl, by dsimp only; omega, c2.trans h2, bs, h3, ?_, h5⟩
      show _ = _ ++ b.take (h.filled + c)
      rw [c3, List.take_of_length_le hd, h4, List.append_assoc]

/-! ### 32 hashers -/

/-- One of the hashers. -/
def Sliced.row (g : Sliced E) (r : Fin 32) : Hasher E := ⟨fun e => g.state e r, g.buffer r, g.filled⟩

theorem allRows_ok {α : Type} {f : Fin 32 → Option α} {v : Fin 32 → α} (h : ∀ r, f r = some (v r)) : allRows f = some v := by
  unfold allRows
  rw [dif_pos fun r => by rw [h r]; rfl]
  congr 1
  funext r
  simp only [h r, Option.get_some]

theorem allRows_none {α : Type} {f : Fin 32 → Option α} {r : Fin 32} (h : f r = none) : allRows f = none :=
  dif_neg fun h' => by have := h' r; rw [h] at this; simp at this

theorem permute_row (P : Sponge E) (s : Fin 24 → Fin 32 → E) {data : Fin 32 → Bytes} (h : ∀ r, (data r).length = 64) :
    ∃ s', Sliced.permute P s data = some s' ∧ ∀ r, permute P (fun e => s e r) (data r) = some fun e => s' e r := by
  unfold Sliced.permute
  rw [if_neg (by simp [h])]
  refine ⟨_, rfl, fun r => ?_⟩
  unfold permute
  rw [if_neg (by rw [h r]; omega)]
  congr 2
  funext e
  beta_reduce
  by_cases he : e.val < 16
  · rw [if_pos he, if_pos he]
    dsimp only
    rw [show e.val / 8 * 32 + 4 * (e.val % 8) = e.val * 4 by omega]
  · rw [if_neg he, if_neg he]

variable {data : Fin 32 → Bytes} {n : Nat}

theorem absorbLoop_row (P : Sponge E) (hd : ∀ r, (data r).length = n) : ∀ (k : Nat) (s : Fin 24 → Fin 32 → E) (off : Nat),
    off ≤ n → n - off ≤ k →
    ∃ s' off', Sliced.absorbLoop P data s off = some (s', off') ∧ off' ≤ n ∧
      ∀ r, absorbChunks P (fun e => s e r) ((data r).drop off) = some (fun e => s' e r, (data r).drop off')
  | k, s, off, ho, hk => by
    rw [Sliced.absorbLoop]
    by_cases h : off + 64 ≤ n
    · rw [dif_pos (by rw [hd]; exact h), allRows_ok fun r => slice_ok (by omega) (by rw [hd r]; exact h), Option.bind_some]
      obtain ⟨s1, p1, p2⟩ := permute_row P s (data := fun r => ((data r).drop off).take (off + 64 - off)) fun r => by
        rw [List.length_take, List.length_drop, hd]; omega
      rw [p1, Option.bind_some]
      cases k with
      | zero => omega
      | succ k =>
        obtain ⟨s', off', q1, q2, q3⟩ := absorbLoop_row P hd k s1 (off + 64) h (by omega)
        refine ⟨s', off', q1, q2, fun r => ?_⟩
        have := p2 r
        rw [show off + 64 - off = 64 by omega] at this
        rw [absorbChunks, dif_pos (by rw [List.length_drop, hd]; omega), this, Option.bind_some, List.drop_drop, q3 r]
    · rw [dif_neg (by rw [hd]; exact h)]
      exact ⟨s, off, rfl, ho, fun r => by rw [absorbChunks, dif_neg (by rw [List.length_drop, hd]; omega)]⟩

theorem updateRest_row (P : Sponge E) (hd : ∀ r, (data r).length = n) {g : Sliced E} (hb : ∀ r, (g.buffer r).length = 64)
    {off : Nat} (ho : off ≤ n) :
    ∃ g', Sliced.updateRest P g data off = some g' ∧
      ∀ r, Hasher.updateRest P (g.row r) ((data r).drop off) = some (g'.row r) := by
  unfold Sliced.updateRest Hasher.updateRest
  obtain ⟨s', off', h1, h2, h3⟩ := absorbLoop_row P hd n g.state off ho (by omega)
  rw [h1, Option.bind_some]
  have hlen : ∀ r, ((data r).drop off').length = n - off' := fun r => by rw [List.length_drop, hd]
  dsimp only
  by_cases h : off' < n
  · have hsm : n - off' < 64 := by
      obtain ⟨bs, tail, -, k2, -, k4⟩ := absorbChunks_ok P _ (fun e => g.state e 0) ((data 0).drop off) le_rfl
      rw [h3 0] at k4
      injection k4 with k4
      injection k4 with k4 k5
      rw [← hlen 0, k5]; exact k2
    have hcopy : ∀ r, ∃ b, copyAt (g.buffer r) 0 (n - off') ((data r).drop off') = some b := fun r => by
      obtain ⟨b, c1, -⟩ := copyAt_ok (d := g.buffer r) (src := (data r).drop off') (a := 0) (b := n - off')
        (Nat.zero_le _) (by rw [hb]; omega) (by rw [hlen]; omega)
      exact ⟨b, c1⟩
    choose b hbb using hcopy
    refine ⟨⟨s', b, n - off'⟩, ?_, fun r => ?_⟩
    · rw [if_pos (by rw [hd]; exact h), allRows_ok (v := b) fun r => ?_, Option.bind_some, hd]
      rw [if_neg (by rw [hd]; omega), slice_ok (by rw [hd]; omega) le_rfl, Option.bind_some, hd,
        List.take_of_length_le (by rw [hlen]), hbb r]
    · show (absorbChunks P (fun e => g.state e r) _).bind _ = _
      rw [h3 r, Option.bind_some, if_pos (fun h' : (data r).drop off' = [] => by have := hlen r; rw [h'] at this; simp at this; omega)]
      show (copyAt (g.buffer r) 0 ((data r).drop off').length _).bind _ = _
      rw [hlen r, hbb r, Option.bind_some]
      rfl
  · refine ⟨{ g with state := s' }, if_neg (by rw [hd]; exact h), fun r => ?_⟩
    show (absorbChunks P (fun e => g.state e r) _).bind _ = _
    rw [h3 r, Option.bind_some, if_neg (by
      intro h'
      exact h' (List.eq_nil_of_length_eq_zero (by rw [hlen]; omega)))]
    rfl

theorem update_row (P : Sponge E) (debug : Bool) (hd : ∀ r, (data r).length = n) {g : Sliced E}
    (hb : ∀ r, (g.buffer r).length = 64) (hf : g.filled < 64) :
    ∃ g', Sliced.update debug P g data = some g' ∧ ∀ r, Hasher.update P (g.row r) (data r) = some (g'.row r) := by
  unfold Sliced.update Hasher.update
  rw [if_neg (by simp [hd])]
  by_cases h0 : g.filled = 0
  · rw [if_neg (by omega)]
    obtain ⟨g', h1, h2⟩ := updateRest_row P hd hb (off := 0) (Nat.zero_le _)
    refine ⟨g', h1, fun r => ?_⟩
    rw [if_neg (show ¬ (g.row r).filled ≠ 0 from fun h => h h0)]
    have := h2 r
    rwa [List.drop_zero] at this
  · rw [if_pos (by omega), hd 0]
    set c := min n (64 - g.filled) with hc
    have hcopy : ∀ r, ∃ b, copyAt (g.buffer r) g.filled (g.filled + c) (((data r).drop 0).take (c - 0)) = some b ∧
        b.length = 64 := fun r => by
      obtain ⟨b, c1, c2, -⟩ := copyAt_ok (d := g.buffer r) (src := ((data r).drop 0).take (c - 0)) (a := g.filled)
        (b := g.filled + c) (by omega) (by rw [hb]; omega) (by rw [List.length_take, List.length_drop, hd]; omega)
      exact ⟨b, c1, c2.trans (hb r)⟩
    choose b hbb hbl using hcopy
    have hsl : ∀ r, slice (data r) 0 c = some (((data r).drop 0).take (c - 0)) := fun r =>
      slice_ok (Nat.zero_le _) (by rw [hd]; omega)
    dsimp only
    rw [allRows_ok (v := b) fun r => by rw [hsl r, Option.bind_some, hbb r], Option.bind_some]
    have hrow : ∀ r, (if (g.row r).filled ≠ 0 then
        (slice (data r) 0 (min (data r).length (64 - (g.row r).filled))).bind fun src =>
          (copyAt (g.row r).buffer (g.row r).filled ((g.row r).filled + min (data r).length (64 - (g.row r).filled)) src).bind
            fun b =>
              if (g.row r).filled + min (data r).length (64 - (g.row r).filled) = 64 then
                (permute P (g.row r).state b).bind fun s =>
                  Hasher.updateRest P ⟨s, b, 0⟩ ((data r).drop (min (data r).length (64 - (g.row r).filled)))
              else Hasher.updateRest P ⟨(g.row r).state, b, (g.row r).filled + min (data r).length (64 - (g.row r).filled)⟩
                ((data r).drop (min (data r).length (64 - (g.row r).filled)))
        else Hasher.updateRest P (g.row r) (data r)) =
          if g.filled + c = 64 then (permute P (fun e => g.state e r) (b r)).bind fun s =>
            Hasher.updateRest P ⟨s, b r, 0⟩ ((data r).drop c)
          else Hasher.updateRest P ⟨fun e => g.state e r, b r, g.filled + c⟩ ((data r).drop c) := by
      intro r
      rw [if_pos (show (g.row r).filled ≠ 0 from h0), hd r]
      show (slice (data r) 0 c).bind _ = _
      rw [hsl r, Option.bind_some]
      show (copyAt (g.buffer r) g.filled (g.filled + c) _).bind _ = _
      rw [hbb r, Option.bind_some]
      rfl
    by_cases h64 : g.filled + c = 64
    · rw [if_pos h64]
      obtain ⟨s', p1, p2⟩ := permute_row P g.state hbl
      rw [p1, Option.bind_some]
      obtain ⟨g', h1, h2⟩ := updateRest_row P hd (g := ⟨s', b, 0⟩) hbl (off := c) (by omega)
      refine ⟨g', h1, fun r => (hrow r).trans ?_⟩
      rw [if_pos h64, p2 r, Option.bind_some]
      exact h2 r
    · rw [if_neg h64]
      obtain ⟨g', h1, h2⟩ := updateRest_row P hd (g := ⟨g.state, b, g.filled + c⟩) hbl (off := c) (by omega)
      refine ⟨g', h1, fun r => (hrow r).trans ?_⟩
      rw [if_neg h64]
      exact h2 r

theorem finalize_row (P : Sponge E) {g : Sliced E} (hb : ∀ r, (g.buffer r).length = 64) (hf : g.filled < 64) :
    ∃ out, Sliced.finalize P g = some out ∧ ∀ r, Hasher.finalize P (g.row r) = some (out r) := by
  unfold Sliced.finalize Hasher.finalize
  by_cases h0 : g.filled = 0
  · obtain ⟨s', p1, p2⟩ := permute_row P g.state (data := fun _ => paddingBlock) fun _ => by decide
    rw [if_neg (by omega), p1, Option.bind_some]
    refine ⟨_, rfl, fun r => ?_⟩
    rw [if_neg (show ¬ (g.row r).filled ≠ 0 from fun h => h h0)]
    show (permute P (fun e => g.state e r) paddingBlock).bind _ = _
    rw [p2 r, Option.bind_some]
    rfl
  · rw [if_pos (by omega)]
    have hrest : ∀ r, ∃ p : Bytes, p.length = 64 - g.filled ∧ ((slice (g.buffer r) g.filled (g.buffer r).length).bind fun rest =>
        fillPadding rest) = some p := fun r => by
      have hl : (((g.buffer r).drop g.filled).take ((g.buffer r).length - g.filled)).length = 64 - g.filled := by
        rw [List.length_take, List.length_drop, hb]; omega
      exact ⟨padding g.filled, padding_length _ hf, by
        rw [slice_ok (by rw [hb]; omega) le_rfl, Option.bind_some, fillPadding_ok _ (by omega) (by omega), hl,
          show 64 - (64 - g.filled) = g.filled by omega]⟩
    choose p hp1 hp2 using hrest
    have hsplit : ∀ r {α : Type} (k : Bytes → Option α), ((slice (g.buffer r) g.filled (g.buffer r).length).bind fun rest =>
        (fillPadding rest).bind k) = k (p r) := fun r α k => by
      rw [← Option.bind_assoc, hp2 r, Option.bind_some]
    rw [allRows_ok (v := fun r => (g.buffer r).take g.filled ++ p r) fun r => hsplit r _, Option.bind_some]
    obtain ⟨s', p1, p2⟩ := permute_row P g.state (data := fun r => (g.buffer r).take g.filled ++ p r) fun r => by
      rw [List.length_append, List.length_take, hb, hp1]; omega
    rw [p1, Option.bind_some]
    refine ⟨_, rfl, fun r => ?_⟩
    rw [if_pos (show (g.row r).filled ≠ 0 from h0)]
    refine (hsplit r _).trans ?_
    show (permute P (fun e => g.state e r) ((g.buffer r).take g.filled ++ p r)).bind _ = _
    rw [p2 r, Option.bind_some]
    rfl

end Verif.Hash
