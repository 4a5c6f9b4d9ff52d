import Verif.Transcript.SpecChallenger

/-! # The challenger: lemmas -/

namespace Verif.Transcript
open Verif.Ser (leBytes)

variable (H : HashFn)

/-- Observers between calls. -/
def Observer.WF (o : Observer) : Prop := o.index < H.block ∧ o.buffer.length = H.block

/-- Samplers between calls. -/
def Sampler.WF (s : Sampler) : Prop := s.index ≤ H.out ∧ s.buffer.length = H.out

def Challenger.WF : Challenger → Prop
  | .observer o => o.WF H
  | .sampler s => s.WF H

/-! ## Writing byte by byte -/

def Observer.putByte (o : Observer) (b : UInt8) : Observer :=
  let o' := { o with buffer := o.buffer.set o.index b, index := o.index + 1 }
  if o'.index = H.block then o'.flush else o'

theorem putByte_wf (o : Observer) (b : UInt8) (h : o.WF H) : (o.putByte H b).WF H := by
  obtain ⟨h1, h2⟩ := h
  unfold Observer.putByte Observer.WF
  dsimp only
  split
  · exact ⟨H.block_pos, by simpa [Observer.flush] using h2⟩
  · refine ⟨?_, by simpa using h2⟩
    dsimp only at *
    omega

theorem foldl_putByte_wf (bs : Bytes) (o : Observer) (h : o.WF H) :
    (bs.foldl (Observer.putByte H) o).WF H := by
  induction bs generalizing o with
  | nil => exact h
  | cons b bs ih => exact ih _ (putByte_wf H o b h)

theorem write_write (L : Bytes) (i : Nat) (b : UInt8) (bs : Bytes) (hi : i < L.length) :
    (L.set i b).take (i + 1) ++ bs ++ (L.set i b).drop (i + 1 + bs.length) =
      L.take i ++ b :: bs ++ L.drop (i + (bs.length + 1)) := by
  have ht : (L.take i).length = i := by rw [List.length_take]; omega
  have hset : L.set i b = L.take i ++ ([b] ++ L.drop (i + 1)) :=
    List.set_eq_take_append_cons_drop.trans (by rw [if_pos hi]; rfl)
  have h1 : (L.set i b).take (i + 1) = L.take i ++ [b] := by
    rw [hset, ← List.append_assoc]
    exact List.take_left' (by rw [List.length_append, ht]; rfl)
  have h2 : (L.set i b).drop (i + 1) = L.drop (i + 1) := by
    rw [hset, ← List.append_assoc]
    exact List.drop_left' (by rw [List.length_append, ht]; rfl)
  have e : i + (bs.length + 1) = i + 1 + bs.length := by omega
  rw [h1, ← List.drop_drop, h2, List.drop_drop, e]
  simp

theorem foldl_putByte_chunk (bs : Bytes) (o : Observer) (h : o.WF H)
    (hb : bs ≠ []) (hl : bs.length ≤ H.block - o.index) :
    bs.foldl (Observer.putByte H) o =
      let o' : Observer := { o.writeChunk bs with index := o.index + bs.length }
      if o'.index = H.block then o'.flush else o' := by
  induction bs generalizing o with
  | nil => exact absurd rfl hb
  | cons b bs ih =>
    obtain ⟨h1, h2⟩ := h
    have hset : o.buffer.set o.index b =
        o.buffer.take o.index ++ b :: o.buffer.drop (o.index + 1) :=
      List.set_eq_take_append_cons_drop.trans (by rw [if_pos (by omega)])
    by_cases hbs : bs = []
    · subst hbs
      simp only [List.foldl_cons, List.foldl_nil, Observer.putByte, Observer.writeChunk, hset,
        List.length_cons, List.length_nil, List.append_assoc, List.singleton_append, Nat.zero_add]
    · have hlen : 0 < bs.length := List.length_pos_iff.mpr hbs
      simp only [List.length_cons] at hl
      have hne : o.index + 1 ≠ H.block := by omega
      have hpb : o.putByte H b = { o with buffer := o.buffer.set o.index b, index := o.index + 1 } := by
        unfold Observer.putByte
        dsimp only
        rw [if_neg hne]
      have hwf := putByte_wf H o b ⟨h1, h2⟩
      rw [List.foldl_cons, ih _ hwf hbs (by rw [hpb]; dsimp only; omega)]
      have hbuf : ((o.putByte H b).writeChunk bs).buffer = (o.writeChunk (b :: bs)).buffer := by
        rw [hpb]
        simp only [Observer.writeChunk, List.length_cons]
        exact write_write o.buffer o.index b bs (by omega)
      have hO : ({ (o.putByte H b).writeChunk bs with
            index := (o.putByte H b).index + bs.length } : Observer) =
          { o.writeChunk (b :: bs) with index := o.index + (b :: bs).length } := by
        have hh : ((o.putByte H b).writeChunk bs).hasher = (o.writeChunk (b :: bs)).hasher := by
          rw [hpb]; rfl
        have hi : (o.putByte H b).index + bs.length = o.index + (b :: bs).length := by
          rw [hpb]; simp only [List.length_cons]; omega
        dsimp only
        rw [hbuf, hh, hi]
      exact congrArg (fun o' : Observer => if o'.index = H.block then o'.flush else o') hO

theorem advanceMut_chunk (o : Observer) (cnt : Nat) (hc : 0 < cnt)
    (hl : cnt ≤ H.block - o.index) :
    o.advanceMut H cnt = some
      (let o' := { o with index := o.index + cnt }
       if o'.index = H.block then o'.flush else o') := by
  obtain ⟨k, rfl⟩ : ∃ k, cnt = k + 1 := ⟨cnt - 1, by omega⟩
  have hm : min (H.block - o.index) (k + 1) = k + 1 := by omega
  simp only [Observer.advanceMut, Observer.advanceLoop, hm, Nat.sub_self]
  rw [if_neg (by omega), if_pos trivial]

theorem putLoop_eq (fuel : Nat) (o : Observer) (h : o.WF H) (src : Bytes)
    (hf : src.length < fuel) :
    Observer.putLoop H fuel o src = some (src.foldl (Observer.putByte H) o) := by
  induction fuel generalizing o src with
  | zero => omega
  | succ fuel ih =>
    unfold Observer.putLoop
    split
    · subst src; rfl
    · rename_i hne
      have hpos : 0 < src.length := List.length_pos_iff.mpr hne
      obtain ⟨h1, h2⟩ := h
      have hc : min src.length (o.buffer.length - o.index) ≤ H.block - o.index := by omega
      have hc0 : 0 < min src.length (o.buffer.length - o.index) := by omega
      have hcs : min src.length (o.buffer.length - o.index) ≤ src.length := by omega
      generalize min src.length (o.buffer.length - o.index) = cnt at hc hc0 hcs
      dsimp only
      have htl : (src.take cnt).length = cnt := by rw [List.length_take]; omega
      rw [advanceMut_chunk H (o.writeChunk (src.take cnt)) cnt hc0 hc]
      have hfold := foldl_putByte_chunk H (src.take cnt) o ⟨h1, h2⟩
        (by intro e; rw [e] at htl; simp at htl; omega) (by omega)
      rw [htl] at hfold
      have hidx : (o.writeChunk (src.take cnt)).index = o.index := rfl
      rw [hidx, ← hfold, Option.bind_some]
      rw [ih _ (foldl_putByte_wf H _ _ ⟨h1, h2⟩) _ (by rw [List.length_drop]; omega)]
      rw [← List.foldl_append, List.take_append_drop]

theorem putSlice_eq (o : Observer) (h : o.WF H) (src : Bytes) :
    o.putSlice H src = some (src.foldl (Observer.putByte H) o) :=
  putLoop_eq H _ o h src (by omega)

/-! ## Reading byte by byte -/

def Sampler.ready (s : Sampler) : Sampler := if s.index = H.out then s.fillBuffer H else s

def Sampler.nextByte (s : Sampler) : UInt8 × Sampler :=
  let s := s.ready H
  (s.buffer.getD s.index 0, { s with index := s.index + 1 })

def Sampler.nextBytes (s : Sampler) : Nat → Bytes × Sampler
  | 0 => ([], s)
  | n + 1 =>
    let r := s.nextByte H
    let q := Sampler.nextBytes r.2 n
    (r.1 :: q.1, q.2)

theorem ready_of_lt (s : Sampler) (h : s.index < H.out) : s.ready H = s := by
  unfold Sampler.ready; rw [if_neg (by omega)]

theorem ready_wf (s : Sampler) (h : s.WF H) : (s.ready H).WF H ∧ (s.ready H).index < H.out := by
  obtain ⟨h1, h2⟩ := h
  have := H.out_pos
  unfold Sampler.ready
  split
  · exact ⟨⟨Nat.zero_le _, H.hash_length _⟩, H.out_pos⟩
  · exact ⟨⟨h1, h2⟩, by omega⟩

theorem nextByte_wf (s : Sampler) (h : s.WF H) : (s.nextByte H).2.WF H := by
  obtain ⟨⟨h1, h2⟩, h3⟩ := ready_wf H s h
  exact ⟨h3, h2⟩

theorem nextBytes_wf (n : Nat) (s : Sampler) (h : s.WF H) : (s.nextBytes H n).2.WF H := by
  induction n generalizing s with
  | zero => exact h
  | succ n ih => exact ih _ (nextByte_wf H s h)

theorem nextBytes_add (m n : Nat) (s : Sampler) :
    s.nextBytes H (m + n) =
      ((s.nextBytes H m).1 ++ ((s.nextBytes H m).2.nextBytes H n).1,
        ((s.nextBytes H m).2.nextBytes H n).2) := by
  induction m generalizing s with
  | zero => simp [Sampler.nextBytes]
  | succ m ih =>
    rw [Nat.succ_add]
    simp only [Sampler.nextBytes, ih, List.cons_append]

theorem nextBytes_length (n : Nat) (s : Sampler) : (s.nextBytes H n).1.length = n := by
  induction n generalizing s with
  | zero => rfl
  | succ n ih => simp [Sampler.nextBytes, ih]

theorem nextBytes_ready (s : Sampler) (h : s.WF H) (n : Nat) (hn : 0 < n) :
    (s.ready H).nextBytes H n = s.nextBytes H n := by
  obtain ⟨k, rfl⟩ : ∃ k, n = k + 1 := ⟨n - 1, by omega⟩
  obtain ⟨_, h3⟩ := ready_wf H s h
  have hr : (s.ready H).ready H = s.ready H := ready_of_lt H _ h3
  simp only [Sampler.nextBytes, Sampler.nextByte, hr]

theorem nextBytes_chunk (n : Nat) (s : Sampler) (h : s.WF H) (hn : n ≤ H.out - s.index) :
    s.nextBytes H n = ((s.buffer.drop s.index).take n, { s with index := s.index + n }) := by
  induction n generalizing s with
  | zero => simp [Sampler.nextBytes]
  | succ n ih =>
    obtain ⟨h1, h2⟩ := h
    have hr : s.ready H = s := by
      unfold Sampler.ready; rw [if_neg (by omega)]
    have hlt : s.index < s.buffer.length := by omega
    simp only [Sampler.nextBytes, Sampler.nextByte, hr]
    rw [ih { s with index := s.index + 1 } ⟨by dsimp only; omega, h2⟩ (by dsimp only; omega)]
    rw [List.drop_eq_getElem_cons hlt, List.take_succ_cons, List.getD_eq_getElem?_getD,
      List.getElem?_eq_getElem hlt]
    have e : s.index + 1 + n = s.index + (n + 1) := by omega
    simp only [Option.getD_some, e]

theorem advanceLoop_eq (fuel : Nat) (s : Sampler) (h : s.WF H) (cnt : Nat)
    (hf : 2 * cnt + (if s.index = H.out then 1 else 0) < fuel) :
    Sampler.advanceLoop H fuel s cnt = some (s.nextBytes H cnt).2 := by
  induction fuel generalizing s cnt with
  | zero => omega
  | succ fuel ih =>
    have hp := H.out_pos
    obtain ⟨h1, h2⟩ := h
    unfold Sampler.advanceLoop
    split
    · subst cnt; rfl
    · rename_i hc
      dsimp only
      split
      · rename_i hr
        have hi : s.index = H.out := by omega
        rw [if_pos hi] at hf
        have hre : s.ready H = s.fillBuffer H := by unfold Sampler.ready; rw [if_pos hi]
        have hw := (ready_wf H s ⟨h1, h2⟩)
        rw [hre] at hw
        rw [ih _ hw.1 _ (by rw [if_neg (by omega)]; omega)]
        rw [← hre, nextBytes_ready H s ⟨h1, h2⟩ cnt (by omega)]
      · rename_i hr
        have hle : min (H.out - s.index) cnt ≤ H.out - s.index := by omega
        have hlc : min (H.out - s.index) cnt ≤ cnt := by omega
        generalize min (H.out - s.index) cnt = k at hr hle hlc
        have hk := nextBytes_chunk H k s ⟨h1, h2⟩ hle
        rw [ih { s with index := s.index + k } ⟨by dsimp only; omega, h2⟩ _
          (by dsimp only; split <;> split at hf <;> omega)]
        have e : cnt = k + (cnt - k) := by omega
        conv_rhs => rw [e, nextBytes_add, hk]

theorem advance_eq (s : Sampler) (h : s.WF H) (cnt : Nat) (hc : 0 < cnt) :
    s.advance H cnt = some (s.nextBytes H cnt).2 := by
  have hw := ready_wf H s h
  have hs : s.advance H cnt = Sampler.advanceLoop H (2 * cnt + 2) (s.ready H) cnt := rfl
  rw [hs, advanceLoop_eq H _ _ hw.1 _ (by split <;> omega), nextBytes_ready H s h cnt hc]

theorem advance_zero (s : Sampler) (h : s.WF H) : s.advance H 0 = some (s.ready H) := by
  have hw := ready_wf H s h
  have hs : s.advance H 0 = Sampler.advanceLoop H (2 * 0 + 2) (s.ready H) 0 := rfl
  rw [hs, advanceLoop_eq H _ _ hw.1 _ (by split <;> omega)]
  rfl

theorem copyLoop_eq (fuel : Nat) (s : Sampler) (h : s.WF H) (n : Nat) (acc : Bytes)
    (hf : 2 * n + (if s.index = H.out then 1 else 0) < fuel) :
    Sampler.copyLoop H fuel s n acc = some (acc ++ (s.nextBytes H n).1, (s.nextBytes H n).2) := by
  induction fuel generalizing s n acc with
  | zero => omega
  | succ fuel ih =>
    have hp := H.out_pos
    obtain ⟨h1, h2⟩ := h
    unfold Sampler.copyLoop
    split
    · subst n; simp [Sampler.nextBytes]
    · rename_i hn
      have hcl : s.chunk.length = H.out - s.index := by
        simp only [Sampler.chunk, List.length_drop]; omega
      dsimp only
      rw [hcl]
      by_cases hi : s.index = H.out
      · rw [if_pos hi] at hf
        have e0 : min (H.out - s.index) n = 0 := by omega
        have hw := ready_wf H s ⟨h1, h2⟩
        rw [e0, advance_zero H s ⟨h1, h2⟩, Option.bind_some, Nat.sub_zero, List.take_zero,
          List.append_nil]
        rw [ih _ hw.1 _ _ (by rw [if_neg (by omega)]; omega)]
        rw [nextBytes_ready H s ⟨h1, h2⟩ n (by omega)]
      · rw [if_neg hi] at hf
        have hle : min (H.out - s.index) n ≤ H.out - s.index := by omega
        have hlc : min (H.out - s.index) n ≤ n := by omega
        have hk0 : 0 < min (H.out - s.index) n := by omega
        generalize min (H.out - s.index) n = k at hle hlc hk0
        have hk := nextBytes_chunk H k s ⟨h1, h2⟩ hle
        rw [advance_eq H s ⟨h1, h2⟩ k hk0, Option.bind_some]
        rw [ih _ (nextBytes_wf H k s ⟨h1, h2⟩) _ _ (by split <;> omega)]
        have e : n = k + (n - k) := by omega
        conv_rhs => rw [e, nextBytes_add]
        have hch : List.take k s.chunk = (s.nextBytes H k).1 := by rw [hk]; rfl
        rw [hch, List.append_assoc]

theorem copyToSlice_eq (s : Sampler) (h : s.WF H) (n : Nat) :
    s.copyToSlice H n = some (s.nextBytes H n) := by
  unfold Sampler.copyToSlice
  rw [copyLoop_eq H _ s h n [] (by split <;> omega)]
  simp

/-! ## Refinement of the specification -/

/-- The bytes an observer has taken in. -/
def Observer.absorbed (o : Observer) : Bytes := o.hasher ++ o.buffer.take o.index

theorem putByte_absorbed (o : Observer) (b : UInt8) (h : o.WF H) :
    (o.putByte H b).absorbed = o.absorbed ++ [b] := by
  obtain ⟨h1, h2⟩ := h
  have ht : (o.buffer.set o.index b).take (o.index + 1) = o.buffer.take o.index ++ [b] := by
    have := write_write o.buffer o.index b [] (by omega)
    have h3 : (o.buffer.take o.index).length = o.index := by rw [List.length_take]; omega
    have hset : o.buffer.set o.index b = o.buffer.take o.index ++ ([b] ++ o.buffer.drop (o.index + 1)) :=
      List.set_eq_take_append_cons_drop.trans (by rw [if_pos (by omega)]; rfl)
    rw [hset, ← List.append_assoc]
    exact List.take_left' (by rw [List.length_append, h3]; rfl)
  unfold Observer.putByte
  dsimp only
  split
  · rename_i he
    simp only [Observer.absorbed, Observer.flush, List.take_zero, List.append_nil, ht,
      List.append_assoc]
  · simp only [Observer.absorbed, ht, List.append_assoc]

theorem foldl_putByte_absorbed (bs : Bytes) (o : Observer) (h : o.WF H) :
    (bs.foldl (Observer.putByte H) o).absorbed = o.absorbed ++ bs := by
  induction bs generalizing o with
  | nil => simp
  | cons b bs ih =>
    rw [List.foldl_cons, ih _ (putByte_wf H o b h), putByte_absorbed H o b h]
    simp

/-- A sampler `used` bytes into the stream of `msg`, with `blocks` blocks computed. -/
def Sampler.At (s : Sampler) (msg : Bytes) (blocks used : Nat) : Prop :=
  s.WF H ∧ used ≤ blocks * H.out ∧ s.index + blocks * H.out = used + H.out ∧
    s.hasher = chain H msg blocks ∧ (0 < blocks → s.buffer = chain H msg blocks)

theorem chain_length (h : Bytes) (i : Nat) : (chain H h (i + 1)).length = H.out := H.hash_length _

theorem flatMap_chain_length (h : Bytes) (n : Nat) :
    ((List.range n).flatMap fun i => chain H h (i + 1)).length = n * H.out := by
  induction n with
  | zero => simp
  | succ n ih =>
    rw [List.range_succ, List.flatMap_append, List.length_append, ih]
    simp [chain_length, Nat.add_mul]

theorem flatMap_chain_get (h : Bytes) (n k : Nat) (hk : k < n * H.out) :
    ((List.range n).flatMap fun i => chain H h (i + 1))[k]? =
      (chain H h (k / H.out + 1))[k % H.out]? := by
  have hp := H.out_pos
  induction n with
  | zero => simp at hk
  | succ n ih =>
    rw [List.range_succ, List.flatMap_append]
    have hl := flatMap_chain_length H h n
    by_cases hlt : k < n * H.out
    · rw [List.getElem?_append_left (by rw [hl]; exact hlt), ih hlt]
    · rw [List.getElem?_append_right (by rw [hl]; omega), hl]
      have h1 : k / H.out = n := by
        rw [Nat.div_eq_iff hp]
        rw [Nat.add_mul] at hk
        constructor <;> omega
      have h2 : k % H.out = k - n * H.out := by
        have := Nat.div_add_mod' k H.out
        rw [h1] at this; omega
      rw [h1, h2]
      simp

theorem streamBytes_get (h : Bytes) (a m k : Nat) (hk : k < m) :
    (streamBytes H h a m)[k]? = (chain H h ((a + k) / H.out + 1))[(a + k) % H.out]? := by
  unfold streamBytes
  rw [List.getElem?_take_of_lt hk, List.getElem?_drop]
  apply flatMap_chain_get
  calc a + k < a + m := by omega
    _ ≤ (a + m) * H.out := Nat.le_mul_of_pos_right _ H.out_pos

theorem streamBytes_length (h : Bytes) (a m : Nat) : (streamBytes H h a m).length = m := by
  unfold streamBytes
  rw [List.length_take, List.length_drop, flatMap_chain_length]
  have : a + m ≤ (a + m) * H.out := Nat.le_mul_of_pos_right _ H.out_pos
  omega

theorem streamBytes_succ (h : Bytes) (a m : Nat) (b : UInt8)
    (hb : (chain H h (a / H.out + 1))[a % H.out]? = some b) :
    streamBytes H h a (m + 1) = b :: streamBytes H h (a + 1) m := by
  apply List.ext_getElem?
  intro k
  rcases k with _ | k
  · rw [streamBytes_get H h a (m + 1) 0 (by omega)]
    simpa using hb
  · by_cases hk : k < m
    · rw [streamBytes_get H h a (m + 1) (k + 1) (by omega), List.getElem?_cons_succ,
        streamBytes_get H h (a + 1) m k hk]
      have e : a + (k + 1) = a + 1 + k := by omega
      rw [e]
    · rw [List.getElem?_eq_none (by rw [streamBytes_length]; omega),
        List.getElem?_eq_none (by rw [List.length_cons, streamBytes_length]; omega)]

theorem nextByte_at (s : Sampler) (msg : Bytes) (q n : Nat) (h : s.At H msg q n) :
    (s.nextByte H).2.At H msg (max q (n / H.out + 1)) (n + 1) ∧
      (chain H msg (n / H.out + 1))[n % H.out]? = some (s.nextByte H).1 := by
  have hp := H.out_pos
  obtain ⟨⟨h1, h2⟩, h3, h4, h5, h6⟩ := h
  by_cases hi : s.index = H.out
  · have hr : s.ready H = s.fillBuffer H := by unfold Sampler.ready; rw [if_pos hi]
    have hn : n = q * H.out := by omega
    have hq : n / H.out = q := by rw [hn]; exact Nat.mul_div_cancel _ hp
    have hm : n % H.out = 0 := by rw [hn]; exact Nat.mul_mod_left _ _
    rw [hq, hm]
    have hmax : max q (q + 1) = q + 1 := by omega
    rw [hmax]
    unfold Sampler.nextByte
    dsimp only
    rw [hr]
    have hb : (s.fillBuffer H).buffer = chain H msg (q + 1) := by
      show H.hash s.hasher = _
      rw [h5]; rfl
    have hl : (chain H msg (q + 1)).length = H.out := chain_length H msg q
    refine ⟨⟨⟨?_, ?_⟩, ?_, ?_, ?_, ?_⟩, ?_⟩
    · show 0 + 1 ≤ H.out; omega
    · dsimp only; rw [hb]; exact hl
    · rw [Nat.add_mul]; omega
    · show 0 + 1 + (q + 1) * H.out = n + 1 + H.out
      rw [Nat.add_mul]; omega
    · show [] ++ H.hash s.hasher = _
      rw [h5]; rfl
    · intro _; exact hb
    · show _ = some ((s.fillBuffer H).buffer.getD 0 0)
      rw [hb, List.getD_eq_getElem?_getD, List.getElem?_eq_getElem (by omega)]
      rfl
  · have hr : s.ready H = s := ready_of_lt H s (by omega)
    have hq0 : 0 < q := by
      rcases Nat.eq_zero_or_pos q with h0 | h0
      · subst h0; omega
      · exact h0
    obtain ⟨p, rfl⟩ : ∃ p, q = p + 1 := ⟨q - 1, by omega⟩
    rw [Nat.add_mul] at h3 h4
    have hdiv : n / H.out = p := by
      rw [Nat.div_eq_iff hp]
      constructor <;> omega
    have hmod : n % H.out = s.index := by
      have := Nat.div_add_mod' n H.out
      rw [hdiv] at this; omega
    rw [hdiv, hmod]
    have hmax : max (p + 1) (p + 1) = p + 1 := by omega
    rw [hmax]
    unfold Sampler.nextByte
    dsimp only
    rw [hr]
    have hl : (chain H msg (p + 1)).length = H.out := chain_length H msg p
    refine ⟨⟨⟨?_, h2⟩, ?_, ?_, h5, h6⟩, ?_⟩
    · dsimp only; omega
    · rw [Nat.add_mul]; omega
    · dsimp only; rw [Nat.add_mul]; omega
    · rw [h6 hq0, List.getD_eq_getElem?_getD, List.getElem?_eq_getElem (by omega)]
      rfl

theorem blocksFor_succ (n : Nat) : blocksFor H (n + 1) = n / H.out + 1 := by
  have hp := H.out_pos
  unfold blocksFor
  have e : n + 1 + H.out - 1 = n + H.out := by omega
  rw [e, Nat.add_div_right _ hp]

theorem blocksFor_mono {m n : Nat} (h : m ≤ n) : blocksFor H m ≤ blocksFor H n :=
  Nat.div_le_div_right (by omega)

theorem nextBytes_at (m : Nat) (s : Sampler) (msg : Bytes) (q n : Nat) (h : s.At H msg q n)
    (hq : blocksFor H n ≤ q) :
    (s.nextBytes H m).2.At H msg (max q (blocksFor H (n + m))) (n + m) ∧
      (s.nextBytes H m).1 = streamBytes H msg n m := by
  induction m generalizing s q n with
  | zero =>
    have e : max q (blocksFor H n) = q := by omega
    refine ⟨?_, ?_⟩
    · show s.At H msg (max q (blocksFor H n)) n
      rw [e]; exact h
    · simp [Sampler.nextBytes, streamBytes]
  | succ m ih =>
    obtain ⟨h1, h2⟩ := nextByte_at H s msg q n h
    have hb := blocksFor_succ H n
    obtain ⟨h3, h4⟩ := ih _ _ _ h1 (by omega)
    have e : n + 1 + m = n + (m + 1) := by omega
    have hmono : blocksFor H (n + 1) ≤ blocksFor H (n + (m + 1)) := blocksFor_mono H (by omega)
    rw [e] at h3
    have hmax : max (max q (n / H.out + 1)) (blocksFor H (n + (m + 1))) =
        max q (blocksFor H (n + (m + 1))) := by omega
    rw [hmax] at h3
    refine ⟨h3, ?_⟩
    rw [streamBytes_succ H msg n m _ h2, ← h4]
    rfl

/-- The challenger is in the given state of the specification. -/
def Challenger.Is (c : Challenger) : SpecState → Prop
  | .absorbing h => ∃ o, c = .observer o ∧ o.WF H ∧ o.absorbed = h
  | .squeezing h q n => ∃ s, c = .sampler s ∧ s.At H h q n ∧ blocksFor H n ≤ q

theorem default_is : (Challenger.default H).Is H .init := by
  have := H.out_pos
  refine ⟨_, rfl, ⟨⟨Nat.zero_le _, H.hash_length _⟩, by omega, ?_, rfl, fun _ => rfl⟩, ?_⟩
  · dsimp only; omega
  · unfold blocksFor
    rw [Nat.div_eq_of_lt (by omega)]; omega

theorem observe_is (c : Challenger) (σ : SpecState) (h : c.Is H σ) (bs : Bytes) :
    ∃ c', c.observe H bs = some c' ∧ c'.Is H (σ.observe H bs) := by
  cases σ with
  | absorbing m =>
    obtain ⟨o, rfl, hw, rfl⟩ := h
    refine ⟨.observer (bs.foldl (Observer.putByte H) o), ?_, ?_⟩
    · simp only [Challenger.observe, Challenger.toObserver, putSlice_eq H o hw, Option.map_some]
    · exact ⟨_, rfl, foldl_putByte_wf H bs o hw, foldl_putByte_absorbed H bs o hw⟩
  | squeezing m q n =>
    obtain ⟨s, rfl, ⟨hw, h3, h4, h5, h6⟩, _⟩ := h
    have ho : (s.intoObserver H).WF H := ⟨H.block_pos, by simp [Sampler.intoObserver]⟩
    refine ⟨.observer (bs.foldl (Observer.putByte H) (s.intoObserver H)), ?_, ?_⟩
    · simp only [Challenger.observe, Challenger.toObserver, putSlice_eq H _ ho, Option.map_some]
    · refine ⟨_, rfl, foldl_putByte_wf H bs _ ho, ?_⟩
      rw [foldl_putByte_absorbed H bs _ ho]
      have hidx : n + H.out - q * H.out = s.index := by omega
      simp [Observer.absorbed, Sampler.intoObserver, resume, hidx, h5]

theorem sample_is (c : Challenger) (σ : SpecState) (h : c.Is H σ) (m : Nat) :
    ∃ c', c.sample H m = some ((σ.sample H m).1, c') ∧ c'.Is H (σ.sample H m).2 := by
  have hp := H.out_pos
  have key : ∀ (s : Sampler) (msg : Bytes) (q n : Nat), s.At H msg q n → blocksFor H n ≤ q →
      ∃ c', (s.copyToSlice H m).map (fun r => (r.1, Challenger.sampler r.2)) =
        some (streamBytes H msg n m, c') ∧
        c'.Is H (.squeezing msg (max q (blocksFor H (n + m))) (n + m)) := by
    intro s msg q n hs hq
    obtain ⟨h1, h2⟩ := nextBytes_at H m s msg q n hs hq
    refine ⟨.sampler (s.nextBytes H m).2, ?_, ⟨_, rfl, h1, by omega⟩⟩
    rw [copyToSlice_eq H s hs.1, Option.map_some, h2]
  cases σ with
  | absorbing msg =>
    obtain ⟨o, rfl, hw, rfl⟩ := h
    have hs : (o.intoSampler H).At H o.absorbed 0 0 :=
      ⟨⟨Nat.le_refl _, by simp [Observer.intoSampler]⟩, by omega,
        by simp [Observer.intoSampler], rfl, fun h => absurd h (by omega)⟩
    have hb : blocksFor H 0 ≤ 0 := by
      unfold blocksFor; rw [Nat.div_eq_of_lt (by omega)]
    obtain ⟨c', h1, h2⟩ := key _ _ _ _ hs hb
    simp only [Nat.zero_add, Nat.zero_max] at h2
    exact ⟨c', h1, h2⟩
  | squeezing msg q n =>
    obtain ⟨s, rfl, hs, hq⟩ := h
    exact key s msg q n hs hq

theorem run_is (us : List Use) (c : Challenger) (σ : SpecState) (h : c.Is H σ) :
    ∃ c', c.run H us = some ((σ.run H us).1, c') ∧ c'.Is H (σ.run H us).2 := by
  induction us generalizing c σ with
  | nil => exact ⟨c, rfl, h⟩
  | cons u us ih =>
    cases u with
    | observe bs =>
      obtain ⟨c1, h1, h2⟩ := observe_is H c σ h bs
      obtain ⟨c2, h3, h4⟩ := ih c1 _ h2
      exact ⟨c2, by rw [Challenger.run, h1, Option.bind_some, h3]; rfl, h4⟩
    | sample n =>
      obtain ⟨c1, h1, h2⟩ := sample_is H c σ h n
      obtain ⟨c2, h3, h4⟩ := ih c1 _ h2
      exact ⟨c2, by rw [Challenger.run, h1, Option.bind_some, h3]; rfl, h4⟩

end Verif.Transcript
