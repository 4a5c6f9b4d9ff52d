import Verif.NTT.LemmasFri

/-! C16: FRI folding. -/

set_option linter.unusedSectionVars false

namespace Verif.NTT

open Finset Verif.NTT.Spec Verif.Mle
open Verif.Subspace (BinarySubspace)

variable {F E : Type*} [Field F] [DecidableEq F] [Field E] [Algebra F E]

/-- **C16** (folding a pair).  Folding symbols `2i` and `2i+1` of the codeword of a message gives symbol `i` of the
codeword, over the domain of one dimension less, of the message folded with the challenge: coefficients `2j` and
`2j+1` become `(1-r)·m_{2j} + r·m_{2j+1}`. -/
theorem C16_pair (h2 : (1 : F) + 1 = 0) {β : List F} {tas tbl : List (TA F)}
    (h : withSubspace (⟨β⟩ : BinarySubspace F) = some (.ok tas)) (ht : tbl = tas ∨ tbl = precomputeTwiddles tas)
    (l N i : Nat) (hl : l + 1 ≤ β.length) (hi : i < 2 ^ l) (m : Nat → E) (r : E) :
    foldPair tbl (l + 1) i (codeword (domainBasis β (l + 1)) (2 * N) m (2 * i),
      codeword (domainBasis β (l + 1)) (2 * N) m (2 * i + 1)) r =
      some (codeword (domainBasis β l) N (fun j => (1 - r) * m (2 * j) + r * m (2 * j + 1)) i) :=
  foldPair_eq h2 h ht l N i hl hi m r

/-- **C16** (folding a chunk).  Folding chunk `c` of `2^n` symbols of a codeword with `n` challenges gives symbol
`c` of the codeword, over the domain of `n` dimensions less, of the folded message. -/
theorem C16_chunk (h2 : (1 : F) + 1 = 0) {β : List F} {tas tbl : List (TA F)}
    (h : withSubspace (⟨β⟩ : BinarySubspace F) = some (.ok tas)) (ht : tbl = tas ∨ tbl = precomputeTwiddles tas)
    (L N c : Nat) (challenges : List E) (hn : challenges.length ≤ L) (hL : L ≤ β.length)
    (hc : c < 2 ^ (L - challenges.length)) (m : Nat → E) (v : Slice E) (hs : v.size = 2 ^ challenges.length)
    (hv : ∀ k < 2 ^ challenges.length,
      v.val k = codeword (domainBasis β L) (2 ^ challenges.length * N) m (c * 2 ^ challenges.length + k)) :
    foldChunk tbl L c v challenges =
      some (codeword (domainBasis β (L - challenges.length)) N (foldedMessage challenges m) c) := by
  have hr := (ready_of h2 h ht).2.2.2
  unfold foldChunk
  rw [hr.length, if_neg (by omega)]
  exact foldChunkLoop_eq h2 h ht N c challenges L m v hn hL hc hs.ge hv

theorem exists_message (h2 : (1 : F) + 1 = 0) {β : List F} (hind : Independent β) (c : Nat) : ∀ (n L : Nat),
    n ≤ L → L ≤ β.length → ∀ v : Nat → E, ∃ m : Nat → E,
      ∀ k < 2 ^ n, v k = codeword (domainBasis β L) (2 ^ n) m (c * 2 ^ n + k)
  | 0, L, _, _, v => by
    refine ⟨fun _ => v 0, fun k hk => ?_⟩
    obtain rfl : k = 0 := by simpa using hk
    have : novel (domainBasis β L) 0 (point (domainBasis β L) (c * 2 ^ 0 + 0)) = 1 := by
      unfold novel
      refine prod_eq_one fun i _ => ?_
      simp
    simp only [codeword, pow_zero, sum_range_one]
    rw [pow_zero] at this
    rw [this, one_smul]
  | n + 1, 0, hn, _, v => absurd hn (by omega)
  | n + 1, l + 1, hn, hl, v => by
    obtain ⟨τ, hτ, -⟩ := domain_cons h2 hind hl
    have h2E := char_two_E (E := E) h2
    obtain ⟨mB, hB⟩ := exists_message h2 hind c n l (by omega) (by omega) fun k => v (2 * k) + v (2 * k + 1)
    obtain ⟨mA, hA⟩ := exists_message h2 hind c n l (by omega) (by omega) fun k =>
      v (2 * k) + point τ (c * 2 ^ n + k) • (v (2 * k) + v (2 * k + 1))
    refine ⟨fun j => if j % 2 = 0 then mA (j / 2) else mB (j / 2), fun k hk => ?_⟩
    rw [Nat.pow_succ, Nat.mul_comm (2 ^ n) 2, codeword_split h2 hind hl]
    have e1 : (fun j => if 2 * j % 2 = 0 then mA (2 * j / 2) else mB (2 * j / 2)) = mA := by
      funext j
      rw [if_pos (by omega), show 2 * j / 2 = j by omega]
    have e2 : (fun j => if (2 * j + 1) % 2 = 0 then mA ((2 * j + 1) / 2) else mB ((2 * j + 1) / 2)) = mB := by
      funext j
      rw [if_neg (by omega), show (2 * j + 1) / 2 = j by omega]
    rw [e1, e2, hτ, point_cons, Nat.testBit_zero]
    have hk2 : k / 2 < 2 ^ n := by rw [Nat.pow_succ] at hk; omega
    rw [show (c * (2 * 2 ^ n) + k) / 2 = c * 2 ^ n + k / 2 by
      rw [show c * (2 * 2 ^ n) = 2 * (c * 2 ^ n) by ring]; omega, ← hA _ hk2, ← hB _ hk2,
      show c * (2 * 2 ^ n) + k = 2 * (c * 2 ^ n) + k by ring]
    simp only [Algebra.smul_def, map_add]
    generalize algebraMap F E (point τ (c * 2 ^ n + k / 2)) = t
    rcases Nat.mod_two_eq_zero_or_one k with hk0 | hk0
    · rw [show 2 * (k / 2) = k by omega]
      have : ¬ (2 * (c * 2 ^ n) + k) % 2 = 1 := by omega
      simp only [this, decide_false, Bool.false_eq_true, if_false, map_zero]
      linear_combination (-(t * (v k + v (k + 1)))) * h2E
    · rw [show 2 * (k / 2) + 1 = k by omega]
      have : (2 * (c * 2 ^ n) + k) % 2 = 1 := by omega
      simp only [this, decide_true, if_true, map_one]
      linear_combination (-(v (2 * (k / 2))) - (t * (v (2 * (k / 2)) + v k))) * h2E

/-- **C16** (folding any word).  For every chunk of values, codeword or not: there is a message of `2^n`
coefficients whose polynomial takes these values at the points of the chunk, and the folded value is the multilinear
extension of that message at the challenges. -/
theorem C16_chunk_any (h2 : (1 : F) + 1 = 0) {β : List F} {tas tbl : List (TA F)}
    (h : withSubspace (⟨β⟩ : BinarySubspace F) = some (.ok tas)) (ht : tbl = tas ∨ tbl = precomputeTwiddles tas)
    (L c : Nat) (challenges : List E) (hn : challenges.length ≤ L) (hL : L ≤ β.length)
    (hc : c < 2 ^ (L - challenges.length)) (v : Slice E) (hs : v.size = 2 ^ challenges.length) :
    ∃ m : Nat → E, (∀ k < 2 ^ challenges.length, v.val k =
        ∑ j ∈ range (2 ^ challenges.length),
          novel (domainBasis β L) j (point (domainBasis β L) (c * 2 ^ challenges.length + k)) • m j) ∧
      foldChunk tbl L c v challenges = some (mle m challenges) := by
  obtain ⟨-, -, hind, -⟩ := ready_of h2 h ht
  obtain ⟨m, hm⟩ := exists_message h2 hind c challenges.length L hn hL v.val
  refine ⟨m, hm, ?_⟩
  rw [C16_chunk h2 h ht L 1 c challenges hn hL hc m v hs (by rw [Nat.mul_one]; exact hm)]
  congr 1
  unfold codeword
  rw [sum_range_one]
  have : novel (domainBasis β (L - challenges.length)) 0 (point (domainBasis β (L - challenges.length)) c) = 1 := by
    unfold novel
    refine prod_eq_one fun i _ => ?_
    simp
  rw [this, one_smul]
  unfold foldedMessage
  simp only [Nat.zero_mul, Nat.zero_add]

theorem interleavedChunk_eq (h2 : (1 : F) + 1 = 0) {β : List F} {tas tbl : List (TA F)}
    (h : withSubspace (⟨β⟩ : BinarySubspace F) = some (.ok tas)) (ht : tbl = tas ∨ tbl = precomputeTwiddles tas)
    (w L N c : Nat) (ic fc : List E) (hn : fc.length ≤ L) (hL : L ≤ β.length) (hc : c < 2 ^ (L - fc.length))
    (hb : ic.length = 0 ∨ w ≤ ic.length) (M : Nat → E) (v : Slice (Lanes E))
    (hs : v.size = 2 ^ (fc.length + ic.length - w)) (tensor scratch : Slice E)
    (hts : tensor.size = 2 ^ (ic.length - w) * 2 ^ w) (htv : ∀ x < 2 ^ ic.length, tensor.val x = eqWeight ic x)
    (hss : 2 ^ fc.length ≤ scratch.size)
    (hv : ∀ k < 2 ^ fc.length, ∀ x < 2 ^ ic.length, flat w v (k * 2 ^ ic.length + x) =
      codeword (domainBasis β L) (2 ^ fc.length * N) (fun j => M (j * 2 ^ ic.length + x)) (c * 2 ^ fc.length + k)) :
    foldInterleavedChunk w tbl L ic.length c v tensor fc scratch =
      some (codeword (domainBasis β (L - fc.length)) N (foldedMessage (ic ++ fc) M) c) := by
  have hr := (ready_of h2 h ht).2.2.2
  have key : ∀ v' : Slice E, v'.size = 2 ^ fc.length → (∀ k < 2 ^ fc.length,
      v'.val k = ∑ x ∈ range (2 ^ ic.length), flat w v (k * 2 ^ ic.length + x) * eqWeight ic x) →
      foldChunk tbl L c v' fc =
        some (codeword (domainBasis β (L - fc.length)) N (foldedMessage (ic ++ fc) M) c) := by
    intro v' hs' hv'
    rw [C16_chunk h2 h ht L N c fc hn hL hc (foldedMessage ic M) v' hs' ?_]
    · congr 1
      exact codeword_congr fun j _ => foldedMessage_append ic fc M j
    · intro k hk
      rw [hv' k hk]
      unfold codeword foldedMessage mle
      simp only [smul_sum]
      rw [sum_comm]
      refine sum_congr rfl fun x hx => ?_
      rw [mem_range] at hx
      rw [hv k hk x hx]
      unfold codeword
      rw [sum_mul]
      refine sum_congr rfl fun j _ => ?_
      rw [smul_mul_assoc, mul_comm (eqWeight ic x)]
  unfold foldInterleavedChunk
  rw [hr.length, if_neg (by omega)]
  dsimp only
  by_cases hb0 : ic.length = 0
  · rw [if_pos hb0]
    refine key _ rfl fun k hk => ?_
    dsimp only
    have : 2 ^ fc.length ≤ v.size * 2 ^ w := by
      rw [hs, ← Nat.pow_add]
      exact Nat.pow_le_pow_right (by omega) (by omega)
    rw [if_pos (by omega), hb0, Nat.pow_zero, sum_range_one, Nat.mul_one, Nat.add_zero]
    obtain rfl : ic = [] := List.length_eq_zero_iff.1 hb0
    rw [eqWeight_nil, mul_one]
    rfl
  · have hwb : w ≤ ic.length := hb.resolve_left hb0
    rw [if_neg hb0, if_neg (by omega)]
    refine key _ rfl fun k hk => ?_
    dsimp only
    have hdiv : v.size / 2 ^ (ic.length - w) = 2 ^ fc.length := by
      rw [hs, show fc.length + ic.length - w = fc.length + (ic.length - w) by omega, Nat.pow_add,
        Nat.mul_div_cancel _ (Nat.two_pow_pos _)]
    have hpow : 2 ^ ic.length = 2 ^ w * 2 ^ (ic.length - w) := by rw [← Nat.pow_add]; congr 1; omega
    rw [hdiv, if_pos hk, Nat.min_eq_left (Nat.pow_le_pow_right (by omega) hwb), sum_comm, hpow, sum_range_mul]
    refine sum_congr rfl fun q hq => sum_congr rfl fun l hl => ?_
    rw [mem_range] at hq hl
    have hlt : l + 2 ^ w * q < 2 ^ ic.length := by
      have := Nat.mul_le_mul_left (2 ^ w) hq
      rw [Nat.mul_succ, ← hpow] at this
      omega
    rw [Nat.add_comm (q * 2 ^ w), Nat.mul_comm q, htv _ hlt]
    congr 1
    unfold flat
    rw [show k * (2 ^ w * 2 ^ (ic.length - w)) + (l + 2 ^ w * q) = l + (k * 2 ^ (ic.length - w) + q) * 2 ^ w by ring,
      Nat.add_mul_div_right _ _ (Nat.two_pow_pos _), Nat.div_eq_of_lt hl, Nat.zero_add, Nat.add_mul_mod_self_right,
      Nat.mod_eq_of_lt hl]

theorem ceil_mul (a : Nat) {c : Nat} (hc : 0 < c) : (a * c + c - 1) / c = a := by
  rw [show a * c + c - 1 = (c - 1) + a * c by omega, Nat.add_mul_div_right _ _ hc, Nat.div_eq_of_lt (by omega),
    Nat.zero_add]

/-- **C16** (folding an interleaved codeword).  Folding a batch of interleaved codewords (as the encoder lays them
out: symbol `y` of codeword `x` at `y·2^b + x`) with `b + n` challenges gives the codeword, over the domain of `n`
dimensions less, of the interleaved message folded with all challenges; whatever the scratch buffers of the threads
hold.  The packing may not be wider than the batch (unless the batch is one codeword) nor than a chunk (unless the
chunk is the whole codeword). -/
theorem C16_interleaved_partial (h2 : (1 : F) + 1 = 0) {β : List F} {tas tbl : List (TA F)}
    (h : withSubspace (⟨β⟩ : BinarySubspace F) = some (.ok tas)) (ht : tbl = tas ∨ tbl = precomputeTwiddles tas)
    (w L N b : Nat) (challenges : List E) (hbl : b ≤ challenges.length) (hn : challenges.length - b ≤ L)
    (hL : L ≤ β.length) (hb : b = 0 ∨ w ≤ b) (hw : w ≤ challenges.length ∨ challenges.length = L + b)
    (M : Nat → E) (d : Slice (Lanes E)) (hs : d.size = 2 ^ (L + b - w)) (scratch : Nat → Nat → E)
    (hd : ∀ y < 2 ^ L, ∀ x < 2 ^ b, flat w d (y * 2 ^ b + x) =
      codeword (domainBasis β L) (2 ^ (challenges.length - b) * N) (fun j => M (j * 2 ^ b + x)) y) :
    ∃ out, foldInterleaved w tbl d challenges L b scratch = some out ∧
      out.size = 2 ^ (L - (challenges.length - b)) ∧
      ∀ i < 2 ^ (L - (challenges.length - b)), out.val i =
        codeword (domainBasis β (L - (challenges.length - b))) N (foldedMessage challenges M) i := by
  obtain ⟨ic, fc, rfl, hic⟩ : ∃ ic fc, challenges = ic ++ fc ∧ ic.length = b :=
    ⟨challenges.take b, challenges.drop b, (List.take_append_drop b _).symm, by rw [List.length_take]; omega⟩
  subst hic
  have hlen : (ic ++ fc).length - ic.length = fc.length := by rw [List.length_append]; omega
  have hlen' : (ic ++ fc).length = ic.length + fc.length := List.length_append
  rw [hlen] at hn hd ⊢
  obtain ⟨q, e, hq, -, he, hes, hev⟩ := Tensor.C17_expand w ic
  unfold foldInterleaved foldInterleavedAllocated
  rw [hlen]
  rw [if_neg (by dsimp only; omega)]
  dsimp only
  rw [List.take_left, List.drop_left, hq, Option.bind_some, he, Option.bind_some]
  -- the chunks
  have hchunks : min ((d.size + 2 ^ ((ic ++ fc).length - w) - 1) / 2 ^ ((ic ++ fc).length - w)) (2 ^ (L - fc.length)) =
      2 ^ (L - fc.length) ∧ ∀ i < 2 ^ (L - fc.length),
      min (2 ^ ((ic ++ fc).length - w)) (d.size - i * 2 ^ ((ic ++ fc).length - w)) =
        2 ^ (fc.length + ic.length - w) ∧
      ∀ p < 2 ^ (ic.length + fc.length), d.val (i * 2 ^ ((ic ++ fc).length - w) + p / 2 ^ w) (p % 2 ^ w) =
        flat w d (i * 2 ^ (ic.length + fc.length) + p) := by
    rw [hlen', hs]
    have hcp := Nat.two_pow_pos (ic.length + fc.length - w)
    rcases hw with hw | hw
    · rw [hlen'] at hw
      have e1 : 2 ^ (L + ic.length - w) = 2 ^ (L - fc.length) * 2 ^ (ic.length + fc.length - w) := by
        rw [← Nat.pow_add]; congr 1; omega
      refine ⟨?_, fun i hi => ⟨?_, fun p _ => ?_⟩⟩
      · rw [e1, ceil_mul _ hcp, Nat.min_self]
      · rw [e1, ← Nat.sub_mul, Nat.add_comm fc.length]
        refine Nat.min_eq_left ?_
        exact Nat.le_mul_of_pos_left _ (by omega)
      · unfold flat
        rw [show 2 ^ (ic.length + fc.length) = 2 ^ (ic.length + fc.length - w) * 2 ^ w by
          rw [← Nat.pow_add]; congr 1; omega, ← Nat.mul_assoc, Nat.add_comm (_ * _) p,
          Nat.add_mul_div_right _ _ (Nat.two_pow_pos _), Nat.add_mul_mod_self_right, Nat.add_comm]
    · rw [hlen'] at hw
      have hL' : L - fc.length = 0 := by omega
      rw [hL', show L + ic.length - w = ic.length + fc.length - w by omega, Nat.pow_zero]
      refine ⟨?_, fun i hi => ?_⟩
      · have := ceil_mul 1 hcp
        rw [Nat.one_mul] at this
        rw [this, Nat.min_self]
      · obtain rfl : i = 0 := by omega
        refine ⟨?_, fun p _ => ?_⟩
        · rw [Nat.zero_mul, Nat.sub_zero, Nat.min_self, Nat.add_comm]
        · unfold flat; rw [Nat.zero_mul, Nat.zero_mul, Nat.zero_add, Nat.zero_add]
  obtain ⟨hmin, hch⟩ := hchunks
  rw [hmin]
  have main := forRange_inv (n := 2 ^ (L - fc.length)) (s := (⟨2 ^ (L - fc.length), fun _ => 0⟩ : Slice E))
    (body := fun i (out : Slice E) =>
      (foldInterleavedChunk w tbl L ic.length i
        ⟨min (2 ^ ((ic ++ fc).length - w)) (d.size - i * 2 ^ ((ic ++ fc).length - w)),
          fun k => d.val (i * 2 ^ ((ic ++ fc).length - w) + k)⟩ e fc
        ⟨2 ^ fc.length, scratch i⟩).bind fun x => out.set? i x)
    (fun i out => out.size = 2 ^ (L - fc.length) ∧ ∀ k < i, out.val k =
      codeword (domainBasis β (L - fc.length)) N (foldedMessage (ic ++ fc) M) k)
    ⟨rfl, fun k hk => absurd hk (by omega)⟩ (by
      rintro i hi out ⟨hos, hov⟩
      obtain ⟨hsz, hval⟩ := hch i hi
      rw [interleavedChunk_eq h2 h ht w L N i ic fc hn hL hi hb M _ hsz e _ hes hev le_rfl ?_, Option.bind_some,
        Slice.set?_of_lt (by omega)]
      · refine ⟨_, rfl, hos, fun k hk => ?_⟩
        dsimp only
        split
        · next h => rw [h]
        · exact hov k (by omega)
      · intro k hk x hx
        have hlt : k * 2 ^ ic.length + x < 2 ^ (ic.length + fc.length) := by
          have := Nat.mul_le_mul_right (2 ^ ic.length) hk
          rw [Nat.succ_mul, ← Nat.pow_add, Nat.add_comm fc.length] at this
          omega
        have hy : i * 2 ^ fc.length + k < 2 ^ L := by
          have := Nat.mul_le_mul_right (2 ^ fc.length) hi
          rw [Nat.succ_mul, ← Nat.pow_add, show L - fc.length + fc.length = L by omega] at this
          omega
        refine (hval _ hlt).trans ?_
        rw [← hd _ hy x hx]
        congr 1
        rw [Nat.pow_add]; ring)
  obtain ⟨out, ho, hos, hov⟩ := main
  exact ⟨out, ho, hos, hov⟩

/-- **C16** (finding).  A batch of at least two codewords that is narrower than the packing passes every assertion
and then panics (the shift amount `log_batch_size - P::LOG_WIDTH` underflows). -/
theorem C16_narrow_batch_panics (w L b : Nat) (tbl : List (TA F)) (challenges : List E) (hb0 : 0 < b) (hbw : b < w)
    (d : Slice (Lanes E)) (scratch : Nat → Nat → E) :
    foldInterleaved w tbl d challenges L b scratch = none := by
  unfold foldInterleaved foldInterleavedAllocated
  split
  · rfl
  · next hif =>
    have hlen : (challenges.take b).length = b := by rw [List.length_take]; omega
    obtain ⟨q, e, hq, -, he, -, -⟩ := Tensor.C17_expand w (challenges.take b)
    dsimp only
    rw [hq, Option.bind_some, he, Option.bind_some]
    have hd : 0 < d.size := by
      have := Nat.two_pow_pos (L + b - w)
      omega
    refine forRange_none (i := 0) ?_ fun t => ?_
    · have h1 := Nat.two_pow_pos (challenges.length - w)
      exact lt_min (Nat.div_pos (by omega) h1) (Nat.two_pow_pos _)
    · unfold foldInterleavedChunk
      split
      · rfl
      · dsimp only
        rw [if_neg (show ¬ b = 0 by omega)]
        rfl

/-- **C16** (finding).  With fewer challenges than the logarithm of the packing width (and the codeword longer than
a chunk), no assertion fires for a single codeword, but only as many outputs as there are packed elements are
written: all others stay zero, whatever the codeword. -/
theorem C16_narrow_chunk_unwritten (h2 : (1 : F) + 1 = 0) {β : List F} {tas tbl : List (TA F)}
    (h : withSubspace (⟨β⟩ : BinarySubspace F) = some (.ok tas)) (ht : tbl = tas ∨ tbl = precomputeTwiddles tas)
    (w L : Nat) (challenges : List E) (hcw : challenges.length < w) (hcl : challenges.length < L) (hL : L ≤ β.length)
    (d : Slice (Lanes E)) (hs : d.size = 2 ^ (L - w)) (scratch : Nat → Nat → E) :
    ∃ out, foldInterleaved w tbl d challenges L 0 scratch = some out ∧ out.size = 2 ^ (L - challenges.length) ∧
      2 ^ (L - w) < out.size ∧ ∀ i, 2 ^ (L - w) ≤ i → out.val i = 0 := by
  have hr := (ready_of h2 h ht).2.2.2
  unfold foldInterleaved foldInterleavedAllocated
  rw [Nat.sub_zero, Nat.add_zero, if_neg (by dsimp only; omega)]
  dsimp only
  obtain ⟨q, e, hq, -, he, hes, -⟩ := Tensor.C17_expand w (challenges.take 0)
  rw [hq, Option.bind_some, he, Option.bind_some, show challenges.length - w = 0 by omega, Nat.pow_zero, hs,
    Nat.add_sub_cancel, Nat.div_one]
  have hlt : 2 ^ (L - w) < 2 ^ (L - challenges.length) := Nat.pow_lt_pow_right (by omega) (by omega)
  rw [Nat.min_eq_left hlt.le, List.drop_zero]
  have main := forRange_inv (n := 2 ^ (L - w)) (s := (⟨2 ^ (L - challenges.length), fun _ => 0⟩ : Slice E))
    (body := fun i (out : Slice E) =>
      (foldInterleavedChunk w tbl L 0 i ⟨min 1 (2 ^ (L - w) - i * 1), fun k => d.val (i * 1 + k)⟩ e challenges
        ⟨2 ^ challenges.length, scratch i⟩).bind fun x => out.set? i x)
    (fun i out => out.size = 2 ^ (L - challenges.length) ∧ ∀ k, 2 ^ (L - w) ≤ k → out.val k = 0)
    ⟨rfl, fun k hk => rfl⟩ (by
      rintro i hi out ⟨hos, hov⟩
      obtain ⟨x, hx⟩ : ∃ x, foldInterleavedChunk w tbl L 0 i
          ⟨min 1 (2 ^ (L - w) - i * 1), fun k => d.val (i * 1 + k)⟩ e challenges
          ⟨2 ^ challenges.length, scratch i⟩ = some x := by
        unfold foldInterleavedChunk
        rw [hr.length, if_neg ?_, if_pos rfl]
        · have hsome : ∀ v : Slice E, v.size = 2 ^ challenges.length → ∃ x, foldChunk tbl L i v challenges = some x := by
            intro v hv
            obtain ⟨m, -, hm⟩ := C16_chunk_any h2 h ht L i challenges hcl.le hL (lt_trans hi hlt) v hv
            exact ⟨_, hm⟩
          exact hsome _ rfl
        · rw [Nat.add_zero, show challenges.length - w = 0 by omega, hes]
          dsimp only
          rw [List.take_zero, List.length_nil, Nat.pow_zero]
          omega
      rw [hx, Option.bind_some, Slice.set?_of_lt (by omega)]
      refine ⟨_, rfl, hos, fun k hk => ?_⟩
      dsimp only
      rw [if_neg (by omega)]
      exact hov k hk)
  obtain ⟨out, ho, hos, hov⟩ := main
  exact ⟨out, ho, hos, by omega, hov⟩

/-! ### The hypotheses are met -/

/-- Two interleaved codewords of length four in packed elements of two lanes, folded with two challenges, over the
domain of the NTT of `exampleBasis`; the codeword is that of an arbitrary message. -/
example (M : Nat → Field.T 1) : (∃ tas, withSubspace (⟨exampleBasis⟩ : BinarySubspace (Field.T 1)) = some (.ok tas)) ∧
    2 - 1 ≤ 2 ∧ 2 ≤ exampleBasis.length ∧ 1 ≤ 1 ∧ ∃ d : Slice (Lanes (Field.T 1)), d.size = 2 ^ (2 + 1 - 1) ∧
      ∀ y < 2 ^ 2, ∀ x < 2 ^ 1, flat 1 d (y * 2 ^ 1 + x) =
        codeword (domainBasis exampleBasis 2) (2 ^ (2 - 1) * 1) (fun j => M (j * 2 ^ 1 + x)) y := by
  refine ⟨exampleBasis_ok, by decide, by decide, le_rfl,
    ⟨4, fun y x => codeword (domainBasis exampleBasis 2) (2 ^ (2 - 1) * 1) (fun j => M (j * 2 ^ 1 + x)) y⟩, rfl, ?_⟩
  intro y _ x hx
  unfold flat
  dsimp only
  rw [show (y * 2 ^ 1 + x) / 2 ^ 1 = y by omega, show (y * 2 ^ 1 + x) % 2 ^ 1 = x by omega]

end Verif.NTT
