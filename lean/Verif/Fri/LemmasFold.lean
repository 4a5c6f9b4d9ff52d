import Verif.Fri.SpecFri
import Verif.NTT.PropsFri
import Verif.Code.PropsReedSolomon
import Verif.Merkle.PropsMerkle

/-! Lemmas about folding arbitrary words. -/

set_option linter.unusedSectionVars false

namespace Verif.Fri

open Finset Verif.NTT.Spec Verif.Mle Verif.Fri.Spec
open Verif.NTT (TA Lanes flat foldPair foldChunkLoop foldChunk foldInterleavedChunk precomputeTwiddles char_two_E
  domain_cons ready_of shl_or C13_get_subspace_eval point_cons)
open Verif.Subspace (BinarySubspace)

variable {F E : Type*} [Field F] [DecidableEq F] [Field E] [Algebra F E]

theorem foldPair_word (h2 : (1 : F) + 1 = 0) {β : List F} {tas tbl : List (TA F)}
    (h : NTT.withSubspace (⟨β⟩ : BinarySubspace F) = some (.ok tas)) (ht : tbl = tas ∨ tbl = precomputeTwiddles tas)
    (l i : Nat) (hl : l + 1 ≤ β.length) (hi : i < 2 ^ l) (u : Nat → E) (r : E) :
    foldPair tbl (l + 1) i (u (2 * i), u (2 * i + 1)) r = some (foldOnce (domainBasis β (l + 1)) r u i) := by
  obtain ⟨-, -, hind, -⟩ := ready_of h2 h ht
  have h2E := char_two_E (E := E) h2
  unfold foldPair
  rw [C13_get_subspace_eval h2 h ht (l + 1) i (by omega) hl hi, Option.bind_some]
  obtain ⟨τ, hτ, hτ'⟩ := domain_cons h2 hind hl
  have p0 : point (domainBasis β (l + 1)) (2 * i) = point τ i := by
    rw [hτ, point_cons, Nat.testBit_zero, show 2 * i / 2 = i by omega]
    simp
  unfold foldOnce
  rw [hτ', p0]
  simp only [Algebra.smul_def, NTT.line]
  generalize algebraMap F E (point τ i) = t
  generalize u (2 * i) = x
  generalize u (2 * i + 1) = y
  congr 1
  linear_combination (t * y - t * y * r + x * r) * h2E

theorem foldMany_congr (β : List F) (rs : List E) : ∀ (L : Nat) (u u' : Nat → E) (c : Nat),
    (∀ k < 2 ^ rs.length, u (c * 2 ^ rs.length + k) = u' (c * 2 ^ rs.length + k)) →
    foldMany β L rs u c = foldMany β L rs u' c := by
  induction rs with
  | nil => intro L u u' c h; simpa [foldMany] using h 0 (by simp)
  | cons r rs ih =>
    intro L u u' c h
    unfold foldMany
    refine ih _ _ _ _ fun k hk => ?_
    rw [List.length_cons, Nat.pow_succ] at h
    have e0 := h (2 * k) (by omega)
    have e1 := h (2 * k + 1) (by omega)
    rw [show c * (2 ^ rs.length * 2) + 2 * k = 2 * (c * 2 ^ rs.length + k) by ring] at e0
    rw [show c * (2 ^ rs.length * 2) + (2 * k + 1) = 2 * (c * 2 ^ rs.length + k) + 1 by ring] at e1
    unfold foldOnce
    rw [e0, e1]

theorem foldChunkLoop_word (h2 : (1 : F) + 1 = 0) {β : List F} {tas tbl : List (TA F)}
    (h : NTT.withSubspace (⟨β⟩ : BinarySubspace F) = some (.ok tas)) (ht : tbl = tas ∨ tbl = precomputeTwiddles tas)
    (c : Nat) (rs : List E) : ∀ (L : Nat) (u : Nat → E) (v : Slice E), rs.length ≤ L → L ≤ β.length →
    c < 2 ^ (L - rs.length) → 2 ^ rs.length ≤ v.size →
    (∀ k < 2 ^ rs.length, v.val k = u (c * 2 ^ rs.length + k)) →
    foldChunkLoop tbl c L v rs = some (foldMany β L rs u c) := by
  induction rs with
  | nil =>
    intro L u v _ _ _ hsz hv
    unfold foldChunkLoop
    rw [Slice.get?_of_lt (Nat.lt_of_lt_of_le (by simp) hsz), hv 0 (by simp)]
    simp [foldMany]
  | cons r rs ih =>
    intro L m v hL hLb hc hsz hv
    rw [List.length_cons] at hL hc hsz hv
    obtain ⟨l, rfl⟩ : ∃ l, L = l + 1 := ⟨L - 1, by omega⟩
    rw [show l + 1 - (rs.length + 1) = l - rs.length by omega] at hc
    have hp := Nat.two_pow_pos rs.length
    have hps := Nat.pow_succ 2 rs.length
    unfold foldChunkLoop
    have hcl : ∀ i < 2 ^ rs.length, c * 2 ^ rs.length + i < 2 ^ l := by
      intro i hi
      have := Nat.mul_le_mul_right (2 ^ rs.length) hc
      rw [Nat.succ_mul, ← Nat.pow_add, show l - rs.length + rs.length = l by omega] at this
      omega
    have main := forRange_inv (n := 2 ^ rs.length) (s := v) (body := fun indexOffset (values : Slice E) =>
      (values.get? (indexOffset * 2)).bind fun a =>
      (values.get? (indexOffset * 2 + 1)).bind fun b =>
      (foldPair tbl (l + 1) ((c <<< rs.length) ||| indexOffset) (a, b) r).bind fun x =>
        values.set? indexOffset x)
      (fun i u => u.size = v.size ∧ (∀ k < i, u.val k = foldOnce (domainBasis β (l + 1)) r m
        (c * 2 ^ rs.length + k)) ∧ ∀ k, i ≤ k → u.val k = v.val k)
      ⟨rfl, fun k hk => absurd hk (by omega), fun _ _ => rfl⟩ (by
        rintro i hi u ⟨hus, hu1, hu2⟩
        rw [Slice.get?_of_lt (by omega), Option.bind_some, Slice.get?_of_lt (by omega), Option.bind_some,
          hu2 _ (by omega), hu2 _ (by omega), hv _ (by omega), hv _ (by omega), shl_or hi]
        have e := foldPair_word h2 h ht l (c * 2 ^ rs.length + i) hLb (hcl i hi) m r
        rw [show 2 * (c * 2 ^ rs.length + i) = c * 2 ^ (rs.length + 1) + i * 2 by rw [hps]; ring] at e
        rw [← Nat.add_assoc, e, Option.bind_some, Slice.set?_of_lt (by omega)]
        refine ⟨_, rfl, hus, fun k hk => ?_, fun k hk => ?_⟩
        · dsimp only
          split
          · next h => rw [h]
          · exact hu1 k (by omega)
        · dsimp only
          rw [if_neg (by omega)]
          exact hu2 k (by omega))
    obtain ⟨u, hu, hus, hu1, -⟩ := main
    rw [hu, Option.bind_some, if_neg (by omega), Nat.add_sub_cancel,
      ih l _ u (by omega) (by omega) hc (by omega) hu1]
    rfl

theorem foldChunk_word (h2 : (1 : F) + 1 = 0) {β : List F} {tas tbl : List (TA F)}
    (h : NTT.withSubspace (⟨β⟩ : BinarySubspace F) = some (.ok tas)) (ht : tbl = tas ∨ tbl = precomputeTwiddles tas)
    (L c : Nat) (rs : List E) (hn : rs.length ≤ L) (hL : L ≤ β.length) (hc : c < 2 ^ (L - rs.length)) (u : Nat → E)
    (v : Slice E) (hs : v.size = 2 ^ rs.length)
    (hv : ∀ k < 2 ^ rs.length, v.val k = u (c * 2 ^ rs.length + k)) :
    foldChunk tbl L c v rs = some (foldMany β L rs u c) := by
  have hr := (ready_of h2 h ht).2.2.2
  unfold foldChunk
  rw [hr.length, if_neg (by omega)]
  exact foldChunkLoop_word h2 h ht c rs L u v hn hL hc hs.ge hv

theorem interleavedChunk_word (h2 : (1 : F) + 1 = 0) {β : List F} {tas tbl : List (TA F)}
    (h : NTT.withSubspace (⟨β⟩ : BinarySubspace F) = some (.ok tas)) (ht : tbl = tas ∨ tbl = precomputeTwiddles tas)
    (w L c : Nat) (ic fc : List E) (hn : fc.length ≤ L) (hL : L ≤ β.length) (hc : c < 2 ^ (L - fc.length))
    (hb : ic.length = 0 ∨ w ≤ ic.length) (u : Nat → E) (v : Slice (Lanes E))
    (hs : v.size = 2 ^ (fc.length + ic.length - w)) (tensor : Slice E) (scratch : Slice E)
    (hts : tensor.size = 2 ^ (ic.length - w) * 2 ^ w) (htv : ∀ b < 2 ^ ic.length, tensor.val b = eqWeight ic b)
    (hsc : 2 ^ fc.length ≤ scratch.size)
    (hv : ∀ p < 2 ^ (ic.length + fc.length), flat w v p = u (c * 2 ^ (ic.length + fc.length) + p)) :
    foldInterleavedChunk w tbl L ic.length c v tensor fc scratch = some (foldMany β L fc (combine ic u) c) := by
  have hr := (ready_of h2 h ht).2.2.2
  have hv : ∀ k < 2 ^ fc.length, ∀ x < 2 ^ ic.length, flat w v (k * 2 ^ ic.length + x) =
      u ((c * 2 ^ fc.length + k) * 2 ^ ic.length + x) := by
    intro k hk x hx
    have hlt : k * 2 ^ ic.length + x < 2 ^ (ic.length + fc.length) := by
      have := Nat.mul_le_mul_right (2 ^ ic.length) hk
      rw [Nat.succ_mul, ← Nat.pow_add, Nat.add_comm fc.length] at this
      omega
    rw [hv _ hlt]
    congr 1
    rw [Nat.pow_add]; ring
  have key : ∀ v' : Slice E, v'.size = 2 ^ fc.length → (∀ k < 2 ^ fc.length,
      v'.val k = ∑ x ∈ range (2 ^ ic.length), flat w v (k * 2 ^ ic.length + x) * eqWeight ic x) →
      foldChunk tbl L c v' fc = some (foldMany β L fc (combine ic u) c) := by
    intro v' hs' hv'
    refine foldChunk_word h2 h ht L c fc hn hL hc _ v' hs' fun k hk => ?_
    rw [hv' k hk]
    unfold combine mle
    refine sum_congr rfl fun x hx => ?_
    rw [mem_range] at hx
    rw [hv k hk x hx, mul_comm]
  unfold foldInterleavedChunk
  rw [hr.length, if_neg (by omega)]
  dsimp only
  by_cases hb0 : ic.length = 0
  · rw [if_pos hb0]
    refine key _ rfl fun k hk => ?_
    dsimp only
    have : 2 ^ fc.length ≤ v.size * 2 ^ w := by
      rw [hs, ← Nat.pow_add]
      exact Nat.pow_le_pow_right (by omega) (by omega)
    rw [if_pos (by omega), hb0, Nat.pow_zero, sum_range_one, Nat.mul_one, Nat.add_zero]
    obtain rfl : ic = [] := List.length_eq_zero_iff.1 hb0
    rw [eqWeight_nil, mul_one]
    rfl
  · have hwb : w ≤ ic.length := hb.resolve_left hb0
    rw [if_neg hb0, if_neg (by omega)]
    refine key _ rfl fun k hk => ?_
    dsimp only
    have hdiv : v.size / 2 ^ (ic.length - w) = 2 ^ fc.length := by
      rw [hs, show fc.length + ic.length - w = fc.length + (ic.length - w) by omega, Nat.pow_add,
        Nat.mul_div_cancel _ (Nat.two_pow_pos _)]
    have hpow : 2 ^ ic.length = 2 ^ w * 2 ^ (ic.length - w) := by rw [← Nat.pow_add]; congr 1; omega
    rw [hdiv, if_pos hk, Nat.min_eq_left (Nat.pow_le_pow_right (by omega) hwb), sum_comm, hpow, sum_range_mul]
    refine sum_congr rfl fun q hq => sum_congr rfl fun l hl => ?_
    rw [mem_range] at hq hl
    have hlt : l + 2 ^ w * q < 2 ^ ic.length := by
      have := Nat.mul_le_mul_left (2 ^ w) hq
      rw [Nat.mul_succ, ← hpow] at this
      omega
    rw [Nat.add_comm (q * 2 ^ w), Nat.mul_comm q, htv _ hlt]
    congr 1
    unfold flat
    rw [show k * (2 ^ w * 2 ^ (ic.length - w)) + (l + 2 ^ w * q) = l + (k * 2 ^ (ic.length - w) + q) * 2 ^ w by ring,
      Nat.add_mul_div_right _ _ (Nat.two_pow_pos _), Nat.div_eq_of_lt hl, Nat.zero_add, Nat.add_mul_mod_self_right,
      Nat.mod_eq_of_lt hl]

/-! ### The compute layers -/

theorem word_of_lt {l : List E} {i : Nat} (h : i < l.length) : word l i = l[i] := by
  unfold word
  rw [List.getElem?_eq_getElem h, Option.getD_some]

theorem chunk_length {l : List E} {B i : Nat} (h : (i + 1) * B ≤ l.length) : (Merkle.chunk l B i).length = B := by
  unfold Merkle.chunk
  rw [List.length_take, List.length_drop]
  rw [Nat.succ_mul] at h
  omega

theorem chunk_get {l : List E} {B i k : Nat} (hk : k < B) : (Merkle.chunk l B i)[k]? = l[i * B + k]? := by
  unfold Merkle.chunk
  rw [List.getElem?_take, if_pos hk, List.getElem?_drop]

theorem chunk_word {l : List E} {B i k : Nat} (hk : k < B) : word (Merkle.chunk l B i) k = word l (i * B + k) := by
  unfold word
  rw [chunk_get hk]

theorem interleaveLoop_eq : ∀ (ic : List E) (n : Nat) (v : Slice E) (len : Nat), len = 2 ^ ic.length * n →
    len ≤ v.size → ∃ v', interleaveLoop ic len v = some v' ∧ v'.size = v.size ∧
      ∀ y < n, v'.val y = combine ic v.val y
  | [], n, v, len, hlen, hle => by
    refine ⟨v, rfl, rfl, fun y _ => ?_⟩
    simp [combine]
  | r :: rs, n, v, len, hlen, hle => by
    have hlen' : len / 2 = 2 ^ rs.length * n := by
      rw [hlen, List.length_cons, Nat.pow_succ, show 2 ^ rs.length * 2 * n = 2 ^ rs.length * n * 2 by ring,
        Nat.mul_div_cancel _ (by omega)]
    have hlen2 : len = 2 * (len / 2) := by
      rw [hlen', hlen, List.length_cons, Nat.pow_succ]; ring
    unfold interleaveLoop
    obtain ⟨v1, e1, hs1, hv1, -⟩ := forRange_inv (n := len / 2) (s := v) (body := fun i (values : Slice E) =>
        (values.get? (i * 2)).bind fun a => (values.get? (i * 2 + 1)).bind fun b =>
          values.set? i (NTT.line a b r))
      (fun i u => u.size = v.size ∧ (∀ k < i, u.val k = (1 - r) * v.val (2 * k) + r * v.val (2 * k + 1)) ∧
        ∀ k, i ≤ k → u.val k = v.val k)
      ⟨rfl, fun k hk => absurd hk (by omega), fun _ _ => rfl⟩ (by
        rintro i hi u ⟨hus, hu1, hu2⟩
        rw [Slice.get?_of_lt (by omega), Option.bind_some, Slice.get?_of_lt (by omega), Option.bind_some,
          hu2 _ (by omega), hu2 _ (by omega), Slice.set?_of_lt (by omega)]
        refine ⟨_, rfl, hus, fun k hk => ?_, fun k hk => ?_⟩
        · dsimp only
          split
          · next h =>
            subst h
            unfold NTT.line
            rw [Nat.mul_comm k 2]; ring
          · exact hu1 k (by omega)
        · dsimp only
          rw [if_neg (by omega)]
          exact hu2 k (by omega))
    rw [e1, Option.bind_some]
    obtain ⟨v', e', hs', hv'⟩ := interleaveLoop_eq rs n v1 (len / 2) hlen' (by omega)
    refine ⟨v', e', hs'.trans hs1, fun y hy => ?_⟩
    rw [hv' y hy]
    unfold combine
    rw [mle_cons]
    unfold mle
    refine sum_congr rfl fun x hx => ?_
    rw [mem_range] at hx
    have hlt : y * 2 ^ rs.length + x < len / 2 := by
      rw [hlen']
      have := Nat.mul_le_mul_left (2 ^ rs.length) hy
      rw [Nat.mul_succ] at this
      rw [Nat.mul_comm y]
      omega
    beta_reduce
    rw [hv1 _ hlt, List.length_cons, Nat.pow_succ, show y * (2 ^ rs.length * 2) + 2 * x =
      2 * (y * 2 ^ rs.length + x) by ring, show y * (2 ^ rs.length * 2) + (2 * x + 1) =
      2 * (y * 2 ^ rs.length + x) + 1 by ring]

/-- A compute layer folds words of length `2^(L+b)` with `n` challenges. -/
def Folds (β : List F) (fold : FriFold E) (L b n : Nat) : Prop :=
  ∀ challenges data : List E, challenges.length = n → data.length = 2 ^ (L + b) →
    fold L b challenges data (2 ^ (L - (n - b))) =
      some (.ok ((List.range (2 ^ (L - (n - b)))).map (foldWord β L b challenges (word data))))

theorem cpu_folds (h2 : (1 : F) + 1 = 0) {β : List F} {tas tbl : List (TA F)}
    (h : NTT.withSubspace (⟨β⟩ : BinarySubspace F) = some (.ok tas)) (ht : tbl = tas ∨ tbl = precomputeTwiddles tas)
    (L b n : Nat) (hL : L ≤ β.length) (hb : b ≤ n) (hn : n - b ≤ L) : Folds (E := E) β (cpuFriFold tbl) L b n := by
  rintro challenges data rfl hd
  have hlt : (challenges.take b).length = b := by rw [List.length_take]; omega
  have hld : (challenges.drop b).length = challenges.length - b := List.length_drop
  unfold cpuFriFold
  rw [if_neg (by omega), if_neg (by omega), if_neg (by omega), if_neg (by omega)]
  have hdiv : data.length / 2 ^ challenges.length = 2 ^ (L - (challenges.length - b)) := by
    rw [hd, show L + b = (L - (challenges.length - b)) + challenges.length by omega, Nat.pow_add,
      Nat.mul_div_cancel _ (Nat.two_pow_pos _)]
  rw [hdiv, Nat.min_self, Merkle.mapM_some (g := foldWord β L b challenges (word data))]
  · rfl
  intro c hc
  rw [List.mem_range] at hc
  have hcl : (c + 1) * 2 ^ challenges.length ≤ data.length := by
    rw [hd, show L + b = (L - (challenges.length - b)) + challenges.length by omega, Nat.pow_add]
    exact Nat.mul_le_mul_right _ hc
  obtain ⟨v, e, hs, hv⟩ := interleaveLoop_eq (challenges.take b) (2 ^ (challenges.drop b).length)
    (asSlice (Merkle.chunk data (2 ^ challenges.length) c)) (2 ^ challenges.length)
    (by rw [← Nat.pow_add, hlt, hld]; congr 1; omega) (by unfold asSlice; dsimp only; rw [chunk_length hcl])
  rw [e, Option.bind_some]
  unfold foldWord
  refine foldChunkLoop_word h2 h ht c _ L _ v (by omega) hL (by rw [hld]; exact hc) ?_ fun k hk => ?_
  · rw [hs]
    unfold asSlice
    dsimp only
    rw [chunk_length hcl]
    exact Nat.pow_le_pow_right (by omega) (by omega)
  · rw [hv k hk]
    unfold combine
    rw [hlt]
    unfold mle
    refine sum_congr rfl fun x hx => ?_
    rw [mem_range, hlt] at hx
    rw [hld] at hk ⊢
    have hkx : k * 2 ^ b + x < 2 ^ challenges.length := by
      have := Nat.mul_le_mul_right (2 ^ b) hk
      rw [Nat.succ_mul, ← Nat.pow_add, show challenges.length - b + b = challenges.length by omega] at this
      omega
    congr 1
    refine (chunk_word hkx).trans ?_
    congr 1
    rw [Nat.add_mul, Nat.mul_assoc, ← Nat.pow_add, show challenges.length - b + b = challenges.length by omega,
      Nat.add_assoc]

end Verif.Fri
