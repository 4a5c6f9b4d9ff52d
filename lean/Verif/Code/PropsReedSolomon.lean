import Verif.Code.ModelReedSolomon
import Verif.NTT.PropsNtt
import Mathlib.Algebra.Module.BigOperators

/-! C15: Reed–Solomon encoding. -/

set_option linter.unusedSectionVars false

namespace Verif.Code

open Finset Verif.NTT Verif.NTT.Spec
open Verif.Subspace (BinarySubspace)

variable {F : Type*} [Field F] [DecidableEq F]

/-- **C15** (construction).  The constructors check the dimension of the evaluation domain; the code over an NTT
has the NTT's subspace of that dimension as its domain. -/
theorem C15_construct (h2 : (1 : F) + 1 = 0) {β : List F} {tas tbl : List (TA F)}
    (h : Verif.NTT.withSubspace (⟨β⟩ : BinarySubspace F) = some (.ok tas))
    (ht : tbl = tas ∨ tbl = precomputeTwiddles tas) (ld lr : Nat) :
    (∀ s : BinarySubspace F, ReedSolomonCode.withSubspace s ld lr =
      if s.basis.length = ld + lr then .ok ⟨s, ld, lr⟩ else .error .subspaceDimensionMismatch) ∧
    (β.length < ld + lr → ReedSolomonCode.withNttSubspace tbl ld lr = some (.error .subspaceDimensionMismatch)) ∧
    (0 < ld + lr → ld + lr ≤ β.length →
      ReedSolomonCode.withNttSubspace tbl ld lr = some (.ok ⟨⟨domainBasis β (ld + lr)⟩, ld, lr⟩)) := by
  obtain ⟨-, -, hind, hr⟩ := ready_of h2 h ht
  refine ⟨fun s => ?_, fun hl => ?_, fun h0 hl => ?_⟩
  · unfold ReedSolomonCode.withSubspace
    by_cases hs : s.basis.length = ld + lr
    · rw [if_neg (not_not.2 hs), if_pos hs]
    · rw [if_pos hs, if_neg hs]
  · unfold ReedSolomonCode.withNttSubspace
    rw [hr.length, if_pos hl]
  · unfold ReedSolomonCode.withNttSubspace
    obtain ⟨hs, hlen, -⟩ := C13_subspace h2 h ht (ld + lr) h0 hl
    rw [hr.length, if_neg (by omega), hs, Option.map_some]
    unfold ReedSolomonCode.withSubspace
    rw [if_neg (not_not.2 hlen)]

/-- The buffer after the repetition of the message. -/
def repeated (w ld lb : Nat) (d : Slice (Lanes F)) : Slice (Lanes F) :=
  let d := if 2 ^ ld + lb < w then repeatLanes (ld + lb) d else d
  ⟨d.size, fun e => d.val (e % 2 ^ (ld + lb - w))⟩

theorem repeated_size (w ld lb : Nat) (d : Slice (Lanes F)) : (repeated w ld lb d).size = d.size := by
  unfold repeated
  dsimp only
  split <;> rfl

/-- The encoding is the repetition followed by the transform. -/
theorem encode_eq (h2 : (1 : F) + 1 = 0) {β : List F} {tas tbl : List (TA F)}
    (h : Verif.NTT.withSubspace (⟨β⟩ : BinarySubspace F) = some (.ok tas))
    (ht : tbl = tas ∨ tbl = precomputeTwiddles tas) (w ld lr lb : Nat) (h0 : 0 < ld + lr) (hl : ld + lr ≤ β.length)
    (d : Slice (Lanes F)) (hd : d.size = 2 ^ (ld + lr + lb - w)) :
    (∃ k, (repeated w ld lb d).size = 2 ^ k) ∧ SizeOk w lb (ld + lr) 0 (repeated w ld lb d).size ∧
    ∃ d', forward β.length w tbl (repeated w ld lb d) ⟨lb, ld + lr, 0⟩ 0 0 lr = some (.ok d') ∧
      encodeBatch β.length w tbl ⟨⟨domainBasis β (ld + lr)⟩, ld, lr⟩ d lb = some (.ok d') := by
  have hs := repeated_size w ld lb d
  have hpow : ∃ k, (repeated w ld lb d).size = 2 ^ k := ⟨_, hs.trans hd⟩
  have hso : SizeOk w lb (ld + lr) 0 (repeated w ld lb d).size := by
    rw [hs, hd]
    rcases Nat.lt_or_ge (ld + lr + lb) w with hlt | hge
    · refine Or.inr ⟨Or.inl ?_, ?_⟩
      · rw [show ld + lr + lb - w = 0 by omega]; rfl
      · rw [show ld + lr + lb - w = 0 by omega, Nat.pow_zero, Nat.one_mul]
        exact Nat.pow_le_pow_right (by omega) (by omega)
    · refine Or.inl ?_
      rw [← Nat.pow_add]
      congr 1
      omega
  refine ⟨hpow, hso, ?_⟩
  obtain ⟨d', e, -⟩ := C13_forward h2 h ht w lb (ld + lr) 0 0 0 lr (repeated w ld lb d) hpow hso (by omega) (by decide)
    (by omega)
  refine ⟨d', e, ?_⟩
  obtain ⟨hsub, -⟩ := C13_subspace h2 h ht (ld + lr) h0 hl
  unfold encodeBatch
  rw [show ReedSolomonCode.logLen (⟨⟨domainBasis β (ld + lr)⟩, ld, lr⟩ : ReedSolomonCode F) = ld + lr from rfl, hsub,
    Option.bind_some, if_neg (by simp)]
  dsimp only
  rw [if_neg (not_not.2 hd)]
  have hc : ∀ d1 : Slice (Lanes F), d1.size = d.size → copyChunks (2 ^ (ld + lb - w)) d1 =
      some ⟨d1.size, fun e => d1.val (e % 2 ^ (ld + lb - w))⟩ := by
    intro d1 h1
    unfold copyChunks
    rw [if_neg]
    rw [h1, hd]
    have := Nat.two_pow_pos (ld + lr + lb - w)
    have hdvd : 2 ^ (ld + lb - w) ∣ 2 ^ (ld + lr + lb - w) := pow_dvd_pow 2 (by omega)
    have := Nat.mod_eq_zero_of_dvd hdvd
    omega
  unfold ReedSolomonCode.dim
  dsimp only
  rw [hc _ (by split <;> rfl), Option.bind_some]
  unfold repeated at e
  dsimp only at e
  rw [e]
  rfl

/-- An element of an extension from its coordinates, as `cast_bases` lays them out. -/
def extElement {E : Type*} [AddCommGroup E] [Module F E] (w k : Nat) (basis : Nat → E) (d : Slice (Lanes F))
    (p : Nat) : E := ∑ i ∈ range (2 ^ k), flat w d (p * 2 ^ k + i) • basis i

/-- The transform of the repeated buffer is injective. -/
theorem forward_injective (h2 : (1 : F) + 1 = 0) {β : List F} {tas tbl : List (TA F)}
    (h : Verif.NTT.withSubspace (⟨β⟩ : BinarySubspace F) = some (.ok tas))
    (ht : tbl = tas ∨ tbl = precomputeTwiddles tas) (w ld lr lb : Nat) (h0 : 0 < ld + lr) (hl : ld + lr ≤ β.length)
    (d1 d2 c1 c2 : Slice (Lanes F)) (hs1 : d1.size = 2 ^ (ld + lr + lb - w)) (hs2 : d2.size = 2 ^ (ld + lr + lb - w))
    (he1 : encodeBatch β.length w tbl ⟨⟨domainBasis β (ld + lr)⟩, ld, lr⟩ d1 lb = some (.ok c1))
    (he2 : encodeBatch β.length w tbl ⟨⟨domainBasis β (ld + lr)⟩, ld, lr⟩ d2 lb = some (.ok c2))
    (hc : ∀ p < 2 ^ (ld + lr + lb), flat w c1 p = flat w c2 p) :
    ∀ p < 2 ^ (ld + lr + lb), flat w (repeated w ld lb d1) p = flat w (repeated w ld lb d2) p := by
  obtain ⟨-, -, hind, hr⟩ := ready_of h2 h ht
  obtain ⟨hp1, hso1, f1, g1, g1'⟩ := encode_eq h2 h ht w ld lr lb h0 hl d1 hs1
  obtain ⟨hp2, hso2, f2, g2, g2'⟩ := encode_eq h2 h ht w ld lr lb h0 hl d2 hs2
  obtain rfl : f1 = c1 := by rw [g1'] at he1; injection he1 with he1; injection he1
  obtain rfl : f2 = c2 := by rw [g2'] at he2; injection he2 with he2; injection he2
  obtain ⟨a1, q1, -, v1⟩ := forward_eq (d := repeated w ld lb d1) (w := w) (lx := lb) (ly := ld + lr) (lz := 0)
    (coset := 0) (cb := 0) (skip := lr) h2 hr hind (check_ok.2 ⟨hp1, by omega, hso1, by decide, by omega⟩)
  obtain ⟨a2, q2, -, v2⟩ := forward_eq (d := repeated w ld lb d2) (w := w) (lx := lb) (ly := ld + lr) (lz := 0)
    (coset := 0) (cb := 0) (skip := lr) h2 hr hind (check_ok.2 ⟨hp2, by omega, hso2, by decide, by omega⟩)
  obtain rfl : f1 = a1 := by rw [g1] at q1; injection q1 with q1; injection q1
  obtain rfl : f2 = a2 := by rw [g2] at q2; injection q2 with q2; injection q2
  have hn : lb + (ld + lr) + 0 = ld + lr + lb := by omega
  rw [hn] at v1 v2
  intro p hp
  have hcc : ∀ q < 2 ^ (ld + lr + lb), _ = _ := fun q hq => (v1 q hq).symm.trans ((hc q hq).trans (v2 q hq))
  have := invLayers_congr (γ := domainBasis β (ld + lr + 0)) (lx := lb) (ly := ld + lr)
    (coset := 0) (n := ld + lr + lb) (s := ld + lr - lr) (by omega) hcc (ld + lr - lr) le_rfl p hp
  rw [invLayers_fwdLayers h2 _ _ _ _ _ _ _ le_rfl, invLayers_fwdLayers h2 _ _ _ _ _ _ _ le_rfl, Nat.sub_self] at this
  exact this

/-- The parameters for which the message is repeated in the whole buffer. -/
def Wide (w ld lr lb : Nat) : Prop := w ≤ ld + lb ∨ 2 ^ ld + lb < w ∨ lr = 0

theorem flat_repeated {w ld lr lb : Nat} (hw : Wide w ld lr lb) (d : Slice (Lanes F))
    (hd : d.size = 2 ^ (ld + lr + lb - w)) (p : Nat) (hp : p < 2 ^ (ld + lr + lb)) :
    flat w (repeated w ld lb d) p = flat w d (p % 2 ^ (ld + lb)) := by
  have hld : ld < 2 ^ ld := Nat.lt_two_pow_self
  unfold repeated flat
  rcases hw with hw | hw | hw
  · rw [if_neg (by omega)]
    dsimp only
    have e : 2 ^ (ld + lb) = 2 ^ (ld + lb - w) * 2 ^ w := by rw [← Nat.pow_add]; congr 1; omega
    rw [e, Nat.mod_mul_left_div_self, Nat.mod_mul_left_mod]
  · rw [if_pos hw]
    unfold repeatLanes
    dsimp only
    rw [show ld + lb - w = 0 by omega, Nat.pow_zero, Nat.mod_one, if_pos rfl]
    have hlt : p % 2 ^ (ld + lb) < 2 ^ w :=
      lt_trans (Nat.mod_lt _ (Nat.two_pow_pos _)) (Nat.pow_lt_pow_right (by omega) (by omega))
    rw [Nat.div_eq_of_lt hlt, Nat.mod_eq_of_lt hlt, Nat.mod_mod_of_dvd _ (pow_dvd_pow 2 (by omega))]
  · subst hw
    rw [Nat.add_zero] at hp
    rw [Nat.mod_eq_of_lt hp]
    by_cases hc : 2 ^ ld + lb < w
    · rw [if_pos hc]
      unfold repeatLanes
      have hlt : p < 2 ^ w := lt_trans hp (Nat.pow_lt_pow_right (by omega) (by omega))
      dsimp only
      rw [Nat.div_eq_of_lt hlt, Nat.zero_mod, if_pos rfl, Nat.mod_eq_of_lt hlt, Nat.mod_eq_of_lt hp]
    · rw [if_neg hc]
      dsimp only
      rw [Nat.mod_eq_of_lt (a := p / 2 ^ w)]
      rw [Nat.div_lt_iff_lt_mul (Nat.two_pow_pos _), ← Nat.pow_add]
      exact lt_of_lt_of_le hp (Nat.pow_le_pow_right (by omega) (by omega))

/-- **C15** (encoding, where the message is repeated).  For every NTT, code and batch size: encoding
succeeds, and symbol `y` of codeword `x` of the interleaved batch is the value, at the `y`-th point of the
evaluation domain, of the polynomial whose coefficients in the novel basis of the domain are message `x`.  The
contents of the buffer after the messages do not matter.  Missing: the parameters excluded by `Wide`, for which
this is false (`C15_short_message_wrong`). -/
theorem C15_encode_partial (h2 : (1 : F) + 1 = 0) {β : List F} {tas tbl : List (TA F)}
    (h : Verif.NTT.withSubspace (⟨β⟩ : BinarySubspace F) = some (.ok tas))
    (ht : tbl = tas ∨ tbl = precomputeTwiddles tas) (w ld lr lb : Nat) (h0 : 0 < ld + lr) (hl : ld + lr ≤ β.length)
    (hw : Wide w ld lr lb) (d : Slice (Lanes F)) (hd : d.size = 2 ^ (ld + lr + lb - w)) :
    ∃ d', encodeBatch β.length w tbl ⟨⟨domainBasis β (ld + lr)⟩, ld, lr⟩ d lb = some (.ok d') ∧ d'.size = d.size ∧
      ∀ x < 2 ^ lb, ∀ y < 2 ^ (ld + lr), flat w d' (y * 2 ^ lb + x) =
        novelEval (domainBasis β (ld + lr)) (2 ^ ld) (fun j => flat w d (j * 2 ^ lb + x))
          (point (domainBasis β (ld + lr)) y) := by
  obtain ⟨hpow, hso, d', e, e'⟩ := encode_eq h2 h ht w ld lr lb h0 hl d hd
  obtain ⟨d'', e'', hs, hv⟩ := C13_forward h2 h ht w lb (ld + lr) 0 0 0 lr (repeated w ld lb d) hpow hso (by omega)
    (by decide) (by omega)
  obtain rfl : d' = d'' := by rw [e] at e''; injection e'' with e''; injection e''
  refine ⟨d', e', hs.trans (repeated_size w ld lb d), fun x hx y hy => ?_⟩
  have := hv x hx y hy 0 (by decide)
  rw [show position lb (ld + lr) x y 0 = y * 2 ^ lb + x by unfold position; omega,
    show ld + lr + 0 = ld + lr from rfl, show ld + lr - lr = ld by omega, Nat.zero_mul, Nat.zero_add] at this
  rw [this]
  unfold novelEval
  refine sum_congr rfl fun j hj => ?_
  rw [mem_range] at hj
  congr 1
  have hpos : position lb (ld + lr) x (y / 2 ^ ld * 2 ^ ld + j) 0 = y / 2 ^ ld * 2 ^ (ld + lb) + (j * 2 ^ lb + x) := by
    unfold position
    rw [Nat.zero_mul, Nat.zero_add, Nat.add_mul, Nat.mul_assoc, ← Nat.pow_add, Nat.add_assoc]
  have hin : j * 2 ^ lb + x < 2 ^ (ld + lb) := by
    have := Nat.mul_le_mul_right (2 ^ lb) hj
    rw [Nat.succ_mul, ← Nat.pow_add] at this
    omega
  have hlt : position lb (ld + lr) x (y / 2 ^ ld * 2 ^ ld + j) 0 < 2 ^ (ld + lr + lb) := by
    rw [hpos]
    have h1 : y / 2 ^ ld < 2 ^ lr := by
      rw [Nat.div_lt_iff_lt_mul (Nat.two_pow_pos _), ← Nat.pow_add, Nat.add_comm]; exact hy
    have h3 := Nat.mul_le_mul_right (2 ^ (ld + lb)) h1
    rw [Nat.succ_mul, ← Nat.pow_add, show lr + (ld + lb) = ld + lr + lb by omega] at h3
    omega
  beta_reduce
  rw [flat_repeated hw d hd _ hlt, hpos, Nat.add_comm (_ * _) (_ + _), Nat.add_mul_mod_self_right, Nat.mod_eq_of_lt hin]

/-- **C15** (linearity).  Encoding a linear combination of messages gives the linear combination of the
codewords. -/
theorem C15_linear_partial (h2 : (1 : F) + 1 = 0) {β : List F} {tas tbl : List (TA F)}
    (h : Verif.NTT.withSubspace (⟨β⟩ : BinarySubspace F) = some (.ok tas))
    (ht : tbl = tas ∨ tbl = precomputeTwiddles tas) (w ld lr lb : Nat) (h0 : 0 < ld + lr) (hl : ld + lr ≤ β.length)
    (hw : Wide w ld lr lb) (d1 d2 d3 : Slice (Lanes F)) (a b : F) (hs1 : d1.size = 2 ^ (ld + lr + lb - w))
    (hs2 : d2.size = 2 ^ (ld + lr + lb - w)) (hs3 : d3.size = 2 ^ (ld + lr + lb - w))
    (hm : ∀ p < 2 ^ (ld + lb), flat w d3 p = a * flat w d1 p + b * flat w d2 p) :
    ∃ c1 c2 c3, encodeBatch β.length w tbl ⟨⟨domainBasis β (ld + lr)⟩, ld, lr⟩ d1 lb = some (.ok c1) ∧
      encodeBatch β.length w tbl ⟨⟨domainBasis β (ld + lr)⟩, ld, lr⟩ d2 lb = some (.ok c2) ∧
      encodeBatch β.length w tbl ⟨⟨domainBasis β (ld + lr)⟩, ld, lr⟩ d3 lb = some (.ok c3) ∧
      ∀ p < 2 ^ (ld + lr + lb), flat w c3 p = a * flat w c1 p + b * flat w c2 p := by
  obtain ⟨c1, e1, -, v1⟩ := C15_encode_partial h2 h ht w ld lr lb h0 hl hw d1 hs1
  obtain ⟨c2, e2, -, v2⟩ := C15_encode_partial h2 h ht w ld lr lb h0 hl hw d2 hs2
  obtain ⟨c3, e3, -, v3⟩ := C15_encode_partial h2 h ht w ld lr lb h0 hl hw d3 hs3
  refine ⟨c1, c2, c3, e1, e2, e3, fun p hp => ?_⟩
  have hx := Nat.mod_lt p (Nat.two_pow_pos lb)
  have hy : p / 2 ^ lb < 2 ^ (ld + lr) := by
    rw [Nat.div_lt_iff_lt_mul (Nat.two_pow_pos _), ← Nat.pow_add]; exact hp
  have w1 := v1 _ hx _ hy
  have w2 := v2 _ hx _ hy
  have w3 := v3 _ hx _ hy
  rw [Nat.div_add_mod'] at w1 w2 w3
  rw [w1, w2, w3]
  unfold novelEval
  rw [mul_sum, mul_sum, ← sum_add_distrib]
  refine sum_congr rfl fun j hj => ?_
  rw [mem_range] at hj
  beta_reduce
  rw [hm _ (by
    have := Nat.mul_le_mul_right (2 ^ lb) hj
    rw [Nat.succ_mul, ← Nat.pow_add] at this
    omega)]
  ring

/-- **C15** (injectivity).  Messages with the same codeword are equal. -/
theorem C15_injective_partial (h2 : (1 : F) + 1 = 0) {β : List F} {tas tbl : List (TA F)}
    (h : Verif.NTT.withSubspace (⟨β⟩ : BinarySubspace F) = some (.ok tas))
    (ht : tbl = tas ∨ tbl = precomputeTwiddles tas) (w ld lr lb : Nat) (h0 : 0 < ld + lr) (hl : ld + lr ≤ β.length)
    (hw : Wide w ld lr lb) (d1 d2 c1 c2 : Slice (Lanes F)) (hs1 : d1.size = 2 ^ (ld + lr + lb - w))
    (hs2 : d2.size = 2 ^ (ld + lr + lb - w))
    (he1 : encodeBatch β.length w tbl ⟨⟨domainBasis β (ld + lr)⟩, ld, lr⟩ d1 lb = some (.ok c1))
    (he2 : encodeBatch β.length w tbl ⟨⟨domainBasis β (ld + lr)⟩, ld, lr⟩ d2 lb = some (.ok c2))
    (hc : ∀ p < 2 ^ (ld + lr + lb), flat w c1 p = flat w c2 p) :
    ∀ p < 2 ^ (ld + lb), flat w d1 p = flat w d2 p := by
  have key := forward_injective h2 h ht w ld lr lb h0 hl d1 d2 c1 c2 hs1 hs2 he1 he2 hc
  intro p hp
  have hp' : p < 2 ^ (ld + lr + lb) := lt_of_lt_of_le hp (Nat.pow_le_pow_right (by omega) (by omega))
  have := key p hp'
  rwa [flat_repeated hw d1 hs1 p hp', flat_repeated hw d2 hs2 p hp', Nat.mod_eq_of_lt hp] at this

/-- **C15** (the exception).  When the messages together are shorter than a packed element but not by enough
(the code compares the message *length*, not its logarithm, with the logarithm of the width) and the code has
redundancy, the message is not repeated within the packed element: the encoding depends on what the buffer holds
after the messages, so it is not the encoding of the message. -/
theorem C15_short_message_wrong (h2 : (1 : F) + 1 = 0) {β : List F} {tas tbl : List (TA F)}
    (h : Verif.NTT.withSubspace (⟨β⟩ : BinarySubspace F) = some (.ok tas))
    (ht : tbl = tas ∨ tbl = precomputeTwiddles tas) (w ld lr lb : Nat) (h0 : 0 < ld + lr) (hl : ld + lr ≤ β.length)
    (hw : ¬ Wide w ld lr lb) :
    ∃ d1 d2 c1 c2 : Slice (Lanes F), d1.size = 2 ^ (ld + lr + lb - w) ∧ d2.size = 2 ^ (ld + lr + lb - w) ∧
      encodeBatch β.length w tbl ⟨⟨domainBasis β (ld + lr)⟩, ld, lr⟩ d1 lb = some (.ok c1) ∧
      encodeBatch β.length w tbl ⟨⟨domainBasis β (ld + lr)⟩, ld, lr⟩ d2 lb = some (.ok c2) ∧
      (∀ p < 2 ^ (ld + lb), flat w d1 p = flat w d2 p) ∧
      ∃ p < 2 ^ (ld + lr + lb), flat w c1 p ≠ flat w c2 p := by
  unfold Wide at hw
  push Not at hw
  obtain ⟨hw1, hw2, hw3⟩ := hw
  obtain ⟨-, -, c1, -, e1⟩ := encode_eq h2 h ht w ld lr lb h0 hl ⟨2 ^ (ld + lr + lb - w), fun _ _ => 0⟩ rfl
  obtain ⟨-, -, c2, -, e2⟩ := encode_eq h2 h ht w ld lr lb h0 hl
    ⟨2 ^ (ld + lr + lb - w), fun _ l => if l = 2 ^ (ld + lb) then 1 else 0⟩ rfl
  have hlt : 2 ^ (ld + lb) < 2 ^ w := Nat.pow_lt_pow_right (by omega) hw1
  refine ⟨_, _, c1, c2, rfl, rfl, e1, e2, fun p hp => ?_, ?_⟩
  · unfold flat
    dsimp only
    rw [Nat.mod_eq_of_lt (a := p) (by omega), if_neg (by omega)]
  · by_contra hc
    push Not at hc
    have := forward_injective h2 h ht w ld lr lb h0 hl _ _ c1 c2 rfl rfl e1 e2 hc (2 ^ (ld + lb))
      (Nat.pow_lt_pow_right (by omega) (by omega))
    unfold flat repeated at this
    dsimp only at this
    rw [if_neg (by omega), if_neg (by omega)] at this
    dsimp only at this
    rw [Nat.mod_eq_of_lt hlt, if_pos rfl] at this
    exact zero_ne_one this

/-- **C15** (checks).  A code over another subspace than the NTT's, and a buffer of the wrong length, are
rejected with an error. -/
theorem C15_errors (h2 : (1 : F) + 1 = 0) {β : List F} {tas tbl : List (TA F)}
    (h : Verif.NTT.withSubspace (⟨β⟩ : BinarySubspace F) = some (.ok tas))
    (ht : tbl = tas ∨ tbl = precomputeTwiddles tas) (w lb : Nat) (c : ReedSolomonCode F)
    (h0 : 0 < c.logDimension + c.logInvRate) (hl : c.logDimension + c.logInvRate ≤ β.length) (d : Slice (Lanes F)) :
    (c.subspace ≠ ⟨domainBasis β (c.logDimension + c.logInvRate)⟩ →
      encodeBatch β.length w tbl c d lb = some (.error .encoderSubspaceMismatch)) ∧
    (c.subspace = ⟨domainBasis β (c.logDimension + c.logInvRate)⟩ →
      d.size ≠ 2 ^ (c.logDimension + c.logInvRate + lb - w) →
      ∃ e, encodeBatch β.length w tbl c d lb = some (.error (.incorrectBufferLength e d.size))) := by
  obtain ⟨hsub, -⟩ := C13_subspace h2 h ht _ h0 hl
  constructor
  · intro hs
    unfold encodeBatch ReedSolomonCode.logLen
    rw [hsub, Option.bind_some, if_pos (Ne.symm hs)]
  · intro hs hd
    refine ⟨2 ^ (c.logDimension + c.logInvRate + lb - w), ?_⟩
    unfold encodeBatch ReedSolomonCode.logLen
    rw [hsub, Option.bind_some, if_neg (not_not.2 hs.symm)]
    dsimp only
    rw [if_pos hd]

/-- **C15** (extension fields).  Let the elements of an extension be represented over a basis of `2^k` elements.
Encoding a batch of messages of extension elements gives the evaluations of the polynomials with these extension
elements as coefficients. -/
theorem C15_ext_partial {E : Type*} [AddCommGroup E] [Module F E] (h2 : (1 : F) + 1 = 0) {β : List F}
    {tas tbl : List (TA F)} (h : Verif.NTT.withSubspace (⟨β⟩ : BinarySubspace F) = some (.ok tas))
    (ht : tbl = tas ∨ tbl = precomputeTwiddles tas) (w ld lr lb k : Nat) (h0 : 0 < ld + lr) (hl : ld + lr ≤ β.length)
    (hw : Wide w ld lr (lb + k)) (basis : Nat → E) (d : Slice (Lanes F))
    (hd : d.size = 2 ^ (ld + lr + (lb + k) - w)) :
    ∃ d', encodeExtBatch β.length w tbl ⟨⟨domainBasis β (ld + lr)⟩, ld, lr⟩ d lb k = some (.ok d') ∧
      ∀ x < 2 ^ lb, ∀ y < 2 ^ (ld + lr), extElement w k basis d' (y * 2 ^ lb + x) =
        ∑ j ∈ range (2 ^ ld), novel (domainBasis β (ld + lr)) j (point (domainBasis β (ld + lr)) y) •
          extElement w k basis d (j * 2 ^ lb + x) := by
  obtain ⟨d', e, -, hv⟩ := C15_encode_partial h2 h ht w ld lr (lb + k) h0 hl hw d hd
  refine ⟨d', e, fun x hx y hy => ?_⟩
  unfold extElement
  simp only [smul_sum]
  rw [sum_comm]
  refine sum_congr rfl fun i hi => ?_
  rw [mem_range] at hi
  have hidx : ∀ y, (y * 2 ^ lb + x) * 2 ^ k + i = y * 2 ^ (lb + k) + (x * 2 ^ k + i) := by
    intro y
    rw [Nat.pow_add]; ring
  have hlt : x * 2 ^ k + i < 2 ^ (lb + k) := by
    have := Nat.mul_le_mul_right (2 ^ k) hx
    rw [Nat.succ_mul, ← Nat.pow_add] at this
    omega
  rw [hidx, hv _ hlt y hy]
  unfold novelEval
  rw [sum_smul]
  refine sum_congr rfl fun j _ => ?_
  rw [smul_smul, hidx, mul_comm]

/-! ### The hypotheses are met -/

/-- A code of dimension two and length four in packed elements of two lanes, a message of one symbol repeated
within a packed element of four lanes, and the smallest case of the exception. -/
example : (∃ tas, Verif.NTT.withSubspace (⟨exampleBasis⟩ : BinarySubspace (Field.T 1)) = some (.ok tas)) ∧
    Wide 1 1 1 0 ∧ Wide 2 0 1 0 ∧ ¬ Wide 1 0 1 0 ∧ ¬ Wide 3 2 1 0 ∧ 0 < 1 + 1 ∧ 1 + 1 ≤ exampleBasis.length := by
  refine ⟨exampleBasis_ok, ?_, ?_, ?_, ?_, by decide, by decide⟩ <;> unfold Wide <;> decide

end Verif.Code
